import Verif.RseqPoolSpinDrain

/-!
C107: the spinlock test of tests/param_test.c can always end.
-/

namespace Verif.Joint

open Mempool (Config Ghost Hist cpuAddr InRegion RangeEnv)

variable [Abi]
variable {T : Nat → Rseq.Site wb} {fld : Rseq.Fld} {be : Bool} {c : Config} {p N : Nat}

/-- **C107: `test_percpu_spinlock` can always end** (param_test.c:513-575).  Whatever the threads have done since the setup,
with locks taken, and preempted between lock and unlock or inside the lock helper: if only the `N` threads have run, signal
handlers gave back their locks before they returned (`Tame`), and no thread has exceeded its `reps` iterations, then the
threads can be scheduled so that every lock is given back and each thread makes `reps` iterations in all; then the sum is
the expected one and the item and the pool are given back. -/
theorem spinlock_test_can_end (hbe : ∀ q, (T q).prog.be = be) {attrOk : Bool} {pg detected : Nat}
    (hpg : ∃ k, pg = 2 ^ k) (hdet : detected < 2 ^ 31) {callocOk nameOk : Bool} {env env' : RangeEnv}
    {m : Verif.Mem} (hwf : m.WF)
    (henv : ∀ c s, Mempool.create (some testAttr) (BitVec.ofNat _ (2 * wb)) pg detected callocOk nameOk env m = .pool c s →
      Mempool.EnvOK c [] m env ∧ Mempool.EnvOK c s.pool.ranges s.mem env') {s0 : Mempool.State}
    (h0 : testSetup (BitVec.ofNat _ (2 * wb)) attrOk pg detected callocOk nameOk env m env' = some (c, p, s0))
    (hS : Rseq.CanCall T fld .cbneStore)
    {s : Rseq.State wb} {P : Rseq.Loops wb} {g : Ghost} (h : SpinPool T fld be c p N ⟨s0, [p], []⟩ s P g)
    (hT : Rseq.Tame N s P) {reps : Nat} (hd : ∀ t, t < N → P.done t + Rseq.owes (s.th t) (P.ph t) ≤ reps)
    (hfit : reps * N < 2 ^ (8 * wb - 1)) :
    ∃ s' P' g', SpinFrom T fld be c p N s P g s' P' g' ∧ (∀ t, t < N → P'.done t = reps) ∧ (∀ u, Rseq.Idle (s'.th u)) ∧
      (∀ u d, P'.ph u d = .idle) ∧ (∀ k ∈ cpus c, Rseq.ldw be (view c g'.s.mem) (spinLock c p k) = 0#_) ∧
      ∀ ok, testEnd c p (Rseq.sumCounts be (view c g'.s.mem) (spinCount c p) (cpus c))
        (BitVec.ofNat 64 reps * BitVec.ofNat 64 N) ok g'.s = .passes := by
  have hw : (BitVec.ofNat (8 * wb) (2 * wb)).toNat = 2 * wb :=
    Mempool.ofNat_toNat_lt (by rcases Abi.wb_eq with h | h <;> rw [h] <;> decide)
  obtain ⟨hg, e1, -, e2, e3, hz⟩ := testSetup_spec
    (by rw [hw]; rcases Abi.wb_eq with h | h <;> rw [h] <;> decide) hpg hwf henv h0
  rw [hw] at e2
  have hn : c.ncpu ≤ 2 ^ 32 := by omega
  have hp : p ∈ (⟨s0, [p], []⟩ : Ghost).live := .head _
  have hA := spin_apart hg hp hn e2
  have hc : (0#32 : BitVec 32) ∈ cpus c := (mem_cpus hn).2 (by have := hg.valid.ncpu_pos; simp; omega)
  have z1 : ∀ k ∈ cpus c, Rseq.ldw be (view c s0.mem) (spinLock c p k) = 0#_ :=
    fun k hk => zero_word hg hp hn (off := 0) (by omega) hz hk
  obtain ⟨s', P', ⟨g', q1⟩, q2, q3, q4⟩ := Rseq.spin_drains wb_ge hbe hA z1 (spin_closed hbe hg hp hn e2 z1 h) hS hc
    ⟨g, .here⟩ hT hd
  obtain ⟨-, -, i3, i4⟩ := (q1.pool' h).sound hg hp hn e2
  refine ⟨s', P', g', q1, q2, q3, q4, fun k hk => ?_,
    (spinlock_test_passes hbe hpg hdet hwf henv h0 (q1.pool' h)).2.2 reps q2 hfit⟩
  rw [← i3]
  exact Rseq.spin_free wb_ge hbe hA z1 i4 (fun u => ⟨(q3 u).2.1, fun f hf => by rw [(q3 u).2.2] at hf; cases hf⟩) hk
    (fun u d => by rw [q4 u d]; simp [Rseq.Phase.holds])

end Verif.Joint
