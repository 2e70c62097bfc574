import Verif.RseqSpin
/-
C89: the spinlock test counts every iteration. For every program of the nine architectures that the call sites
may use, any number of threads, schedules, migrations and signals.
-/

namespace Verif.Rseq

variable {n : Nat} {T : Nat → Site n} {fld : Fld} {be : Bool} {lock ctr : BitVec 32 → W n}
  {cpus : List (BitVec 32)} {N : Nat} {m0 : Mem n}

/-- `sum = 0; for (i = 0; i < CPU_SETSIZE; i++) sum += data.c[i].count;` with `uint64_t sum` and `intptr_t count`
(basic_percpu_ops_test.c:148, :164-166; param_test.c:564-566). -/
def sumCounts (be : Bool) (m : Mem n) (ctr : BitVec 32 → W n) (cpus : List (BitVec 32)) : BitVec 64 :=
  cpus.foldl (fun sum c => sum + (ldw be m (ctr c)).signExtend 64) 0#64

/-- At every moment, each counter holds the number of increments executed on it, and these add up to the number
of `count++` that the threads have executed. None is lost and none is counted twice. -/
theorem spin_counts (hn : 4 ≤ n) (hbe : ∀ p, (T p).prog.be = be) (hA : SpinApart lock ctr cpus)
    (h0 : ∀ c ∈ cpus, ldw be m0 (lock c) = 0#_) {s : State n} {P : Loops n}
    (h : SpinReach T fld be lock ctr cpus N m0 s P) :
    ∃ inc : BitVec 32 → Nat,
      (∀ c ∈ cpus, ldw be s.mem (ctr c) = ldw be m0 (ctr c) + BitVec.ofNat _ (inc c)) ∧
      (cpus.map inc).sum = ((List.range N).map P.done).sum := by
  obtain ⟨own, I⟩ := h.inv hn hbe hA h0
  exact I.counts

/-- Two threads (or a thread and its signal handler) are not between lock and unlock for the same CPU, wherever
they have migrated. -/
theorem spin_exclusive (hn : 4 ≤ n) (hbe : ∀ p, (T p).prog.be = be) (hA : SpinApart lock ctr cpus)
    (h0 : ∀ c ∈ cpus, ldw be m0 (lock c) = 0#_) {s : State n} {P : Loops n}
    (h : SpinReach T fld be lock ctr cpus N m0 s P) {t d u e : Nat} {c : BitVec 32}
    (h1 : (P.ph t d).holds = some c) (h2 : (P.ph u e).holds = some c) : t = u ∧ d = e := by
  obtain ⟨own, I⟩ := h.inv hn hbe hA h0
  rw [I.owns] at h1 h2
  rw [h1] at h2
  injection h2 with h2
  injection h2 with h3 h4
  exact ⟨h3, h4⟩

/-- The value loaded by `count++` is still the value of the counter when the increment is stored. -/
theorem spin_loaded (hn : 4 ≤ n) (hbe : ∀ p, (T p).prog.be = be) (hA : SpinApart lock ctr cpus)
    (h0 : ∀ c ∈ cpus, ldw be m0 (lock c) = 0#_) {s : State n} {P : Loops n}
    (h : SpinReach T fld be lock ctr cpus N m0 s P) {t d : Nat} {c : BitVec 32} {v : W n}
    (h1 : P.ph t d = .loaded c v) : ldw be s.mem (ctr c) = v := by
  obtain ⟨own, I⟩ := h.inv hn hbe hA h0
  exact I.loaded t d c v h1

/-- `assert(lock->c[cpu].v == 1)` (basic_percpu_ops_test.c:106, param_test.c:461) does not fail. -/
theorem spin_assertion (hn : 4 ≤ n) (hbe : ∀ p, (T p).prog.be = be) (hA : SpinApart lock ctr cpus)
    (h0 : ∀ c ∈ cpus, ldw be m0 (lock c) = 0#_) {s : State n} {P : Loops n}
    (h : SpinReach T fld be lock ctr cpus N m0 s P) {t d : Nat} {c : BitVec 32}
    (h1 : (P.ph t d).holds = some c) : ldw be s.mem (lock c) = 1#_ := by
  obtain ⟨own, I⟩ := h.inv hn hbe hA h0
  exact (unlock_assertion hn hbe hA.lock_lock h0 I.reach (I.cpu t d c h1)).1 (by rw [(I.owns t d c).1 h1]; simp)

theorem sumCounts_foldl {be : Bool} {m : Mem n} {inc : BitVec 32 → Nat} (B : Nat) (hB : B < 2 ^ (8 * n - 1))
    (hn : 4 ≤ n) : ∀ (cpus : List (BitVec 32)) (a : BitVec 64),
    (∀ c ∈ cpus, ldw be m (ctr c) = BitVec.ofNat _ (inc c) ∧ inc c ≤ B) →
    cpus.foldl (fun sum c => sum + (ldw be m (ctr c)).signExtend 64) a = a + BitVec.ofNat 64 (nsum inc cpus)
  | [], a, _ => by simp [nsum]
  | c :: cpus, a, h => by
    obtain ⟨h1, h2⟩ := h c (.head _)
    rw [List.foldl_cons, sumCounts_foldl B hB hn cpus _ fun c' hc' => h c' (.tail _ hc'), h1]
    have e : nsum inc (c :: cpus) = inc c + nsum inc cpus := by simp [nsum]
    have hlt : inc c < 2 ^ (8 * n - 1) := Nat.lt_of_le_of_lt h2 hB
    have hpow : 2 ^ (8 * n) = 2 * 2 ^ (8 * n - 1) := by
      rw [← Nat.pow_succ']; congr 1; omega
    have hs : (BitVec.ofNat (8 * n) (inc c)).signExtend 64 = BitVec.ofNat 64 (inc c) := by
      rw [BitVec.signExtend, BitVec.toInt_eq_toNat_of_lt]
      · rw [BitVec.toNat_ofNat, Nat.mod_eq_of_lt (by omega), BitVec.ofInt_natCast]
      · rw [BitVec.toNat_ofNat, Nat.mod_eq_of_lt (by omega)]; omega
    rw [hs, e, BitVec.ofNat_add, BitVec.add_assoc]

/-- The final check, `sum == (uint64_t)data.reps * num_threads` (basic_percpu_ops_test.c:168-170,
param_test.c:568): once each of the `N` threads has executed its `reps` iterations, the sum of the counters,
zero at the start, is `reps * N`. The product has to fit an `intptr_t`, the type of a counter. -/
theorem spin_final (hn : 4 ≤ n) (hbe : ∀ p, (T p).prog.be = be) (hA : SpinApart lock ctr cpus)
    (h0 : ∀ c ∈ cpus, ldw be m0 (lock c) = 0#_) (hz : ∀ c ∈ cpus, ldw be m0 (ctr c) = 0#_)
    {s : State n} {P : Loops n} (h : SpinReach T fld be lock ctr cpus N m0 s P) {reps : Nat}
    (hd : ∀ t < N, P.done t = reps) (hfit : reps * N < 2 ^ (8 * n - 1)) :
    sumCounts be s.mem ctr cpus = BitVec.ofNat 64 (reps * N) := by
  obtain ⟨own, I⟩ := h.inv hn hbe hA h0
  obtain ⟨inc, h1, h2⟩ := I.counts
  have h3 : nsum P.done (List.range N) = reps * N := by
    rw [nsum_congr (g := fun _ => reps) fun t ht => hd t (List.mem_range.1 ht), nsum, List.map_const',
      List.sum_replicate_nat, List.length_range]
    exact Nat.mul_comm _ _
  rw [h3] at h2
  unfold sumCounts
  rw [sumCounts_foldl (inc := inc) (reps * N) hfit hn cpus 0#64 fun c hc => ⟨by rw [h1 c hc, hz c hc]; simp, ?_⟩, h2]
  · simp
  · rw [← h2]; exact le_nsum hc

end Verif.Rseq
