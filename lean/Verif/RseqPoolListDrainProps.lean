import Verif.RseqPoolListDrain

/-!
C107 for the list test: from every state it reaches, the threads can be scheduled so that the test ends and passes.
-/

namespace Verif.Joint

open Mempool (Config Ghost Hist cpuAddr InRegion RangeEnv)

variable [Abi] {T : Nat → Rseq.Site wb} {fld : Rseq.Fld} {be : Bool} {c : Config} {p B : Nat}
  {node : BitVec 32 → Nat → Rseq.W wb} {priv : Nat → Nat → Rseq.W wb → Prop}

/-- **C107: `test_percpu_list` can always end** (param_test.c:769-885).  Whatever its threads have done since the lists were
built: if no signal handler has returned with a node (`Kept`) and what `malloc` returned is still outside of the pool, the
threads can be scheduled so that all of them are outside of helpers and handlers and every node is in a list again; then
the loop that empties the lists finds the expected sum, and freeing the item and destroying the pool succeed. -/
theorem list_test_can_end (hbe : ∀ q, (T q).prog.be = be) {attrOk : Bool} {pg detected : Nat}
    (hpg : ∃ k, pg = 2 ^ k) (hdet : detected < 2 ^ 31) {callocOk nameOk : Bool} {env env' : RangeEnv}
    {m : Verif.Mem} (hwf : m.WF)
    (henv : ∀ c s, Mempool.create (some testAttr) (BitVec.ofNat _ wb) pg detected callocOk nameOk env m = .pool c s →
      Mempool.EnvOK c [] m env ∧ Mempool.EnvOK c s.pool.ranges s.mem env') {s0 : Mempool.State}
    (h0 : testSetup (BitVec.ofNat _ wb) attrOk pg detected callocOk nameOk env m env' = some (c, p, s0))
    (hH : Heap c ⟨s0, [p], []⟩ node B priv) (hB : 2 * B < 2 ^ (8 * wb)) (hcan : Rseq.CanCall T fld .cbneStore)
    {g1 : Ghost} (w1 : Writes c p ⟨s0, [p], []⟩ g1) {exp : BitVec 64}
    (v1 : Rseq.listSetup (listLayout be fld c p node B priv) nodeData node B (view c s0.mem) = some (view c g1.s.mem, exp))
    {s : Rseq.State wb} {G : Rseq.Stacks wb} {g : Ghost}
    (h : ListPool T (listLayout be fld c p node B priv) c p (Rseq.Stacks.fresh (Rseq.listNodes node B)) g1 s G g)
    (hHg : Heap c g node B priv) (hk : Rseq.Kept s G) :
    ∃ (s' : Rseq.State wb) (G' : Rseq.Stacks wb) (g' : Ghost),
      ListFrom T (listLayout be fld c p node B priv) c p s G g s' G' g' ∧ (∀ x, G'.own x = none) ∧
      (∀ u, Rseq.Idle (s'.th u)) ∧ ∀ loops, detected * B < loops →
        ∃ m' g2, Rseq.popAll be nodeNext nodeData (ctr c p 0) loops (cpus c) (view c g'.s.mem) 0#64 = some (m', exp) ∧
          Writes c p g' g2 ∧ m' = view c g2.s.mem ∧ ∀ ok, testEnd c p exp exp ok g2.s = .passes := by
  have hw : (BitVec.ofNat (8 * wb) wb).toNat = wb :=
    Mempool.ofNat_toNat_lt (by rcases Abi.wb_eq with h | h <;> rw [h] <;> decide)
  obtain ⟨hg, e1, -, e2, e3, hz⟩ := testSetup_spec
    (by rw [hw]; rcases Abi.wb_eq with h | h <;> rw [h] <;> decide) hpg hwf henv h0
  rw [hw] at e2
  have hn : c.ncpu ≤ 2 ^ 32 := by omega
  have hp : p ∈ (⟨s0, [p], []⟩ : Ghost).live := .head _
  obtain ⟨m0, f1, f2, -⟩ := Rseq.list_setup (layout_ok (be := be) (fld := fld) hg hp hn hH) (nodup_cpus hn)
    (data_apart (be := be) (fld := fld) hg hp hn hH) (nodes_ok (be := be) (fld := fld) (p := p) hH)
    fun k hk => zero_word hg hp hn (off := 0) (by omega) hz hk
  rw [f1] at v1
  injection v1 with v1
  injection v1 with v1 v2
  subst v1
  obtain ⟨j1, j2, -⟩ := w1.hist hg hp
  have hp1 : p ∈ g1.live := j2 ▸ hp
  have hH1 := heap_writes hg hp hH w1
  have hc : (0#32 : BitVec 32) ∈ cpus c := (mem_cpus hn).2 (by have := hg.valid.ncpu_pos; simp; omega)
  obtain ⟨s', G', ⟨g', q1, -⟩, q2, q3⟩ := Rseq.lists_drain wb_ge hbe (layout_ok (be := be) (fld := fld) j1 hp1 hn hH1) f2
    (list_closed hbe j1 hp1 hn hH1 f2 h) hcan hc (fun x hx => mem_allNodes (B := B) hx) ⟨g, .here, hHg⟩ hk
  refine ⟨s', G', g', q1, q2, q3, fun loops hl => ?_⟩
  obtain ⟨m0', r1, -, r3⟩ := list_test_pool (fld := fld) hbe hpg hdet hwf henv h0 hH hB
  rw [f1] at r1
  injection r1 with r1
  injection r1 with r1 r2
  obtain ⟨m', sum, t1, ⟨g2, t2, t3⟩, t4⟩ := r3 g1 w1 r1.symm (q1.pool' h) q2 loops hl
  have t5 := t4 g2 t2 t3
  rw [← r2, v2] at t5
  have hsum : sum = exp := by
    have := t5 (fun _ => true)
    unfold testEnd at this
    split at this
    · assumption
    · cases this
  subst hsum
  exact ⟨m', g2, t1, t2, t3, t5⟩

end Verif.Joint
