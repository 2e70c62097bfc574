import Verif.RseqPoolDrain

/-!
C107: the increment test and the buffer tests of tests/param_test.c can always end: no execution gets into a state from
which the threads cannot be scheduled so that the test ends, and then it passes.
-/

namespace Verif.Joint

open Mempool (Config Ghost Hist cpuAddr InRegion RangeEnv)

variable [Abi]
variable {T : Nat → Rseq.Site wb} {fld : Rseq.Fld} {be : Bool} {c : Config} {p isz len B N : Nat}
  {arr : BitVec 32 → Rseq.W wb} {node : BitVec 32 → Nat → Rseq.W wb} {priv : Nat → Nat → Rseq.W wb → Prop}
  {data : Rseq.W wb → Prop}

/-- **C107: `test_percpu_buffer` can always end** (param_test.c:1011-1119).  Whatever the threads have done since the
setup, in the middle of helpers and signal handlers and with nodes in their hands: they can be scheduled so that every
thread leaves its helper and puts back its node (:988-1000), and then the loop that empties the buffers ends with the
expected sum and the item and the pool are given back. -/
theorem buffer_test_can_end (hbe : ∀ q, (T q).prog.be = be) {attrOk : Bool} {pg detected : Nat}
    (hpg : ∃ k, pg = 2 ^ k) (hdet : detected < 2 ^ 31) {callocOk nameOk : Bool} {env env' : RangeEnv}
    {m : Verif.Mem} (hwf : m.WF)
    (henv : ∀ c s, Mempool.create (some testAttr) (BitVec.ofNat _ (3 * wb)) pg detected callocOk nameOk env m = .pool c s →
      Mempool.EnvOK c [] m env ∧ Mempool.EnvOK c s.pool.ranges s.mem env') {s0 : Mempool.State}
    (h0 : testSetup (BitVec.ofNat _ (3 * wb)) attrOk pg detected callocOk nameOk env m env' = some (c, p, s0))
    (hint : detected * B < 2 ^ 31) (hH : BufHeap c ⟨s0, [p], []⟩ arr (detected * B) wb priv)
    (hN : BufNodes c ⟨s0, [p], []⟩ arr (detected * B) priv node B) (hB : 2 * B < 2 ^ (8 * wb))
    (hS : Rseq.CanCall T fld .cbneStoreStore) {m0 : Rseq.Mem wb} {expected : BitVec 64}
    (hm0 : Rseq.ptrSetupM be (cpus c) (bufOffset c p) (bufLen c p) (bufArray c p) arr (Rseq.num (detected * B)) 0#_ node B
      (view c s0.mem) = some (m0, expected)) {g1 : Ghost} (w1 : Writes c p ⟨s0, [p], []⟩ g1) (v1 : m0 = view c g1.s.mem)
    {s : Rseq.State wb} {G : Rseq.Bufs wb} {H : Rseq.Hold} {g : Ghost}
    (h : BufPool T be fld c p wb priv (fun a => ∃ x, IsNode c node B x ∧ Rseq.InWord x a) N
      (Rseq.Bufs.fresh (Rseq.ptrItems (bufLayout be fld c p wb priv arr (detected * B)) node B)) g1 s G H g)
    (hHg : BufHeap c g arr (detected * B) wb priv) :
    ∃ s' G' H' g', BufFrom T be fld c p wb priv (fun a => ∃ x, IsNode c node B x ∧ Rseq.InWord x a) N s G H g s' G' H' g' ∧
      (∀ t, H' t = none) ∧ (∀ u, Rseq.Idle (s'.th u)) ∧ ∀ loops, detected * B < loops →
        ∃ m' g2, Rseq.forCpus (fun k => Rseq.ptrLoopM be (bufOffset c p k) (bufArray c p k) 0#_ loops) (cpus c)
            (view c g'.s.mem) 0#64 = some (m', expected) ∧ Writes c p g' g2 ∧ m' = view c g2.s.mem ∧
          ∀ ok, testEnd c p expected expected ok g2.s = .passes := by
  obtain ⟨m0', f1, ⟨f2, f3⟩, -, hmain⟩ := buffer_test_pool (T := T) (fld := fld) (N := N) hbe hpg hdet hwf henv h0 hint hH hN hB
  rw [f1] at hm0
  injection hm0 with hm0
  injection hm0 with e1 e2
  subst e1 e2
  have hw : (BitVec.ofNat (8 * wb) (3 * wb)).toNat = 3 * wb := Mempool.ofNat_toNat_lt
    (by rcases Abi.wb_eq with h | h <;> rw [h] <;> decide)
  obtain ⟨hg, e1, -, e2, e3, -⟩ := testSetup_spec (by rw [hw]; exact two_wb_lt) hpg hwf henv h0
  rw [hw] at e2
  have hp : p ∈ (⟨s0, [p], []⟩ : Ghost).live := .head _
  obtain ⟨j1, j2, -⟩ := w1.hist hg hp
  obtain ⟨s', G', H', g', q1, -, q3, q4⟩ := buf_pool_drains hbe j1 (j2 ▸ hp) (by omega) e2 (bufHeap_writes hg hp hH w1)
    (by rw [← v1]; exact f2) (by rw [← v1]; exact f3)
    (fun a ⟨x, hx, ha⟩ => ⟨w1.outside hg hp (hN.out x a hx ha), hN.arr x a hx ha, hN.priv x a hx ha⟩)
    (fun s G H g h => (hmain g1 w1 v1 h).1) (.inl ⟨rfl, hS⟩) h hHg
  refine ⟨s', G', H', g', q1, q3, q4, fun loops hlo => ?_⟩
  obtain ⟨m', sum, r1, ⟨g2, r2, r3⟩, r4⟩ := (hmain g1 w1 v1 (q1.pool h)).2 q3 loops hlo
  have hsum := r4 g2 r2 r3
  have e : sum = BitVec.ofNat 64 (detected * (B * (B + 1) / 2)) := by
    refine Classical.byContradiction fun hne => ?_
    have := hsum fun _ => true
    unfold testEnd at this
    rw [if_neg hne] at this
    cases this
  rw [e] at r1 hsum
  exact ⟨m', g2, r1, r2, r3, hsum⟩

/-- **C107: `test_percpu_memcpy_buffer` can always end** (param_test.c:1255-1360).  As `buffer_test_can_end`; `hloc`: every
thread has a local variable for an item (:1233). -/
theorem memcpy_buffer_test_can_end (hbe : ∀ q, (T q).prog.be = be) {attrOk : Bool} {pg detected : Nat}
    (hpg : ∃ k, pg = 2 ^ k) (hdet : detected < 2 ^ 31) {callocOk nameOk : Bool} {env env' : RangeEnv}
    {m : Verif.Mem} (hwf : m.WF)
    (henv : ∀ c s, Mempool.create (some testAttr) (BitVec.ofNat _ (3 * wb)) pg detected callocOk nameOk env m = .pool c s →
      Mempool.EnvOK c [] m env ∧ Mempool.EnvOK c s.pool.ranges s.mem env') {s0 : Mempool.State}
    (h0 : testSetup (BitVec.ofNat _ (3 * wb)) attrOk pg detected callocOk nameOk env m env' = some (c, p, s0))
    {d2 : Nat} (hd : wb ≤ d2) (hd2 : d2 + 8 ≤ isz)
    (hint : detected * B < 2 ^ 31) (hH : BufHeap c ⟨s0, [p], []⟩ arr (detected * B) isz priv) {item : Rseq.W wb}
    (hi1 : ∀ a, (a - item).toNat < isz → ∀ k ∈ cpus c, ¬ (a - arr k).toNat < detected * B * isz)
    (hB : 2 * B < 2 ^ (8 * wb)) (hS : Rseq.CanCall T fld .cbneMemcpyStore)
    (hloc : ∀ t, t < N → ∃ src, ∀ a, Rseq.InRange src (Rseq.num isz) a → priv t 0 a) :
    ∃ m0 buf expected, Rseq.copySetupM be (cpus c) (bufOffset c p) (bufLen c p) (bufArray c p) arr (Rseq.num (detected * B)) isz
        d2 B (view c s0.mem) = some (m0, expected) ∧ ∀ g1, Writes c p ⟨s0, [p], []⟩ g1 → m0 = view c g1.s.mem →
    ∀ {s : Rseq.State wb} {G : Rseq.Bufs wb} {H : Rseq.Hold} {g : Ghost},
      BufPool T be fld c p isz priv (fun _ => False) N (Rseq.Bufs.fresh buf) g1 s G H g →
      BufHeap c g arr (detected * B) isz priv → (∀ a, (a - item).toNat < isz → Outside c g a.toNat) →
    ∃ s' G' H' g', BufFrom T be fld c p isz priv (fun _ => False) N s G H g s' G' H' g' ∧
      (∀ t, H' t = none) ∧ (∀ u, Rseq.Idle (s'.th u)) ∧ ∀ loops, detected * B < loops →
        ∃ m' g2, Rseq.forCpus (fun k => Rseq.copyLoopM be (bufOffset c p k) (bufArray c p k) isz item
            (Rseq.nodeVal wb be d2) loops) (cpus c) (view c g'.s.mem) 0#64 = some (m', expected) ∧ Writes c p g' g2 ∧
          m' = view c g2.s.mem ∧ ∀ ok, testEnd c p expected expected ok g2.s = .passes := by
  obtain ⟨m0, buf, f1, ⟨f2, f3⟩, -, hmain⟩ := memcpy_buffer_test_pool (T := T) (fld := fld) (N := N) hbe hpg hdet hwf henv h0
    hd hd2 hint hH hi1 hB
  refine ⟨m0, buf, _, f1, fun g1 w1 v1 s G H g h hHg hio => ?_⟩
  have hw : (BitVec.ofNat (8 * wb) (3 * wb)).toNat = 3 * wb := Mempool.ofNat_toNat_lt
    (by rcases Abi.wb_eq with h | h <;> rw [h] <;> decide)
  obtain ⟨hg, e1, -, e2, e3, -⟩ := testSetup_spec (by rw [hw]; exact two_wb_lt) hpg hwf henv h0
  rw [hw] at e2
  have hp : p ∈ (⟨s0, [p], []⟩ : Ghost).live := .head _
  obtain ⟨j1, j2, -⟩ := w1.hist hg hp
  obtain ⟨s', G', H', g', q1, q2, q3, q4⟩ := buf_pool_drains hbe j1 (j2 ▸ hp) (by omega) e2 (bufHeap_writes hg hp hH w1)
    (by rw [← v1]; exact f2) (by rw [← v1]; exact f3) (fun a ha => ha.elim)
    (fun s G H g h => (hmain g1 w1 v1 h).1) (.inr ⟨hS, hloc⟩) h hHg
  refine ⟨s', G', H', g', q1, q3, q4, fun loops hlo => ?_⟩
  obtain ⟨m', sum, r1, ⟨g2, r2, r3⟩, r4⟩ := (hmain g1 w1 v1 (q1.pool h)).2 q3 (fun a ha r hr =>
    hio a ha r (q2 ▸ hr)) loops hlo
  have hsum := r4 g2 r2 r3
  have e : sum = BitVec.ofNat 64 (detected * ((B + 1) * (B + 1) - 1)) := by
    refine Classical.byContradiction fun hne => ?_
    have := hsum fun _ => true
    unfold testEnd at this
    rw [if_neg hne] at this
    cases this
  rw [e] at r1 hsum
  exact ⟨m', g2, r1, r2, r3, hsum⟩

/-- **C107: `test_percpu_inc` can always end** (param_test.c:609-685).  Whatever the threads have done since the setup, if
the iterations they have finished and the calls they are in are not more than `reps`: they can be scheduled so that each
makes `reps` iterations in all, and then the sum is the expected one and the item and the pool are given back. -/
theorem inc_test_can_end (hbe : ∀ q, (T q).prog.be = be) {attrOk : Bool} {pg detected : Nat}
    (hpg : ∃ k, pg = 2 ^ k) (hdet : detected < 2 ^ 31) {callocOk nameOk : Bool} {env env' : RangeEnv}
    {m : Verif.Mem} (hwf : m.WF)
    (henv : ∀ c s, Mempool.create (some testAttr) (BitVec.ofNat _ wb) pg detected callocOk nameOk env m = .pool c s →
      Mempool.EnvOK c [] m env ∧ Mempool.EnvOK c s.pool.ranges s.mem env') {s0 : Mempool.State}
    (h0 : testSetup (BitVec.ofNat _ wb) attrOk pg detected callocOk nameOk env m env' = some (c, p, s0))
    (hS : Rseq.CanCall T fld .addStore)
    {s : Rseq.State wb} {done : Nat → Nat} {g : Ghost} (h : IncPool T fld c p N ⟨s0, [p], []⟩ s done g)
    {reps : Nat} (hd : ∀ t, t < N → done t + Rseq.calls (s.th t) ≤ reps) (hfit : reps * N < 2 ^ (8 * wb - 1)) :
    ∃ s' done' g', IncFrom T fld c p N s done g s' done' g' ∧ (∀ t, t < N → done' t = reps) ∧ (∀ u, Rseq.Idle (s'.th u)) ∧
      ∀ ok, testEnd c p (Rseq.sumCounts be (view c g'.s.mem) (ctr c p 0) (cpus c))
        (BitVec.ofNat 64 reps * BitVec.ofNat 64 N) ok g'.s = .passes := by
  have hw : (BitVec.ofNat (8 * wb) wb).toNat = wb :=
    Mempool.ofNat_toNat_lt (by rcases Abi.wb_eq with h | h <;> rw [h] <;> decide)
  obtain ⟨hg, e1, -, e2, -, -⟩ := testSetup_spec
    (by rw [hw]; rcases Abi.wb_eq with h | h <;> rw [h] <;> decide) hpg hwf henv h0
  rw [hw] at e2
  have hn : c.ncpu ≤ 2 ^ 32 := by omega
  have hp : p ∈ (⟨s0, [p], []⟩ : Ghost).live := .head _
  have hc : (0#32 : BitVec 32) ∈ cpus c := (mem_cpus hn).2 (by have := hg.valid.ncpu_pos; simp; omega)
  obtain ⟨s', done', ⟨g', q1⟩, q2, q3⟩ := Rseq.inc_drains (T := T) (fld := fld) (ctr := ctr c p 0) (cpus := cpus c) (N := N)
    (R := fun s' done' => ∃ g', IncFrom T fld c p N s done g s' done' g') wb_ge
    { live := fun s' done' ⟨g', h'⟩ => ((h'.pool' h).sound hg hp hn e2).2.2.2.live.1
      few := fun s' done' ⟨g', h'⟩ => ((h'.pool' h).sound hg hp hn e2).2.2.2.live.2
      step := fun s' done' t lab s'' ⟨g', h'⟩ hs ht hlab hi => by
        obtain ⟨g'', w1, w2⟩ := inc_follow hbe hg hp hn e2 (h'.pool' h) hs hlab
        exact ⟨g'', .step h' hs ht hlab hi w1 w2⟩ } hS hc ⟨g, .here⟩ hd
  exact ⟨s', done', g', q1, q2, q3, fun ok => inc_test_passes hbe hpg hdet hwf henv h0 (q1.pool' h)
    (fun t _ => ⟨(q3 t).2.1, (q3 t).2.2⟩) q2 hfit ok⟩

end Verif.Joint
