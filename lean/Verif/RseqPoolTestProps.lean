import Verif.RseqPoolTest

/-!
C104: the spinlock test and the increment test of tests/param_test.c pass, from the creation of the pool to its
destruction.
-/

namespace Verif.Rseq

variable {n : Nat} {T : Nat → Site n} {fld : Fld} {ctr : BitVec 32 → W n} {cpus : List (BitVec 32)} {N : Nat}
  {m0 : Mem n} {be : Bool}

/-- When no call is in progress, the counters hold the number of increments made on them, and these add up to the
iterations the threads have finished. -/
theorem inc_counts (hn : 4 ≤ n) (hbe : ∀ p, (T p).prog.be = be) (hnd : cpus.Nodup)
    (hd : ∀ c ∈ cpus, ∀ c' ∈ cpus, ∀ a, InWord (ctr c) a → InWord (ctr c') a → c = c')
    {s : State n} {done : Nat → Nat} (h : IncReach T fld ctr cpus N m0 s done)
    (hq : ∀ t, t < N → (s.th t).top = none ∧ (s.th t).saved = []) :
    ∃ inc : BitVec 32 → Nat,
      (∀ c ∈ cpus, ldw be s.mem (ctr c) = ldw be m0 (ctr c) + BitVec.ofNat _ (inc c)) ∧
      (cpus.map inc).sum = ((List.range N).map done).sum := by
  obtain ⟨-, -, inc, h1, h2⟩ := h.inv hn hbe hnd hd
  refine ⟨inc, h1, h2.trans (nsum_congr fun t ht => ?_)⟩
  obtain ⟨e1, e2⟩ := hq t (List.mem_range.1 ht)
  show done t + pends (s.th t) = done t
  rw [pends, e1, e2]
  rfl

/-- The final check of the increment test (param_test.c:672-676). -/
theorem inc_final (hn : 4 ≤ n) (hbe : ∀ p, (T p).prog.be = be) (hnd : cpus.Nodup)
    (hd : ∀ c ∈ cpus, ∀ c' ∈ cpus, ∀ a, InWord (ctr c) a → InWord (ctr c') a → c = c')
    (hz : ∀ c ∈ cpus, ldw be m0 (ctr c) = 0#_)
    {s : State n} {done : Nat → Nat} (h : IncReach T fld ctr cpus N m0 s done)
    (hq : ∀ t, t < N → (s.th t).top = none ∧ (s.th t).saved = []) {reps : Nat}
    (hdone : ∀ t < N, done t = reps) (hfit : reps * N < 2 ^ (8 * n - 1)) :
    sumCounts be s.mem ctr cpus = BitVec.ofNat 64 (reps * N) := by
  obtain ⟨inc, h1, h2⟩ := inc_counts hn hbe hnd hd h hq
  have h3 : nsum done (List.range N) = reps * N := by
    rw [nsum_congr (g := fun _ => reps) fun t ht => hdone t (List.mem_range.1 ht), nsum, List.map_const',
      List.sum_replicate_nat, List.length_range]
    exact Nat.mul_comm _ _
  have h2 : nsum inc cpus = reps * N := h2.trans h3
  unfold sumCounts
  rw [sumCounts_foldl (inc := inc) (reps * N) hfit hn cpus 0#64 fun c hc => ⟨by rw [h1 c hc, hz c hc]; simp, ?_⟩, h2]
  · simp
  · rw [← h2]; exact le_nsum hc

end Verif.Rseq

namespace Verif.Joint

open Mempool (Config Ghost Hist cpuAddr RangeEnv)

variable [Abi]
variable {T : Nat → Rseq.Site wb} {fld : Rseq.Fld} {be : Bool} {c : Config} {p N : Nat}

/-- Freeing the item and destroying the pool succeed. -/
theorem testEnd_passes {g : Ghost} (hg : Hist c false g) (hp : p ∈ g.live) (hrob : c.robust = false)
    {sum expected : BitVec 64} (he : sum = expected) (ok : Nat → Bool) : testEnd c p sum expected ok g.s = .passes := by
  obtain ⟨s', hf, -⟩ := Mempool.free_keeps_live hg p hp
  have hg' : Hist c false ⟨s', g.live.erase p, p :: g.freed⟩ :=
    ⟨hg.valid, .step _ _ hg.reach (.free g p s' hp hf), hg.mode⟩
  obtain ⟨-, k, left, -, -, -, -, hd⟩ := Mempool.destroy_unmaps_once_partial hg' (by rw [hrob]; intro h; cases h) ok
  unfold testEnd
  rw [if_pos he, hf]
  dsimp only
  rw [show Mempool.destroy c ok s' = _ from hd]
  rfl

theorem zero_word {g : Ghost} (hg : Hist c false g) (hp : p ∈ g.live) (hn : c.ncpu ≤ 2 ^ 32) {off : Nat}
    (hoff : off + wb ≤ c.itemLen)
    (hz : ∀ k o, k < c.ncpu → o < c.itemLen → g.s.mem.read c.pg (cpuAddr c p k + o) = 0#8) {k : BitVec 32}
    (hk : k ∈ cpus c) : Rseq.ldw be (view c g.s.mem) (ctr c p off k) = 0#_ := by
  have hk := (mem_cpus hn).1 hk
  refine ldw_zero fun a ha => ?_
  obtain ⟨o, ho, e⟩ := inWord_ctr hg hp hoff hk ha
  show g.s.mem.read c.pg a.toNat = 0#8
  rw [e]
  exact hz _ _ hk (by omega)

/-- **C104: `test_percpu_spinlock` passes** (param_test.c:469-575).  If the setup succeeds, then however the `N`
threads run, whatever else happens to the pool, and for every moment at which each thread has executed its `reps`
increments: no `assert` in the unlock function has failed (the lock a thread holds is 1), no two threads were
between lock and unlock of one CPU, the sum of the counters is `reps * N`, and freeing the item and destroying the
pool succeed.  The product has to fit an `intptr_t`, the type of a counter. -/
theorem spinlock_test_passes (hbe : ∀ q, (T q).prog.be = be) {attrOk : Bool} {pg detected : Nat}
    (hpg : ∃ k, pg = 2 ^ k) (hdet : detected < 2 ^ 31) {callocOk nameOk : Bool} {env env' : RangeEnv}
    {m : Verif.Mem} (hwf : m.WF)
    (henv : ∀ c s, Mempool.create (some testAttr) (BitVec.ofNat _ (2 * wb)) pg detected callocOk nameOk env m = .pool c s →
      Mempool.EnvOK c [] m env ∧ Mempool.EnvOK c s.pool.ranges s.mem env') {s0 : Mempool.State}
    (h0 : testSetup (BitVec.ofNat _ (2 * wb)) attrOk pg detected callocOk nameOk env m env' = some (c, p, s0))
    {s : Rseq.State wb} {P : Rseq.Loops wb} {g : Ghost} (h : SpinPool T fld be c p N ⟨s0, [p], []⟩ s P g) :
    (∀ t d k, (P.ph t d).holds = some k → Rseq.ldw be (view c g.s.mem) (spinLock c p k) = 1#_) ∧
    (∀ t d u e k, (P.ph t d).holds = some k → (P.ph u e).holds = some k → t = u ∧ d = e) ∧
    ∀ reps, (∀ t < N, P.done t = reps) → reps * N < 2 ^ (8 * wb - 1) → ∀ ok,
      testEnd c p (Rseq.sumCounts be (view c g.s.mem) (spinCount c p) (cpus c))
        (BitVec.ofNat 64 reps * BitVec.ofNat 64 N) ok g.s = .passes := by
  have hw : (BitVec.ofNat (8 * wb) (2 * wb)).toNat = 2 * wb :=
    Mempool.ofNat_toNat_lt (by rcases Abi.wb_eq with h | h <;> rw [h] <;> decide)
  obtain ⟨hg, e1, -, e2, e3, hz⟩ := testSetup_spec
    (by rw [hw]; rcases Abi.wb_eq with h | h <;> rw [h] <;> decide) hpg hwf henv h0
  rw [hw] at e2
  have hn : c.ncpu ≤ 2 ^ 32 := by omega
  have hp : p ∈ (⟨s0, [p], []⟩ : Ghost).live := .head _
  have hA := spin_apart hg hp hn e2
  obtain ⟨i1, i2, i3, i4⟩ := h.sound hg hp hn e2
  have z1 : ∀ k ∈ cpus c, Rseq.ldw be (view c s0.mem) (spinLock c p k) = 0#_ :=
    fun k hk => zero_word hg hp hn (off := 0) (by omega) hz hk
  have z2 : ∀ k ∈ cpus c, Rseq.ldw be (view c s0.mem) (spinCount c p k) = 0#_ :=
    fun k hk => zero_word hg hp hn (off := wb) (by omega) hz hk
  refine ⟨fun t d k hk => ?_, fun t d u e k h1 h2 => Rseq.spin_exclusive wb_ge hbe hA z1 i4 h1 h2,
    fun reps hd hfit ok => testEnd_passes i1 i2 e3 ?_ ok⟩
  · rw [← i3]
    exact Rseq.spin_assertion wb_ge hbe hA z1 i4 hk
  · rw [← i3, Rseq.spin_final wb_ge hbe hA z1 z2 i4 hd hfit, BitVec.ofNat_mul]

/-- **C104: `test_percpu_inc` passes** (param_test.c:577-683).  If the setup succeeds, then however the `N` threads
run and whatever else happens to the pool: when each thread has finished its `reps` iterations and no call is in
progress, the sum of the counters is `reps * N`, and freeing the item and destroying the pool succeed. -/
theorem inc_test_passes (hbe : ∀ q, (T q).prog.be = be) {attrOk : Bool} {pg detected : Nat}
    (hpg : ∃ k, pg = 2 ^ k) (hdet : detected < 2 ^ 31) {callocOk nameOk : Bool} {env env' : RangeEnv}
    {m : Verif.Mem} (hwf : m.WF)
    (henv : ∀ c s, Mempool.create (some testAttr) (BitVec.ofNat _ wb) pg detected callocOk nameOk env m = .pool c s →
      Mempool.EnvOK c [] m env ∧ Mempool.EnvOK c s.pool.ranges s.mem env') {s0 : Mempool.State}
    (h0 : testSetup (BitVec.ofNat _ wb) attrOk pg detected callocOk nameOk env m env' = some (c, p, s0))
    {s : Rseq.State wb} {done : Nat → Nat} {g : Ghost} (h : IncPool T fld c p N ⟨s0, [p], []⟩ s done g)
    (hq : ∀ t, t < N → (s.th t).top = none ∧ (s.th t).saved = []) {reps : Nat} (hd : ∀ t < N, done t = reps)
    (hfit : reps * N < 2 ^ (8 * wb - 1)) (ok : Nat → Bool) :
    testEnd c p (Rseq.sumCounts be (view c g.s.mem) (ctr c p 0) (cpus c))
      (BitVec.ofNat 64 reps * BitVec.ofNat 64 N) ok g.s = .passes := by
  have hw : (BitVec.ofNat (8 * wb) wb).toNat = wb :=
    Mempool.ofNat_toNat_lt (by rcases Abi.wb_eq with h | h <;> rw [h] <;> decide)
  obtain ⟨hg, e1, -, e2, e3, hz⟩ := testSetup_spec
    (by rw [hw]; rcases Abi.wb_eq with h | h <;> rw [h] <;> decide) hpg hwf henv h0
  rw [hw] at e2
  have hn : c.ncpu ≤ 2 ^ 32 := by omega
  have hp : p ∈ (⟨s0, [p], []⟩ : Ghost).live := .head _
  obtain ⟨i1, i2, i3, i4⟩ := h.sound hg hp hn e2
  refine testEnd_passes i1 i2 e3 ?_ ok
  rw [← i3, Rseq.inc_final wb_ge hbe (nodup_cpus hn) (ctr_disjoint hg hp hn (by omega))
    (fun k hk => zero_word hg hp hn (off := 0) (by omega) hz hk) i4 hq hd hfit, BitVec.ofNat_mul]

/-! ### No execution is left out -/

/-- A store of a word of the item is followed by the pool. -/
theorem follow_word {g : Ghost} (hg : Hist c false g) (hp : p ∈ g.live) (hn : c.ncpu ≤ 2 ^ 32) {off : Nat}
    (hoff : off + wb ≤ c.itemLen) {k : BitVec 32} (hk : k ∈ cpus c) {mm : Rseq.Mem wb}
    (hm : ∀ a, mm a ≠ view c g.s.mem a → Rseq.InWord (ctr c p off k) a) :
    ∃ g', Stores c [p] g g' ∧ g'.live = g.live ∧ mm = view c g'.s.mem := by
  have hk := (mem_cpus hn).1 hk
  obtain ⟨g', h1, h2⟩ := Stores.reach hg (one_live hp) mm fun a ha => by
    obtain ⟨o, ho, e⟩ := inWord_ctr hg hp hoff hk (hm a ha)
    exact ⟨_, hk, p, .head _, off + o, by omega, e⟩
  exact ⟨g', h1, (h1.hist hg (one_live hp)).2.2.1, h2⟩

/-- **C104, every execution of the spinlock test is one on the pool**: whatever step the helpers, the kernel or the
loop of a thread can make on the memory of the pool, the pool follows, and the item stays allocated. -/
theorem spin_pool_total (hbe : ∀ q, (T q).prog.be = be) {g0 : Ghost} (hg : Hist c false g0) (hp : p ∈ g0.live)
    (hn : c.ncpu ≤ 2 ^ 32) (hl : 2 * wb ≤ c.itemLen)
    (hz : ∀ k ∈ cpus c, Rseq.ldw be (view c g0.s.mem) (spinLock c p k) = 0#_)
    {s : Rseq.State wb} {P : Rseq.Loops wb} {g : Ghost} (h : SpinPool T fld be c p N g0 s P g) :
    (∀ t lab s', Rseq.Step T s t lab s' → lab ≠ .user →
      (∀ f, lab = .invoke f → P.ph t (s.th t).saved.length = .idle ∧
        f.fld = fld ∧ f.cpu ∈ cpus c ∧ f.op = .cbneStore (spinLock c p f.cpu) 0#_ 1#_) →
      ∃ g', g'.live = g.live ∧ SpinPool T fld be c p N g0 s' (P.call s t lab) g') ∧
    (∀ t k v, t < N → (s.th t).run = true → (s.th t).top = none → P.ph t (s.th t).saved.length = .loaded k v →
      ∃ g', g'.live = g.live ∧ SpinPool T fld be c p N g0
        { s with mem := Rseq.stw be s.mem (spinCount c p k) (v + 1#_) }
        ((P.at t (s.th t).saved.length (.stored k)).count t) g') ∧
    (∀ t k, (s.th t).run = true → (s.th t).top = none → P.ph t (s.th t).saved.length = .stored k →
      ∃ g', g'.live = g.live ∧ SpinPool T fld be c p N g0
        { s with mem := Rseq.stw be s.mem (spinLock c p k) 0#_ } (P.at t (s.th t).saved.length .idle) g') := by
  obtain ⟨i1, i2, i3, i4⟩ := h.sound hg hp hn hl
  have hA := spin_apart hg hp hn hl
  obtain ⟨own, I⟩ := i4.inv wb_ge hbe hA hz
  have hI := I.reach.inv wb_ge hbe hA.lock_lock hz
  refine ⟨fun t lab s' hs hlab hi => ?_, fun t k v htN hr ht hph => ?_, fun t k hr ht hph => ?_⟩
  · by_cases hch : ∃ a, s'.mem a ≠ s.mem a
    · obtain ⟨a, ha⟩ := hch
      rcases Rseq.step_changes wb_ge (hI.reach.inv wb_ge) hs a ha with e | ⟨f, hf, -⟩
      · exact absurd e hlab
      obtain ⟨-, f2, f3⟩ := (hI.frames t).1 f hf
      obtain ⟨g', j1, j2, j3⟩ := follow_word i1 i2 hn (off := 0) (by omega) f2 (mm := s'.mem) fun a ha => by
        rw [← i3] at ha
        rcases Rseq.step_changes wb_ge (hI.reach.inv wb_ge) hs a ha with e | ⟨f', hf', -, -, hfo, -⟩
        · exact absurd e hlab
        rw [hf] at hf'
        cases hf'
        rw [f3] at hfo
        exact hfo
      exact ⟨g', j2, .step h hs hlab hi j1 j3⟩
    · have e : s'.mem = s.mem := funext fun a => Classical.byContradiction fun ha => hch ⟨a, ha⟩
      exact ⟨g, rfl, .step h hs hlab hi .refl (e.trans i3)⟩
  · obtain ⟨g', j1, j2, j3⟩ := follow_word i1 i2 hn (off := wb) (by omega) (I.cpu t _ k (by rw [hph]; rfl))
      (mm := Rseq.stw be s.mem (spinCount c p k) (v + 1#_)) fun a ha => by
      rw [← i3] at ha
      exact Classical.byContradiction fun h => ha (Rseq.stw_other _ _ _ _ _ h)
    refine ⟨g', j2, ?_⟩
    have := SpinPool.store h htN hr ht hph j1 j3
    rw [← j3] at this
    exact this
  · obtain ⟨g', j1, j2, j3⟩ := follow_word i1 i2 hn (off := 0) (by omega) (I.cpu t _ k (by rw [hph]; rfl))
      (mm := Rseq.stw be s.mem (spinLock c p k) 0#_) fun a ha => by
      rw [← i3] at ha
      exact Classical.byContradiction fun h => ha (Rseq.stw_other _ _ _ _ _ h)
    refine ⟨g', j2, ?_⟩
    have := SpinPool.unlock h hr ht hph j1 j3
    rw [← j3] at this
    exact this

/-- **C104, every execution of the increment test is one on the pool.** -/
theorem inc_pool_total (hbe : ∀ q, (T q).prog.be = be) {g0 : Ghost} (hg : Hist c false g0) (hp : p ∈ g0.live)
    (hn : c.ncpu ≤ 2 ^ 32) (hl : wb ≤ c.itemLen) {s : Rseq.State wb} {done : Nat → Nat} {g : Ghost}
    (h : IncPool T fld c p N g0 s done g) {t : Nat} (htN : t < N) {lab : Rseq.Lab wb} {s' : Rseq.State wb}
    (hs : Rseq.Step T s t lab s') (hlab : lab ≠ .user)
    (hi : ∀ f, lab = .invoke f → f.fld = fld ∧ f.cpu ∈ cpus c ∧ f.op = .addStore (ctr c p 0 f.cpu) 1#_) :
    ∃ g', g'.live = g.live ∧ IncPool T fld c p N g0 s' (Rseq.finished done s t lab) g' := by
  obtain ⟨i1, i2, i3, i4⟩ := h.sound hg hp hn hl
  obtain ⟨o1, o2, -⟩ := i4.inv wb_ge hbe (nodup_cpus hn) (ctr_disjoint hg hp hn (by omega))
  have hI := (o1.reach wb_ge).inv wb_ge
  by_cases hch : ∃ a, s'.mem a ≠ s.mem a
  · obtain ⟨a, ha⟩ := hch
    rcases Rseq.step_changes wb_ge hI hs a ha with e | ⟨f, hf, -⟩
    · exact absurd e hlab
    obtain ⟨-, f2, f3⟩ := (o2 t).1 f hf
    obtain ⟨g', j1, j2, j3⟩ := follow_word i1 i2 hn (off := 0) (by omega) f2 (mm := s'.mem) fun a ha => by
      rw [← i3] at ha
      rcases Rseq.step_changes wb_ge hI hs a ha with e | ⟨f', hf', -, -, hfo, -⟩
      · exact absurd e hlab
      rw [hf] at hf'
      cases hf'
      rw [f3] at hfo
      exact hfo
    exact ⟨g', j2, .step h hs htN hlab hi j1 j3⟩
  · have e : s'.mem = s.mem := funext fun a => Classical.byContradiction fun ha => hch ⟨a, ha⟩
    exact ⟨g, rfl, .step h hs htN hlab hi .refl (e.trans i3)⟩

end Verif.Joint
