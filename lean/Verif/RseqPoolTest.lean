import Verif.RseqPoolProps
import Verif.RseqInc
import Verif.MempoolCreateProps

/-!
`test_percpu_spinlock` and `test_percpu_inc` of tests/param_test.c (469-683) from the creation of the pool to its
destruction: the main thread creates a pool with one item, the threads work on it with restartable sequences, the
main thread adds up the counters, frees the item and destroys the pool.
-/

namespace Verif.Joint

open Mempool (Config Ghost Hist cpuAddr RangeEnv)

variable [Abi]

/-- `rseq_mempool_attr_create`, `rseq_mempool_attr_set_percpu(attr, RSEQ_MEMPOOL_STRIDE, 0)`, `rseq_mempool_create`
and `rseq_mempool_percpu_zmalloc` (param_test.c:514-536, :622-644; `RSEQ_MEMPOOL_STRIDE` is `1U << 16`,
include/rseq/mempool.h:52).  `none`: one of them fails and the program calls `abort()`.  `attrOk`: the attributes
can be allocated. -/
def testSetup (len : Word) (attrOk : Bool) (pg detected : Nat) (callocOk nameOk : Bool) (env : RangeEnv)
    (m : Verif.Mem) (env' : RangeEnv) : Option (Config × Nat × Mempool.State) :=
  match Mempool.setPercpu 65536#_ 0 (if attrOk then some {} else none) with
  | .einval => none
  | .ok a =>
    match Mempool.create (some a) len pg detected callocOk nameOk env m with
    | .pool c s =>
      match Mempool.malloc c .zero env' s with
      | .ok (.ptr p, s0) => some (c, p, s0)
      | _ => none
    | _ => none

/-- The attributes the tests create their pools with. -/
def testAttr : Mempool.Attr := { type := .percpu, stride := 65536#_, maxNrCpus := 0 }

/-- How the test ends. -/
inductive TestEnd
  /-- `assert(sum == ...)` fails -/
  | assertion
  /-- `rseq_mempool_percpu_free` or `rseq_mempool_destroy` aborts or is undefined -/
  | dies
  /-- `rseq_mempool_destroy` returns an error and the test aborts -/
  | error
  | passes
deriving DecidableEq

/-- `assert(sum == expected); rseq_mempool_percpu_free(data); ret = rseq_mempool_destroy(mempool); if (ret) abort();`
(param_test.c:568-574, :676-682). -/
def testEnd (c : Config) (p : Nat) (sum expected : BitVec 64) (ok : Nat → Bool) (s : Mempool.State) : TestEnd :=
  if sum = expected then
    match Mempool.free c p s with
    | .ok s' =>
      match Mempool.destroy c ok s' with
      | .ok d => if d.ret = 0 then .passes else .error
      | _ => .dies
    | _ => .dies
  else .assertion

/-- `struct spinlock_test_data` (param_test.c:375-378): `lock` at offset 0, `count` one word later. -/
def spinLock (c : Config) (p : Nat) : BitVec 32 → Rseq.W wb := ctr c p 0
def spinCount (c : Config) (p : Nat) : BitVec 32 → Rseq.W wb := ctr c p wb

/-- The executions of the `N` threads of the spinlock test on the item `p` from the state `g0` of the pool.  As
`Rseq.SpinReach`, but the memory is the memory of the pool, every store of the test is a store to the item, and
the program does to the pool meanwhile what it likes, except that it leaves `p` alone. -/
inductive SpinPool (T : Nat → Rseq.Site wb) (fld : Rseq.Fld) (be : Bool) (c : Config) (p N : Nat) (g0 : Ghost) :
    Rseq.State wb → Rseq.Loops wb → Ghost → Prop
  | init : SpinPool T fld be c p N g0 { mem := view c g0.s.mem, th := fun _ => Rseq.thread0 }
      { ph := fun _ _ => .idle, done := fun _ => 0 } g0
  | step {s s' : Rseq.State wb} {P : Rseq.Loops wb} {g g' : Ghost} {t : Nat} {lab : Rseq.Lab wb}
      (h : SpinPool T fld be c p N g0 s P g) (hs : Rseq.Step T s t lab s') (hl : lab ≠ .user)
      (hi : ∀ f, lab = .invoke f → P.ph t (s.th t).saved.length = .idle ∧
        f.fld = fld ∧ f.cpu ∈ cpus c ∧ f.op = .cbneStore (spinLock c p f.cpu) 0#_ 1#_)
      (hst : Stores c [p] g g') (hm : s'.mem = view c g'.s.mem) :
      SpinPool T fld be c p N g0 s' (P.call s t lab) g'
  | pool {s : Rseq.State wb} {P : Rseq.Loops wb} {g g' : Ghost} {t : Nat} (h : SpinPool T fld be c p N g0 s P g)
      (hr : (s.th t).run = true) (ht : (s.th t).top = none) (hp : PoolStep c false [p] g g') :
      SpinPool T fld be c p N g0 { s with mem := view c g'.s.mem } P g'
  | load {s : Rseq.State wb} {P : Rseq.Loops wb} {g : Ghost} {t : Nat} {k : BitVec 32}
      (h : SpinPool T fld be c p N g0 s P g) (hr : (s.th t).run = true) (ht : (s.th t).top = none)
      (hp : P.ph t (s.th t).saved.length = .got k) :
      SpinPool T fld be c p N g0 s
        (P.at t (s.th t).saved.length (.loaded k (Rseq.ldw be s.mem (spinCount c p k)))) g
  | store {s : Rseq.State wb} {P : Rseq.Loops wb} {g g' : Ghost} {t : Nat} {k : BitVec 32} {v : Rseq.W wb}
      (h : SpinPool T fld be c p N g0 s P g) (htN : t < N) (hr : (s.th t).run = true)
      (ht : (s.th t).top = none) (hp : P.ph t (s.th t).saved.length = .loaded k v)
      (hst : Stores c [p] g g') (hm : Rseq.stw be s.mem (spinCount c p k) (v + 1#_) = view c g'.s.mem) :
      SpinPool T fld be c p N g0 { s with mem := view c g'.s.mem }
        ((P.at t (s.th t).saved.length (.stored k)).count t) g'
  | unlock {s : Rseq.State wb} {P : Rseq.Loops wb} {g g' : Ghost} {t : Nat} {k : BitVec 32}
      (h : SpinPool T fld be c p N g0 s P g) (hr : (s.th t).run = true) (ht : (s.th t).top = none)
      (hp : P.ph t (s.th t).saved.length = .stored k)
      (hst : Stores c [p] g g') (hm : Rseq.stw be s.mem (spinLock c p k) 0#_ = view c g'.s.mem) :
      SpinPool T fld be c p N g0 { s with mem := view c g'.s.mem } (P.at t (s.th t).saved.length .idle) g'

/-- The executions of the `N` threads of the increment test on the item `p` (`struct inc_test_data`: `count` at
offset 0), with the number of iterations each thread has finished. -/
inductive IncPool (T : Nat → Rseq.Site wb) (fld : Rseq.Fld) (c : Config) (p N : Nat) (g0 : Ghost) :
    Rseq.State wb → (Nat → Nat) → Ghost → Prop
  | init : IncPool T fld c p N g0 { mem := view c g0.s.mem, th := fun _ => Rseq.thread0 } (fun _ => 0) g0
  | step {s s' : Rseq.State wb} {done : Nat → Nat} {g g' : Ghost} {t : Nat} {lab : Rseq.Lab wb}
      (h : IncPool T fld c p N g0 s done g) (hs : Rseq.Step T s t lab s') (htN : t < N) (hl : lab ≠ .user)
      (hi : ∀ f, lab = .invoke f → f.fld = fld ∧ f.cpu ∈ cpus c ∧ f.op = .addStore (ctr c p 0 f.cpu) 1#_)
      (hst : Stores c [p] g g') (hm : s'.mem = view c g'.s.mem) :
      IncPool T fld c p N g0 s' (Rseq.finished done s t lab) g'
  | pool {s : Rseq.State wb} {done : Nat → Nat} {g g' : Ghost} {t : Nat} (h : IncPool T fld c p N g0 s done g)
      (hr : (s.th t).run = true) (ht : (s.th t).top = none) (htN : t < N) (hp : PoolStep c false [p] g g') :
      IncPool T fld c p N g0 { s with mem := view c g'.s.mem } done g'

variable {T : Nat → Rseq.Site wb} {fld : Rseq.Fld} {be : Bool} {c : Config} {p N : Nat} {g0 : Ghost}

theorem one_live {g : Ghost} (hp : p ∈ g.live) : ∀ q ∈ [p], q ∈ g.live :=
  fun q hq => by rw [List.mem_singleton.1 hq]; exact hp

/-- The words of the locks and of the counters do not overlap. -/
theorem spin_apart (hg : Hist c false g0) (hp : p ∈ g0.live) (hn : c.ncpu ≤ 2 ^ 32) (hl : 2 * wb ≤ c.itemLen) :
    Rseq.SpinApart (spinLock c p) (spinCount c p) (cpus c) where
  nodup := nodup_cpus hn
  lock_lock := ctr_disjoint hg hp hn (by omega)
  ctr_ctr := ctr_disjoint hg hp hn (by omega)
  lock_ctr := by
    intro k hk k' hk' a ha ha'
    obtain ⟨o, ho, e⟩ := inWord_ctr hg hp (off := 0) (by omega) ((mem_cpus hn).1 hk) ha
    obtain ⟨o', ho', e'⟩ := inWord_ctr hg hp (off := wb) (by omega) ((mem_cpus hn).1 hk') ha'
    obtain ⟨h1, -⟩ := Mempool.addressing_injective hg p p (.inl hp) (.inl hp)
    have := (h1 _ _ _ _ ((mem_cpus hn).1 hk) ((mem_cpus hn).1 hk') (by omega) (by omega) (e.symm.trans e')).2.2
    omega

/-- A pool operation that leaves `p` alone does not change a word of `p`. -/
theorem pool_keeps_word {g g' : Ghost} (hg : Hist c false g) (hp : p ∈ g.live) (hn : c.ncpu ≤ 2 ^ 32) {off : Nat}
    (hoff : off + wb ≤ c.itemLen) (h : PoolStep c false [p] g g') {k : BitVec 32} (hk : k ∈ cpus c) {a : Rseq.W wb}
    (ha : Rseq.InWord (ctr c p off k) a) : view c g'.s.mem a = view c g.s.mem a := by
  have hk := (mem_cpus hn).1 hk
  obtain ⟨o, ho, e⟩ := inWord_ctr hg hp hoff hk ha
  exact h.keeps hg (one_live hp) hk ⟨p, List.mem_singleton.2 rfl, off + o, by omega, e⟩

/-- An execution of the spinlock test on a pool is one of the test, on a pool in a reachable state. -/
theorem SpinPool.sound (hg : Hist c false g0) (hp0 : p ∈ g0.live) (hn : c.ncpu ≤ 2 ^ 32) (hl : 2 * wb ≤ c.itemLen)
    {s : Rseq.State wb} {P : Rseq.Loops wb} {g : Ghost} (h : SpinPool T fld be c p N g0 s P g) :
    Hist c false g ∧ p ∈ g.live ∧ s.mem = view c g.s.mem ∧
    Rseq.SpinReach T fld be (spinLock c p) (spinCount c p) (cpus c) N (view c g0.s.mem) s P := by
  induction h with
  | init => exact ⟨hg, hp0, rfl, .init⟩
  | step h hs hl' hi hst hm ih =>
    obtain ⟨i1, i2, -, i4⟩ := ih
    obtain ⟨j1, j2, -, -⟩ := hst.hist i1 (one_live i2)
    exact ⟨j1, j2 p (.head _), hm, i4.step hs hi fun e => absurd e hl'⟩
  | pool h hr ht hp ih =>
    obtain ⟨i1, i2, i3, i4⟩ := ih
    refine ⟨hp.hist i1, hp.live (one_live i2) p (.head _), rfl,
      i4.step (lab := .user) (.user _ hr ht) (fun f e => by cases e) fun _ k hk a ha => ?_⟩
    show view c _ a = _
    rw [i3]
    rcases ha with ha | ha
    · exact pool_keeps_word i1 i2 hn (by omega) hp hk ha
    · exact pool_keeps_word i1 i2 hn (by omega) hp hk ha
  | load h hr ht hp ih =>
    obtain ⟨i1, i2, i3, i4⟩ := ih
    exact ⟨i1, i2, i3, i4.load hr ht hp⟩
  | store h htN hr ht hp hst hm ih =>
    obtain ⟨i1, i2, -, i4⟩ := ih
    obtain ⟨j1, j2, -, -⟩ := hst.hist i1 (one_live i2)
    have := i4.store htN hr ht hp
    rw [hm] at this
    exact ⟨j1, j2 p (.head _), rfl, this⟩
  | unlock h hr ht hp hst hm ih =>
    obtain ⟨i1, i2, -, i4⟩ := ih
    obtain ⟨j1, j2, -, -⟩ := hst.hist i1 (one_live i2)
    have := i4.unlock hr ht hp
    rw [hm] at this
    exact ⟨j1, j2 p (.head _), rfl, this⟩

/-- The same for the increment test. -/
theorem IncPool.sound (hg : Hist c false g0) (hp0 : p ∈ g0.live) (hn : c.ncpu ≤ 2 ^ 32) (hl : wb ≤ c.itemLen)
    {s : Rseq.State wb} {done : Nat → Nat} {g : Ghost} (h : IncPool T fld c p N g0 s done g) :
    Hist c false g ∧ p ∈ g.live ∧ s.mem = view c g.s.mem ∧
    Rseq.IncReach T fld (ctr c p 0) (cpus c) N (view c g0.s.mem) s done := by
  induction h with
  | init => exact ⟨hg, hp0, rfl, .init⟩
  | step h hs htN hl' hi hst hm ih =>
    obtain ⟨i1, i2, -, i4⟩ := ih
    obtain ⟨j1, j2, -, -⟩ := hst.hist i1 (one_live i2)
    exact ⟨j1, j2 p (.head _), hm, i4.step hs htN hi fun e => absurd e hl'⟩
  | pool h hr ht htN hp ih =>
    obtain ⟨i1, i2, i3, i4⟩ := ih
    have := i4.step (lab := .user) (.user _ hr ht) htN (fun f e => by cases e) fun _ k hk a ha =>
      (pool_keeps_word i1 i2 hn (by omega) hp hk ha).trans (congrFun i3 a).symm
    rw [Rseq.finished_other (by simp)] at this
    exact ⟨hp.hist i1, hp.live (one_live i2) p (.head _), rfl, this⟩

/-- What the setup returns: a new pool for all detected CPUs with one item, filled with zeros. -/
theorem testSetup_spec {len : Word} (hlen : len.toNat ≤ 2 ^ (8 * wb - 1)) {attrOk : Bool} {pg detected : Nat}
    (hpg : ∃ k, pg = 2 ^ k) {callocOk nameOk : Bool} {env env' : RangeEnv} {m : Verif.Mem} (hwf : m.WF)
    (henv : ∀ c s, Mempool.create (some testAttr) len pg detected callocOk nameOk env m = .pool c s →
      Mempool.EnvOK c [] m env ∧ Mempool.EnvOK c s.pool.ranges s.mem env') {s0 : Mempool.State}
    (h : testSetup len attrOk pg detected callocOk nameOk env m env' = some (c, p, s0)) :
    Hist c false ⟨s0, [p], []⟩ ∧ c.ncpu = detected ∧ c.stride = 65536 ∧ len.toNat ≤ c.itemLen ∧ c.robust = false ∧
    ∀ k o, k < c.ncpu → o < c.itemLen → s0.mem.read c.pg (cpuAddr c p k + o) = 0#8 := by
  unfold testSetup at h
  cases attrOk with
  | false => cases h
  | true =>
    rw [if_pos rfl] at h
    dsimp only [Mempool.setPercpu, Mempool.setAttr] at h
    cases hc : Mempool.create (some { type := .percpu, stride := 65536#_, maxNrCpus := 0 }) len pg detected callocOk
      nameOk env m with
    | null => rw [hc] at h; cases h
    | ub => rw [hc] at h; cases h
    | pool c' s =>
      rw [hc] at h
      dsimp only at h
      split at h
      · next p' s0' hm =>
        cases h
        obtain ⟨e1, e2⟩ := henv _ _ hc
        obtain ⟨hv, hr⟩ := Mempool.create_reach _ len hlen pg detected hpg _ _ env m hwf c s e1 hc
        have h0 : Hist c false ⟨s, [], []⟩ := ⟨hv, hr false, fun h => by cases h⟩
        obtain ⟨k, hk, -, -, hcr, -⟩ := Mempool.create_validates
          (some { type := .percpu, stride := 65536#_, maxNrCpus := 0 }) len hlen pg detected callocOk nameOk env m
        obtain ⟨hcr, -, -⟩ := hcr c s hc
        refine ⟨⟨hv, .step _ _ h0.reach (.mallocPtr _ .zero env' p s0 e2 hm), h0.mode⟩, ?_, ?_, ?_, hcr.robust, ?_⟩
        · rw [hcr.ncpu]; rfl
        · rw [hcr.stride]
          show Mempool.askedStride _ = 65536
          rw [← Mempool.stride_toNat]
          have h64 : (65536#(8 * wb)).toNat = 65536 := Mempool.ofNat_toNat_lt (by omega)
          show (if (65536#(8 * wb)) = 0#_ then 65536#_ else 65536#(8 * wb)).toNat = 65536
          split <;> exact h64
        · have := hk.1
          rw [Mempool.Config.itemLen, hcr.order]
          omega
        · exact fun k o hk ho => Mempool.zmalloc_zero h0 env' e2 p s0 hm k o hk ho
      · cases h

end Verif.Joint
