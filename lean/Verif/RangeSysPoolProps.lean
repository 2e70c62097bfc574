import Verif.RangeSysPoolStep
import Verif.RangeSysFail
import Verif.MempoolMultiProps
/-
C68: a process with any number of pools, down to its pages, descriptors and heap blocks
(`Verif.RangeSys.PReach`).
-/
namespace Verif.RangeSys
open Verif Verif.Mempool

section general
variable [Abi]

/-- C68 (transfer): every history at the level of system calls is a history of the allocator model: every theorem about
`WReach` holds of it. What those theorems assume of a new mapping (`EnvOK`, apartness from every other pool) is here a
consequence of the kernel's contract `SysOK`. -/
theorem process_is_world {pg : Nat} {P : Proc} (h : PReach pg P) : WReach pg P.w ∧
    ∀ (c : Config) (env : SysEnv) (stores : Nat → List (Nat × Byte)), c.pg = pg → SysOK c env P.s →
      (∀ k o b, (o, b) ∈ stores k → o < c.stride) →
      (∀ e ∈ P.w.entries, e.c = c → EnvOK c e.pool.ranges P.w.mem (absEnv c env P.s stores)) ∧
      ∀ base, (absEnv c env P.s stores).base = some base → ∀ e ∈ P.w.entries, ∀ r ∈ e.pool.ranges, Apart2 c base e.c r.base := by
  have hi := preach_inv h
  refine ⟨hi.world, fun c env stores hpg hok hcb => ⟨fun e he hc => ?_, ?_⟩⟩
  · exact (hi.env hpg hok hcb (l := e.pool.ranges) (fun r hr => ⟨e, he, hc, hr⟩)).1
  · exact (hi.env hpg hok hcb (l := []) (fun r hr => by cases hr)).2

/-- Number of ranges of robust pools. -/
def bitmaps (es : List Entry) : Nat := (es.map fun e => if e.c.robust then e.pool.ranges.length else 0).sum

/-- C68 (layout): at any moment the block of every range of every pool consists of exactly the specified pages, the
COW_INIT ranges each with a memory object of their own; every other page is as the rest of the program left it, no
descriptor is held by a pool, and exactly one bitmap per range of a robust pool is allocated. -/
theorem process_layout {pg : Nat} {P : Proc} (h : PReach pg P) :
    ∃ obj : Nat → Nat,
      (∀ e ∈ P.w.entries, ∀ r ∈ e.pool.ranges, r.base = r.mmapAddr + 2 * pg ∧ r.mmapLen = 2 * pg + rangeLen e.c ∧
        ∀ p, InPages pg r.mmapAddr r.mmapLen p →
          P.rest p = none ∧ P.s.page p = some (wantedPage e.c r.mmapAddr (obj r.base) p)) ∧
      (∀ e ∈ P.w.entries, ∀ e' ∈ P.w.entries, e.c.cow = true → e'.c.cow = true → ∀ r ∈ e.pool.ranges, ∀ r' ∈ e'.pool.ranges,
        r.base ≠ r'.base → obj r.base ≠ obj r'.base) ∧
      (∀ p, ¬ P.Pool pg p → P.s.page p = P.rest p) ∧
      P.s.fds = P.restFds ∧ P.s.heap = P.restHeap + bitmaps P.w.entries := by
  have hi := preach_inv h
  obtain ⟨obj, k1, k2, k3⟩ := hi.sys.obj
  refine ⟨obj, ?_, ?_, ?_, hi.sys.fds, ?_⟩
  · intro e he r hr
    obtain ⟨hpg, hv, hinv⟩ := hi.ranges he
    have hri := hinv.ranges.each r hr
    have hp := hri.pos
    have e1 := hri.maddr
    have e2 := hri.mlen
    rw [hpg] at hp e1 e2
    refine ⟨by omega, e2, fun p hpp => ?_⟩
    rw [e1, e2] at hpp
    have hb : r.base ∈ e.pool.ranges.map (·.base) := List.mem_map.2 ⟨r, hr, rfl⟩
    refine ⟨hi.sys.hole p ⟨_, shapeL_mem he, r.base, hb, hpp⟩, ?_⟩
    rw [e1]
    exact k1 _ (shapeL_mem he) r.base hb p hpp
  · intro e he e' he' hc hc' r hr r' hr'
    exact k3 _ (shapeL_mem he) _ (shapeL_mem he') hc hc' r.base (List.mem_map.2 ⟨r, hr, rfl⟩) r'.base (List.mem_map.2 ⟨r', hr', rfl⟩)
  · intro p hp
    exact hi.sys.out p fun hh => hp ((hi.pool_iff p).2 hh)
  · rw [hi.sys.heap]
    unfold bitmapsL bitmaps shapeL
    rw [List.map_map]
    congr 3
    funext e
    show (if e.c.robust = true then (e.pool.ranges.map (·.base)).length else 0) = _
    rw [List.length_map]

/-- C68 (no leak): when no pool is left, address space, descriptors and heap are those of the rest of the program. -/
theorem process_no_leak {pg : Nat} {P : Proc} (h : PReach pg P) (hn : P.w.entries = []) :
    P.s.page = P.rest ∧ P.s.fds = P.restFds ∧ P.s.heap = P.restHeap := by
  obtain ⟨obj, _, _, h1, h2, h3⟩ := process_layout h
  refine ⟨funext fun p => h1 p ?_, h2, ?_⟩
  · rintro ⟨e, he, _⟩
    rw [hn] at he
    cases he
  · rw [h3, hn]
    rfl

/-- C68 (copy-on-write): whenever the allocator model reads a byte of one page through another, the first is a private and
the second a shared view of the same place of the same memory object. -/
theorem process_cow {pg : Nat} {P : Proc} (h : PReach pg P) (x : Nat) (hx : P.w.mem.resolve pg x ≠ x) :
    ∃ A B obj off, P.s.page (x / pg) = some A ∧ P.s.page (P.w.mem.resolve pg x / pg) = some B ∧
      A.back = .file obj off false ∧ B.back = .file obj off true := by
  rcases (preach_inv h).mem x with e | e
  · exact absurd e hx
  · exact e

/-- C68 (progress): in every reachable process an allocation from a pool returns; the process is not killed as long as
the kernel does not refuse to unmap. -/
theorem process_malloc_total {pg : Nat} {P : Proc} (h : PReach pg P) (pre post : List Entry) (e : Entry) (fill : Fill) (env : SysEnv)
    (stores : Nat → List (Nat × Byte)) (hw : P.w.entries = pre ++ e :: post) (hok : SysOK e.c env P.s)
    (hun : ∀ a l, env.k.munmapOk a l = true) (hcb : ∀ k o b, (o, b) ∈ stores k → o < e.c.stride) :
    ∃ ret t s', sysAfter e.c fill.len e.pool env P.s = some s' ∧
      malloc e.c fill (absEnv e.c env P.s stores) { pool := e.pool, mem := P.w.mem } = .ok (ret, t) ∧
      PReach pg { P with w := ⟨t.mem, pre ++ e.afterMalloc t.pool ret :: post⟩, s := s' } := by
  have hi := preach_inv h
  have he : e ∈ P.w.entries := by rw [hw]; exact List.mem_append_right _ List.mem_cons_self
  obtain ⟨hpg, hv, hinv⟩ := hi.ranges he
  obtain ⟨henv, _⟩ := hi.env hpg hok hcb (l := e.pool.ranges) (fun r hr => ⟨e, he, rfl, hr⟩)
  have hs : ∃ s', sysAfter e.c fill.len e.pool env P.s = some s' := by
    unfold sysAfter
    split
    · cases hr : rangeCreateSys e.c e.pool.nrRanges env P.s with
      | null s' => exact ⟨s', rfl⟩
      | range _ _ _ _ s' => exact ⟨s', rfl⟩
      | killed =>
        obtain ⟨a, l, hh⟩ := rangeCreateSys_killed hok hr
        rw [hun] at hh
        cases hh
    · exact ⟨_, rfl⟩
  obtain ⟨s', hs⟩ := hs
  have hm : ∃ ret t, malloc e.c fill (absEnv e.c env P.s stores) { pool := e.pool, mem := P.w.mem } = .ok (ret, t) := by
    rcases malloc_spec hv hinv henv fill with ⟨_, e1⟩ | ⟨_, ⟨r, k, s1, F', _, e1, _⟩ | ⟨e1, _⟩ | ⟨_, h1, _⟩⟩
    · exact ⟨_, _, e1⟩
    · exact ⟨_, _, e1⟩
    · exact ⟨_, _, e1⟩
    · cases h1
  obtain ⟨ret, t, hm⟩ := hm
  exact ⟨ret, t, s', hs, hm, .step _ _ h (.malloc P pre post e fill env stores ret t s' hw hok hun hcb hs hm)⟩

/-- C68 (progress): creating a pool either yields a pool or NULL. -/
theorem process_create_total {pg : Nat} {P : Proc} (h : PReach pg P) (c : Config) (env : SysEnv) (stores : Nat → List (Nat × Byte))
    (hpg : c.pg = pg) (hok : SysOK c env P.s) (hun : ∀ a l, env.k.munmapOk a l = true)
    (hcb : ∀ k o b, (o, b) ∈ stores k → o < c.stride) :
    (∃ s', rangeCreateSys c 0 env P.s = .null s' ∧ PReach pg { P with s := s' }) ∨
    ∃ base header ma ml s' r m', rangeCreateSys c 0 env P.s = .range base header ma ml s' ∧ r.base = base.toNat ∧
      (rangeCreate c ⟨[], 0, 0⟩ P.w.mem (absEnv c env P.s stores)).2 = some (r, m') ∧
      PReach pg { P with w := ⟨m', ⟨c, ⟨[r], 0, 1⟩, [], []⟩ :: P.w.entries⟩, s := s' } := by
  have hout := absEnv_outcome (stores := stores) (pool := ⟨[], 0, 0⟩) P.w.mem hok
  simp only [] at hout
  cases hr : rangeCreateSys c 0 env P.s with
  | null s' => exact Or.inl ⟨s', rfl, .step _ _ h (.createNull P c env s' hpg hok hun hr)⟩
  | killed =>
    obtain ⟨a, l, hh⟩ := rangeCreateSys_killed hok hr
    rw [hun] at hh
    cases hh
  | range base header ma ml s' =>
    rw [hr] at hout
    obtain ⟨_, r, m', h1, h2, _⟩ := hout
    exact Or.inr ⟨base, header, ma, ml, s', r, m', rfl, h2, h1, .step _ _ h (.create P c env stores base header ma ml s' r m' hpg hok hun hcb hr h1)⟩

/-- C68 (progress): a pool without live items can be destroyed, and is gone afterwards. -/
theorem process_destroy_total {pg : Nat} {P : Proc} (h : PReach pg P) (pre post : List Entry) (e : Entry)
    (hw : P.w.entries = pre ++ e :: post) (hl : e.c.robust = true → e.live = []) :
    ∃ res, destroy e.c (fun _ => true) { pool := e.pool, mem := P.w.mem } = .ok res ∧ res.freed = true ∧
      PReach pg { P with
        w := ⟨unmapMem pg res.unmapped P.w.mem, pre ++ post⟩
        s := { res.unmapped.foldl (fun s u => s.munmap pg u.1 u.2) P.s with
               heap := P.s.heap - if e.c.robust then e.pool.ranges.length else 0 } } := by
  have hi := preach_inv h
  have he : e ∈ P.w.entries := by rw [hw]; exact List.mem_append_right _ List.mem_cons_self
  have hh := every_pool_has_history hi.world e he
  obtain ⟨_, k, left, h1, h2, h3, h4, h5⟩ := destroy_unmaps_once_partial hh hl (fun _ => true)
  have hk : ¬ k < _ := fun hlt => by have := h3 hlt; cases this
  refine ⟨_, h5, ?_, .step _ _ h (.destroy P pre post e _ hw h5)⟩
  exact decide_eq_true (by omega)

/-- C68 (capacity): an allocation of an acceptable length returns NULL exactly when no freed item is left, every slot of
every range is live, and the limit on ranges is reached or the system refuses a new range. -/
theorem process_malloc_null_iff {pg : Nat} {P : Proc} (h : PReach pg P) (e : Entry) (fill : Fill) (env : SysEnv)
    (stores : Nat → List (Nat × Byte)) (he : e ∈ P.w.entries) (hok : SysOK e.c env P.s)
    (hun : ∀ a l, env.k.munmapOk a l = true) (hcb : ∀ k o b, (o, b) ∈ stores k → o < e.c.stride) (hlen : fill.len ≤ e.c.itemLen) :
    (∃ er t, malloc e.c fill (absEnv e.c env P.s stores) { pool := e.pool, mem := P.w.mem } = .ok (.null er, t)) ↔
      e.freed = [] ∧ e.live.length = e.pool.ranges.length * itemsPerRange e.c ∧
      ((e.c.maxRanges ≠ 0 ∧ e.c.maxRanges ≤ e.pool.ranges.length) ∨ RangeRefused e.c env) := by
  have hi := preach_inv h
  obtain ⟨hpg, hv, hinv⟩ := hi.ranges he
  obtain ⟨henv, _⟩ := hi.env hpg hok hcb (l := e.pool.ranges) (fun r hr => ⟨e, he, rfl, hr⟩)
  have hh := every_pool_has_history hi.world e he
  have h1 := (malloc_fails_iff hh _ henv fill hlen).1
  have key : ((e.c.maxRanges ≠ 0 ∧ e.c.maxRanges ≤ e.pool.ranges.length) ∨ Refused e.c (absEnv e.c env P.s stores)) ↔
      ((e.c.maxRanges ≠ 0 ∧ e.c.maxRanges ≤ e.pool.ranges.length) ∨ RangeRefused e.c env) := by
    rw [← rangeCreateSys_null_iff (nr := e.pool.ranges.length) hok hun]
    have h2 := absEnv_outcome (stores := stores) (pool := { e.pool with nrRanges := e.pool.ranges.length }) P.w.mem hok
    have h3 := rangeCreate_none_iff (c := e.c) (pool := { e.pool with nrRanges := e.pool.ranges.length }) (m := P.w.mem)
      (env := absEnv e.c env P.s stores)
    simp only [] at h2 h3
    rw [show (e.c.maxRanges ≠ 0 ∧ e.c.maxRanges ≤ e.pool.ranges.length) ↔ (e.c.maxRanges ≠ 0 ∧ e.pool.ranges.length ≥ e.c.maxRanges) from Iff.rfl, ← h3]
    cases hr : rangeCreateSys e.c e.pool.ranges.length env P.s with
    | null s' => rw [hr] at h2; exact ⟨fun _ => ⟨_, rfl⟩, fun _ => h2⟩
    | killed =>
      obtain ⟨a, l, hk⟩ := rangeCreateSys_killed hok hr
      rw [hun] at hk
      cases hk
    | range base header ma ml s' =>
      rw [hr] at h2
      obtain ⟨_, r, m', h4, _⟩ := h2
      constructor
      · intro h5; rw [h4] at h5; cases h5
      · rintro ⟨s'', h5⟩; cases h5
  have h1' : (∃ er t, malloc e.c fill (absEnv e.c env P.s stores) { pool := e.pool, mem := P.w.mem } = .ok (.null er, t)) ↔
      e.freed = [] ∧ e.live.length = e.pool.ranges.length * itemsPerRange e.c ∧
      ((e.c.maxRanges ≠ 0 ∧ e.c.maxRanges ≤ e.pool.ranges.length) ∨ Refused e.c (absEnv e.c env P.s stores)) := h1
  rw [h1', key]

theorem rangeCreate_nextUnused {c : Config} {pool : Pool} {m : Mem} {env : RangeEnv} {r : Range} {m' : Mem}
    (h : (rangeCreate c pool m env).2 = some (r, m')) : r.nextUnused = 0 := by
  unfold rangeCreate at h
  split at h
  · cases h
  cases hb : env.base with
  | none => rw [hb] at h; cases h
  | some base =>
    rw [hb] at h
    dsimp only at h
    split at h
    · cases h
    split at h
    · cases h
    cases hrun : runCalls c env (initCalls c base) 0 (mapRange c base m) with
    | mk log res =>
      rw [hrun] at h
      cases res with
      | none => cases h
      | some m1 => cases h; rfl

end general

/-! ### Example: a robust COW_INIT pool, one item, in a process with pages and descriptors of its own -/

section example68
attribute [local instance] le64

/-- Nothing written yet. -/
def exSysMem : Mem := ⟨fun _ => 0#8, fun _ => none⟩

theorem exProc_init : PReach 4096 ⟨⟨exSysMem, []⟩, exSys, exSys.page, exSys.fds, exSys.heap⟩ :=
  .init exSys exSysMem (fun p q h => by cases h) (fun _ => Or.inl rfl)

/-- A pool, and a live item in it. -/
theorem exProc : ∃ P e p, PReach 4096 P ∧ P.w.entries = [e] ∧ e.c = exSysC ∧ e.live = [p] ∧ e.freed = [] ∧
    P.s.page 258 = some ⟨.file 1 0 false, true, false⟩ ∧ P.rest = exSys.page ∧ P.restHeap = 5 ∧ P.s.heap = 6 := by
  have hok := exSys_ok
  rcases process_create_total exProc_init exSysC exSysEnv (fun _ => []) rfl hok (fun _ _ => rfl) (fun _ _ _ h => by cases h) with
    ⟨s', h1, _⟩ | ⟨base, header, ma, ml, s', r, m', h1, hb, h2, h3⟩
  · have h0 : (rangeCreateSys exSysC 0 exSysEnv exSys).fields ≠ none := by decide
    have h1 : rangeCreateSys exSysC 0 exSysEnv exSys = .null s' := h1
    rw [h1] at h0
    exact absurd rfl h0
  · have hsys : (rangeCreateSys exSysC 0 exSysEnv exSys).sys = some s' := by
      have h1 : rangeCreateSys exSysC 0 exSysEnv exSys = .range base header ma ml s' := h1
      rw [h1]
      rfl
    have hpage : s'.page 258 = some ⟨.file 1 0 false, true, false⟩ ∧ s'.heap = 6 := by
      have : (rangeCreateSys exSysC 0 exSysEnv exSys).sys.map (fun s => (s.page 258, s.heap)) = some (some ⟨.file 1 0 false, true, false⟩, 6) := by
        decide
      rw [hsys] at this
      injection this with this
      injection this with t1 t2
      exact ⟨t1, t2⟩
    -- an allocation with a kernel that refuses everything: the range has room
    let env : SysEnv := { k := ⟨fun _ => none, fun _ _ => true⟩, memfd := none }
    have hok2 : SysOK exSysC env s' := ⟨exSysC_valid, by decide, fun l a h => (by cases h), fun l a h => (by cases h), fun fd h => (by cases h)⟩
    obtain ⟨ret, t, s2, g1, g2, g3⟩ := process_malloc_total h3 [] [] ⟨exSysC, ⟨[r], 0, 1⟩, [], []⟩ .zero env (fun _ => []) rfl hok2
      (fun _ _ => rfl) (fun _ _ _ h => by cases h)
    have hi := preach_inv h3
    obtain ⟨hpg, hv, hinv⟩ := hi.ranges (e := ⟨exSysC, ⟨[r], 0, 1⟩, [], []⟩) (by exact List.mem_cons_self)
    have hh := every_pool_has_history hi.world ⟨exSysC, ⟨[r], 0, 1⟩, [], []⟩ List.mem_cons_self
    obtain ⟨henv, _⟩ := hi.env (c := exSysC) hpg hok2 (stores := fun _ => []) (fun _ _ _ h => by cases h) (l := [r])
      (fun r' hr => ⟨_, List.mem_cons_self, rfl, hr⟩)
    have hroom : needsRange exSysC ⟨[r], 0, 1⟩ = false := by
      have hnu : r.nextUnused = 0 := rangeCreate_nextUnused h2
      unfold needsRange
      simp only [hnu]
      decide
    have hs2 : s2 = s' := by
      unfold sysAfter at g1
      rw [if_neg (by rw [hroom]; exact fun h => (by cases h.2))] at g1
      injection g1 with g1
      exact g1.symm
    subst hs2
    have hret : ∃ p, ret = .ptr p := by
      cases ret with
      | ptr p => exact ⟨p, rfl⟩
      | null er =>
        have := ((malloc_fails_iff hh _ henv .zero (Nat.zero_le _)).1.1 ⟨_, _, g2⟩).2.1
        have hn : 0 < itemsPerRange exSysC := by decide
        have t1 : (0 : Nat) = 1 * itemsPerRange exSysC := this
        omega
    obtain ⟨p, rfl⟩ := hret
    exact ⟨_, _, p, g3, rfl, rfl, rfl, rfl, hpage.1, rfl, rfl, hpage.2⟩

/-- The item freed and the pool destroyed: nothing of it is left. -/
example : ∃ P, PReach 4096 P ∧ P.w.entries = [] ∧ P.s.page = exSys.page ∧ P.s.fds = P.restFds ∧ P.s.heap = 5 := by
  obtain ⟨P, e, p, h1, h2, h3, h4, h5, h6, h7, h8, h9⟩ := exProc
  have hi := preach_inv h1
  have he : e ∈ P.w.entries := by rw [h2]; exact List.mem_singleton.2 rfl
  obtain ⟨hpg, hv, hinv⟩ := hi.ranges he
  have hp : p ∈ e.live := by rw [h4]; exact List.mem_singleton.2 rfl
  obtain ⟨t, f1, f2, f3, f4, _⟩ := free_spec hv hinv hp
  have hf := PReach.step _ _ h1 (.free P [] [] e p t h2 hp f1)
  obtain ⟨res, g1, g2, g3⟩ := process_destroy_total hf [] [] _ rfl (fun _ => by show e.live.erase p = []; rw [h4]; simp)
  obtain ⟨k1, k2, k3⟩ := process_no_leak g3 rfl
  exact ⟨_, g3, rfl, k1.trans h7, k2, k3.trans h8⟩

end example68

end Verif.RangeSys
