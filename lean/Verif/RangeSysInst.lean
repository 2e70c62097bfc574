import Verif.RangeSysPoolProps
import Verif.RangeSysFail
import Verif.CowTestProps

/-!
# The theorems about the system calls of a pool and about the copy-on-write test, applied to concrete executions
-/

namespace Verif.RangeSys
open Verif Verif.Mempool

attribute [local instance] le64

/-- A range is created at 0x102000. -/
theorem exRange : ∃ s', rangeCreateSys exSysC 0 exSysEnv exSys = .range 0x102000#_ 0x100000#_ 0x100000#_ 0x6000#_ s' := by
  have h : (rangeCreateSys exSysC 0 exSysEnv exSys).fields = some (0x102000#_, 0x100000#_, 0x100000#_, 0x6000#_) := by decide
  cases hr : rangeCreateSys exSysC 0 exSysEnv exSys with
  | range b hd a l s' =>
    rw [hr] at h
    have h : (b, hd, a, l) = _ := Option.some.inj h
    injection h with h1 h
    injection h with h2 h
    injection h with h3 h4
    exact ⟨s', by rw [h1, h2, h3, h4]⟩
  | null s' => rw [hr] at h; cases h
  | killed => rw [hr] at h; cases h

/-- The mapping for the second CPU fails and leaves a hole. -/
def exHole : SysEnv := { exSysEnv with fixed := fun k => if k = 2 then .failHole else .ok }

theorem exHole_ok : SysOK exSysC exHole exSys := ⟨exSysC_valid, by decide, exSys_kernelOk, exSys_unused, fun fd h => by cases h; rfl⟩

theorem exHole_null : ∃ s', rangeCreateSys exSysC 0 exHole exSys = .null s' := by
  have h : (rangeCreateSys exSysC 0 exHole exSys).fields = none ∧ (rangeCreateSys exSysC 0 exHole exSys).sys.isSome = true := by decide
  cases hr : rangeCreateSys exSysC 0 exHole exSys with
  | range b hd a l s' => rw [hr] at h; cases h.1
  | null s' => exact ⟨s', rfl⟩
  | killed => rw [hr] at h; cases h.2

/-- `rangeCreateSys_null`, `rangeCreateSys_null_safe`, `rangeCreateSys_null_iff`. -/
example : ∃ s', rangeCreateSys exSysC 0 exHole exSys = .null s' ∧ s'.page = exSys.page ∧ s'.heap = 5 := by
  obtain ⟨s', h⟩ := exHole_null
  exact ⟨s', h, (rangeCreateSys_null exHole_ok (fun _ _ => rfl) h).1, (rangeCreateSys_null_safe exHole_ok h).2.2⟩
example : RangeRefused exSysC exHole :=
  ((rangeCreateSys_null_iff exHole_ok (nr := 0) (fun _ _ => rfl)).1 exHole_null).resolve_left (by decide)

/-- `rangeCreateSys_killed`: the kernel refuses to unmap the unused part. -/
def exRefuse : SysEnv := { exSysEnv with k := ⟨exSysEnv.k.mmap, fun _ _ => false⟩ }
def exSys8 : Config := { exSysC with stride := 8192 }
theorem exSys8_valid : Valid exSys8 :=
  ⟨by decide, by decide, ⟨13, by decide⟩, ⟨12, by decide⟩, by decide, by decide, fun _ => rfl, fun h => by cases h⟩

example : SysOK exSys8 exRefuse exSys ∧ rangeCreateSys exSys8 0 exRefuse exSys = .killed ∧ ∃ a l, exRefuse.k.munmapOk a l = false := by
  have hok : SysOK exSys8 exRefuse exSys := ⟨exSys8_valid, by decide, exSys_kernelOk, exSys_unused, fun fd h => by cases h; rfl⟩
  have hk : rangeCreateSys exSys8 0 exRefuse exSys = .killed := by
    have h : (rangeCreateSys exSys8 0 exRefuse exSys).sys.isNone = true := by decide
    cases hr : rangeCreateSys exSys8 0 exRefuse exSys with
    | killed => rfl
    | range b hd a l s' => rw [hr] at h; cases h
    | null s' => rw [hr] at h; cases h
  exact ⟨hok, hk, rangeCreateSys_killed hok hk⟩

/-- `rangeCreateSys_range`, `create_destroy`. -/
example : ∃ s', rangeCreateSys exSysC 0 exSysEnv exSys = .range 0x102000#_ 0x100000#_ 0x100000#_ 0x6000#_ s' ∧ s'.heap = 6 ∧
    s'.page ≠ exSys.page ∧ (rangeDestroySys exSysC true 0x100000#_ 0x100000#_ 0x6000#_ s').page = exSys.page := by
  obtain ⟨s', h⟩ := exRange
  obtain ⟨_, _, _, _, _, _, _, h8, _, _, h11, _⟩ := rangeCreateSys_range exSys_ok h
  refine ⟨s', h, h11, fun e => ?_, (create_destroy exSys_ok h).1⟩
  have h9 := h8 257 ⟨by decide, by decide⟩
  rw [e, h9.1] at h9
  cases h9.2

/-- `wantedPage_inside`: the second CPU's page. -/
example : ∃ o off sh, (wantedPage exSysC 0x100000 1 259).back = .file o off sh ∧ o = 1 ∧ off < exSysC.stride := by
  have h : (wantedPage exSysC 0x100000 1 259).back = .file 1 0 false := by decide
  exact ⟨_, _, _, h, wantedPage_inside exSysC_valid h⟩

/-- A pool that is not COW_INIT. -/
def exSysZ : Config := { exSysC with cow := false }
theorem exSysZ_valid : Valid exSysZ :=
  ⟨by decide, by decide, ⟨12, by decide⟩, ⟨12, by decide⟩, by decide, by decide, fun _ => rfl, fun h => by cases h⟩
theorem exSysZ_ok : SysOK exSysZ exSysEnv exSys := ⟨exSysZ_valid, by decide, exSys_kernelOk, exSys_unused, fun fd h => by cases h; rfl⟩

/-- `fork_child_zero`. -/
example : ∃ b hd a l s', rangeCreateSys exSysZ 0 exSysEnv exSys = .range b hd a l s' ∧
    (rangeDestroySys exSysZ true hd a l s'.fork).page = exSys.fork.page := by
  have h : (rangeCreateSys exSysZ 0 exSysEnv exSys).fields.isSome = true := by decide
  cases hr : rangeCreateSys exSysZ 0 exSysEnv exSys with
  | range b hd a l s' => exact ⟨b, hd, a, l, s', rfl, (fork_child_zero exSysZ_ok rfl hr).2⟩
  | null s' => rw [hr] at h; cases h
  | killed => rw [hr] at h; cases h

/-- `absEnv_outcome`. -/
example : ∃ r m', (rangeCreate exSysC ⟨[], 0, 0⟩ exSysMem (absEnv exSysC exSysEnv exSys (fun _ => []))).2 = some (r, m') ∧ r.base = 0x102000 := by
  obtain ⟨s', h⟩ := exRange
  have := absEnv_outcome (pool := ⟨[], 0, 0⟩) (stores := fun _ => []) exSysMem exSys_ok
  rw [show rangeCreateSys exSysC (Pool.mk [] 0 0).nrRanges exSysEnv exSys = _ from h] at this
  obtain ⟨_, r, m', h1, h2, _⟩ := this
  exact ⟨r, m', h1, h2⟩

/-- The kernel has no address space left. -/
def exFull : SysEnv := { k := ⟨fun _ => none, fun _ _ => true⟩, memfd := none }
theorem exFull_ok (s : Sys) : SysOK exSysC exFull s :=
  ⟨exSysC_valid, by decide, fun _ _ h => (by cases h), fun _ _ h => (by cases h), fun _ h => (by cases h)⟩

/-- `process_is_world`, `process_layout`. -/
example : ∃ (P : Proc) (e : Entry) (obj : Nat → Nat), PReach 4096 P ∧ P.w.entries = [e] ∧ WReach 4096 P.w ∧ EnvOK exSysC e.pool.ranges P.w.mem (absEnv exSysC exFull P.s (fun _ => [])) ∧
    ∀ r ∈ e.pool.ranges, P.s.page (r.mmapAddr / 4096) = some (wantedPage e.c r.mmapAddr (obj r.base) (r.mmapAddr / 4096)) ∨ r.mmapAddr % 4096 ≠ 0 := by
  obtain ⟨P, e, p, h1, h2, h3, h4, h5, h6, h7, h8, h9⟩ := exProc
  have he : e ∈ P.w.entries := by rw [h2]; exact List.mem_singleton.2 rfl
  obtain ⟨hw, he1⟩ := process_is_world h1
  obtain ⟨obj, hl, _⟩ := process_layout h1
  refine ⟨P, e, obj, h1, h2, hw, (he1 exSysC exFull (fun _ => []) rfl (exFull_ok _) (fun _ _ _ h => by cases h)).1 e he h3, fun r hr => ?_⟩
  obtain ⟨_, hm, hp⟩ := hl e he r hr
  by_cases ha : r.mmapAddr % 4096 = 0
  · refine .inl (hp _ ⟨?_, ?_⟩).2
    · omega
    · omega
  · exact .inr ha

/-- `process_cow`: right after the creation of a COW_INIT pool, CPU 0's first page shows the init values. -/
example : ∃ P A B obj off, PReach 4096 P ∧ P.w.mem.resolve 4096 0x102000 = 0x104000 ∧ P.s.page 258 = some A ∧ P.s.page 260 = some B ∧
    A.back = .file obj off false ∧ B.back = .file obj off true := by
  rcases process_create_total exProc_init exSysC exSysEnv (fun _ => []) rfl exSys_ok (fun _ _ => rfl) (fun _ _ _ h => by cases h) with
    ⟨s', h1, _⟩ | ⟨base, header, ma, ml, s', r, m', h1, hb, h2, h3⟩
  · obtain ⟨s2, h⟩ := exRange
    have h1 : rangeCreateSys exSysC 0 exSysEnv exSys = .null s' := h1
    rw [h1] at h
    cases h
  · have hm : ((rangeCreate exSysC ⟨[], 0, 0⟩ exSysMem (absEnv exSysC exSysEnv exSys (fun _ => []))).2.map fun x => x.2.resolve 4096 0x102000) =
        some 0x104000 := by decide
    have h2 : (rangeCreate exSysC ⟨[], 0, 0⟩ exSysMem (absEnv exSysC exSysEnv exSys (fun _ => []))).2 = some (r, m') := h2
    rw [h2] at hm
    have hm : m'.resolve 4096 0x102000 = 0x104000 := Option.some.inj hm
    obtain ⟨A, B, obj, off, a1, a2, a3, a4⟩ := process_cow h3 0x102000 (by show m'.resolve 4096 0x102000 ≠ _; rw [hm]; decide)
    refine ⟨_, A, B, obj, off, h3, hm, a1, ?_, a3, a4⟩
    have a2 : s'.page (m'.resolve 4096 0x102000 / 4096) = some B := a2
    rw [hm] at a2
    exact a2

/-- `process_malloc_total`, `process_malloc_null_iff`, `process_create_total`: one item of 256 is live; the kernel has no more address space. -/
example : ∃ P e, PReach 4096 P ∧ P.w.entries = [e] ∧
    (∃ ret t s', sysAfter e.c 5 e.pool exFull P.s = some s' ∧
      malloc e.c (.init (fun _ => 7#8) 5) (absEnv e.c exFull P.s (fun _ => [])) { pool := e.pool, mem := P.w.mem } = .ok (ret, t)) ∧
    (¬ ∃ er t, malloc e.c (.init (fun _ => 7#8) 5) (absEnv e.c exFull P.s (fun _ => [])) { pool := e.pool, mem := P.w.mem } = .ok (.null er, t)) ∧
    ∃ s', rangeCreateSys exSysC 0 exFull P.s = .null s' ∧ PReach 4096 { P with s := s' } := by
  obtain ⟨P, e, p, h1, h2, h3, h4, h5, h6, h7, h8, h9⟩ := exProc
  have he : e ∈ P.w.entries := by rw [h2]; exact List.mem_singleton.2 rfl
  have hok : SysOK e.c exFull P.s := by rw [h3]; exact exFull_ok _
  obtain ⟨ret, t, s', a1, a2, _⟩ := process_malloc_total h1 [] [] e (.init (fun _ => 7#8) 5) exFull (fun _ => []) h2 hok (fun _ _ => rfl)
    (fun _ _ _ h => by cases h)
  refine ⟨P, e, h1, h2, ⟨ret, t, s', a1, a2⟩, fun hn => ?_, ?_⟩
  · obtain ⟨_, b2, _⟩ := (process_malloc_null_iff h1 e (.init (fun _ => 7#8) 5) exFull (fun _ => []) he hok (fun _ _ => rfl) (fun _ _ _ h => by cases h)
      (show 5 ≤ e.c.itemLen by rw [h3]; decide)).1 hn
    rw [h4, h3, show itemsPerRange exSysC = 256 by decide] at b2
    have b2 : 1 = _ := b2
    omega
  · rcases process_create_total h1 exSysC exFull (fun _ => []) rfl (exFull_ok _) (fun _ _ => rfl) (fun _ _ _ h => by cases h) with
      h | ⟨_, _, _, _, s', _, _, h, _⟩
    · exact h
    · obtain ⟨s2, hn⟩ := (rangeCreateSys_null_iff (exFull_ok P.s) (nr := 0) (fun _ _ => rfl)).2 (.inr (.inl rfl))
      rw [hn] at h
      cases h

end Verif.RangeSys

namespace Verif.CowTest
open Verif Verif.Mem Verif.Mempool Verif.PoolConc

attribute [local instance] le64

/-- `cow_test_legal`, `cow_test_passes_partial`, `cow_test_shown_partial`: the init thread is checking the first byte. -/
example : ∃ p, PReach testC false testF 256 0x33#8 p ∧ p.ip = .check 0 ∧ p.wp ≠ .misuse ∧ p.ip ≠ .unexpected ∧
    ∃ s, p.cs = some s ∧ s.mem.read testC.pg (cpuAddr testC p.ptr2 0 + 200) = testF 200 := by
  obtain ⟨hv, hsafe, hlen, p, h, hip⟩ := ex_check
  obtain ⟨s, h1, _, h2⟩ := cow_test_shown_partial hv hsafe hlen h (.inr ⟨0, hip⟩)
  exact ⟨p, h, hip, (cow_test_legal hv hlen h).2, (cow_test_passes_partial hv hsafe hlen h).1, s, h1, h2 200 (by decide)⟩

end Verif.CowTest
