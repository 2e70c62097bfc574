import Verif.RangeSysLemmas
import Verif.MempoolCapacity
/-
C66, C67: the address space, descriptors and heap after creating, forking and destroying a range.
-/
namespace Verif.RangeSys
open Verif Verif.Mempool

section general
variable [Abi]

/-- All outcomes at once. -/
theorem rangeCreateSys_cases {c : Config} {nr : Nat} {env : SysEnv} {s : Sys} (h : SysOK c env s) :
    (∃ s', rangeCreateSys c nr env s = .null s' ∧
      ((∀ a l, env.k.munmapOk a l = true) → s'.page = s.page) ∧ s'.fds = s.fds ∧ s'.heap = s.heap ∧
      s.objs ≤ s'.objs ∧ (∀ o, o < s.objs → s'.objLen o = s.objLen o) ∧
      (∀ p, s.page p ≠ none → s'.page p = s.page p)) ∨
    (rangeCreateSys c nr env s = .killed ∧ ∃ a l, env.k.munmapOk a l = false) ∨
    (∃ base header mmapAddr mmapLen s', rangeCreateSys c nr env s = .range base header mmapAddr mmapLen s' ∧
      c.stride ∣ base.toNat ∧ 0 < header.toNat ∧ c.pg ∣ header.toNat ∧ base.toNat = header.toNat + 2 * c.pg ∧
      base.toNat + rangeLen c < 2 ^ (8 * wb) ∧
      mmapAddr = header ∧ mmapLen.toNat = 2 * c.pg + rangeLen c ∧
      (∀ p, InPages c.pg header.toNat (2 * c.pg + rangeLen c) p →
        s.page p = none ∧ s'.page p = some (wantedPage c header.toNat s.objs p)) ∧
      (∀ p, ¬ InPages c.pg header.toNat (2 * c.pg + rangeLen c) p → s'.page p = s.page p) ∧
      s'.fds = s.fds ∧ s'.heap = s.heap + (if c.robust then 1 else 0) ∧
      (c.cow = true → s'.objs = s.objs + 1 ∧ s'.objLen s.objs = c.stride) ∧
      s.objs ≤ s'.objs ∧ ∀ o, o < s.objs → s'.objLen o = s.objLen o) := by
  unfold rangeCreateSys
  by_cases hmax : c.maxRanges ≠ 0 ∧ nr ≥ c.maxRanges
  · rw [if_pos hmax]
    exact Or.inl ⟨s, rfl, fun _ => rfl, rfl, rfl, Nat.le_refl _, fun _ _ => rfl, fun _ _ => rfl⟩
  · rw [if_neg hmax]
    simp only []
    rcases block_spec h with ⟨hb, _⟩ | ⟨hb, hab⟩ | ⟨base, header, mapped, unmaps, hb, hst, hph, hh0, hbh, hfit, _, hnone, hsame, hpage⟩
    · rw [hb]
      exact Or.inl ⟨s, rfl, fun _ => rfl, rfl, rfl, Nat.le_refl _, fun _ _ => rfl, fun _ _ => rfl⟩
    · rw [hb]
      exact Or.inr (Or.inl ⟨rfl, hab⟩)
    · rw [hb]
      simp only []
      generalize hs1 : (unmaps.foldl (fun s u => s.munmap c.pg u.1.toNat u.2.toNat) (s.mmapAnon c.pg mapped.1.toNat mapped.2.toNat)) = s1 at *
      have hv := h.valid
      have hpg := hv.pg_pos
      have hfits := h.fits
      have eL : (BitVec.ofNat (8 * wb) 2 * BitVec.ofNat (8 * wb) c.pg + rangeLenW c).toNat = 2 * c.pg + rangeLen c := by
        have e1 : (BitVec.ofNat (8 * wb) 2 * BitVec.ofNat (8 * wb) c.pg).toNat = 2 * c.pg := mulW (by omega)
        have e2 : (rangeLenW c).toNat = rangeLen c := rangeLenW_toNat (by omega)
        rw [Mmap.add_toNat (by omega), e1, e2]
      -- cleaning up
      have err : ∀ fd bm s2, Frame c.pg header.toNat (2 * c.pg + rangeLen c) s1 s2 → (memfdClose fd s2).fds = s.fds →
          s2.heap = s.heap + (if bm then 1 else 0) → s.objs ≤ s2.objs → (∀ o, o < s.objs → s2.objLen o = s.objLen o) →
          ∀ s', s' = errorAlloc c env fd bm header (BitVec.ofNat (8 * wb) 2 * BitVec.ofNat (8 * wb) c.pg + rangeLenW c) s2 →
          ((∀ a l, env.k.munmapOk a l = true) → s'.page = s.page) ∧ s'.fds = s.fds ∧ s'.heap = s.heap ∧
            s.objs ≤ s'.objs ∧ (∀ o, o < s.objs → s'.objLen o = s.objLen o) ∧
            (∀ p, s.page p ≠ none → s'.page p = s.page p) := by
        intro fd bm s2 hfr hfds hheap hobjs hlen s' hs'
        unfold errorAlloc at hs'
        have k1 : ∀ fd (x : Sys), (memfdClose fd x).page = x.page ∧ (memfdClose fd x).heap = x.heap ∧
            (memfdClose fd x).objs = x.objs ∧ (memfdClose fd x).objLen = x.objLen := by
          intro fd x
          cases fd <;> exact ⟨rfl, rfl, rfl, rfl⟩
        obtain ⟨c1, c2, c3, c4⟩ := k1 fd s2
        generalize memfdClose fd s2 = s3 at *
        have hsplit : ∃ s4 : Sys, (if bm then { s3 with heap := s3.heap - 1 } else s3) = s4 ∧ s4.page = s3.page ∧ s4.fds = s3.fds ∧
            s4.heap = s.heap ∧ s4.objs = s3.objs ∧ s4.objLen = s3.objLen := by
          cases bm
          · exact ⟨s3, rfl, rfl, rfl, by rw [c2, hheap]; rfl, rfl, rfl⟩
          · refine ⟨_, rfl, rfl, rfl, ?_, rfl, rfl⟩
            show s3.heap - 1 = _
            rw [c2, hheap]
            rfl
        obtain ⟨s4, d0, d1, d2, d3, d4, d5⟩ := hsplit
        simp only [] at hs'
        rw [d0, eL] at hs'
        have mapd : ∀ p, s.page p ≠ none → ¬ InPages c.pg header.toNat (2 * c.pg + rangeLen c) p := fun p hp hq => hp (hnone p hq)
        have p4 : ∀ p, ¬ InPages c.pg header.toNat (2 * c.pg + rangeLen c) p → s4.page p = s.page p := by
          intro p hp
          rw [d1, c1, hfr p hp, hpage p, if_neg hp]
        have keep : ∀ p, (s4.munmap c.pg header.toNat (2 * c.pg + rangeLen c)).page p = s.page p := by
          intro p
          have e : (s4.munmap c.pg header.toNat (2 * c.pg + rangeLen c)).page p =
            if InPages c.pg header.toNat (2 * c.pg + rangeLen c) p then none else s4.page p := rfl
          rw [e]
          by_cases hq : InPages c.pg header.toNat (2 * c.pg + rangeLen c) p
          · rw [if_pos hq, hnone p hq]
          · rw [if_neg hq, p4 p hq]
        refine ⟨fun hun => ?_, ?_, ?_, ?_, ?_, ?_⟩
        · rw [hun, if_pos rfl] at hs'
          rw [hs']
          funext p
          exact keep p
        · rw [hs']
          split
          · exact d2.trans hfds
          · exact d2.trans hfds
        · rw [hs']
          split
          · exact d3
          · exact d3
        · rw [hs']
          split
          · exact (show s.objs ≤ s4.objs by omega)
          · omega
        · intro o ho
          have : s'.objLen = s4.objLen := by rw [hs']; split <;> rfl
          rw [this, d5, c4]
          exact hlen o ho
        · intro p hp
          rw [hs']
          split
          · exact keep p
          · exact p4 p (mapd p hp)
      -- after the COW_INIT part
      have setup : (∃ fd s2, (if c.cow then setupCow c env base header s1 else .done s1) = .fail fd s2 ∧
            Within c header.toNat s1 s2 ∧ (memfdClose fd s2).fds = s1.fds) ∨
          (∃ s2, (if c.cow then setupCow c env base header s1 else .done s1) = .done s2 ∧ Within c header.toNat s1 s2 ∧ s2.fds = s1.fds ∧
            (c.cow = true → s2.objs = s1.objs + 1 ∧ s2.objLen s1.objs = c.stride) ∧
            ∀ p, InPages c.pg header.toNat (2 * c.pg + rangeLen c) p → s2.page p = some (wantedPage c header.toNat s1.objs p)) := by
        cases hc : c.cow with
        | false =>
          refine Or.inr ⟨s1, rfl, ⟨fun _ _ => rfl, rfl, Nat.le_refl _, fun _ _ => rfl⟩, rfl, fun h => (by cases h), fun p hp => ?_⟩
          rw [hpage p, if_pos hp]
          unfold wantedPage
          simp only [hc, or_true, if_true]
          split <;> rfl
        | true =>
          rw [if_pos rfl]
          rcases setupCow_spec (env := env) hv hc (by rw [hsame.fds]; exact h.newFd) hbh hph hfit
            (fun p hp => by rw [hpage p, if_pos hp]) with hfail | ⟨s2, g1, g2, g3, g4, g5, g6⟩
          · exact Or.inl hfail
          · exact Or.inr ⟨s2, g1, g2, g3, fun _ => ⟨g4, g5⟩, g6⟩
      rcases setup with ⟨fd, s2, g0, g1, g2⟩ | ⟨s2, g0, g1, g2, g3, g4⟩
      · rw [g0]
        simp only []
        refine Or.inl ⟨_, rfl, err fd false s2 g1.frame (by rw [g2, hsame.fds]) (by rw [g1.heap, hsame.heap]; rfl)
          (by rw [← hsame.objs]; exact g1.objs) (fun o ho => ?_) _ rfl⟩
        rw [g1.objLen o (by rw [hsame.objs]; exact ho), hsame.objLen]
      · rw [g0]
        simp only []
        have olen : ∀ o, o < s.objs → s2.objLen o = s.objLen o := fun o ho => by
          rw [g1.objLen o (by rw [hsame.objs]; exact ho), hsame.objLen]
        have ole : s.objs ≤ s2.objs := by rw [← hsame.objs]; exact g1.objs
        by_cases hbm : (c.robust && !env.bitmapOk) = true
        · rw [if_pos hbm]
          exact Or.inl ⟨_, rfl, err none false s2 g1.frame (by rw [← hsame.fds]; exact g2) (by rw [g1.heap, hsame.heap]; rfl) ole olen _ rfl⟩
        · rw [if_neg hbm]
          generalize hs3 : (if c.robust = true then { s2 with heap := s2.heap + 1 } else s2) = s3
          have t1 : s3.page = s2.page := by rw [← hs3]; split <;> rfl
          have t2 : s3.fds = s2.fds := by rw [← hs3]; split <;> rfl
          have t3 : s3.objs = s2.objs := by rw [← hs3]; split <;> rfl
          have t4 : s3.objLen = s2.objLen := by rw [← hs3]; split <;> rfl
          have t5 : s3.heap = s.heap + (if c.robust = true then 1 else 0) := by
            rw [← hs3, ← hsame.heap, ← g1.heap]; split <;> rfl
          have fr3 : Frame c.pg header.toNat (2 * c.pg + rangeLen c) s1 s3 := fun p hp => by rw [t1]; exact g1.frame p hp
          by_cases hcb : (List.range (nrCalls c)).all env.cbOk = true
          · rw [if_pos hcb]
            refine Or.inr (Or.inr ⟨base, header, _, _, s3, rfl, hst, hh0, hph, hbh, hfit, rfl, eL, ?_, ?_, ?_, t5, ?_, ?_, ?_⟩)
            · intro p hp
              refine ⟨hnone p hp, ?_⟩
              rw [t1, g4 p hp, hsame.objs]
            · intro p hp
              rw [fr3 p hp, hpage p, if_neg hp]
            · rw [t2, g2, hsame.fds]
            · intro hc
              rw [t3, t4, ← hsame.objs]
              exact g3 hc
            · rw [t3]; exact ole
            · rw [t4]; exact olen
          · rw [if_neg hcb]
            exact Or.inl ⟨_, rfl, err none c.robust s3 fr3 (by rw [← hsame.fds, ← g2, ← t2]; rfl) t5 (by rw [t3]; exact ole) (by rw [t4]; exact olen) _ rfl⟩

/-- C66 (failure): when no range is created, whatever step failed - the limit on ranges, address space, memfd,
its size, any of the fixed mappings (even one that leaves a hole), either `madvise`, the bitmap, any init
callback - the address space, the descriptors and the heap are as before (given that the kernel does not refuse
to unmap the process's own pages). -/
theorem rangeCreateSys_null {c : Config} {nr : Nat} {env : SysEnv} {s s' : Sys} (h : SysOK c env s)
    (hun : ∀ a l, env.k.munmapOk a l = true) (hr : rangeCreateSys c nr env s = .null s') :
    s'.page = s.page ∧ s'.fds = s.fds ∧ s'.heap = s.heap := by
  rcases rangeCreateSys_cases (nr := nr) h with ⟨t, h1, h2, h3, h4, _⟩ | ⟨h1, _⟩ | ⟨_, _, _, _, _, h1, _⟩
  · rw [hr] at h1
    cases h1
    exact ⟨h2 hun, h3, h4⟩
  · rw [hr] at h1; cases h1
  · rw [hr] at h1; cases h1

/-- C66 (failure, general): even when the final `munmap` is refused no mapped page is lost or changed, no
descriptor stays open and no bitmap leaks. -/
theorem rangeCreateSys_null_safe {c : Config} {nr : Nat} {env : SysEnv} {s s' : Sys} (h : SysOK c env s)
    (hr : rangeCreateSys c nr env s = .null s') :
    (∀ p, s.page p ≠ none → s'.page p = s.page p) ∧ s'.fds = s.fds ∧ s'.heap = s.heap := by
  rcases rangeCreateSys_cases (nr := nr) h with ⟨t, h1, h2, h3, h4, h5, h6, h7⟩ | ⟨h1, _⟩ | ⟨_, _, _, _, _, h1, _⟩
  · rw [hr] at h1
    cases h1
    exact ⟨h7, h3, h4⟩
  · rw [hr] at h1; cases h1
  · rw [hr] at h1; cases h1

/-- C66: the process dies only when the kernel refuses to unmap superfluous pages. -/
theorem rangeCreateSys_killed {c : Config} {nr : Nat} {env : SysEnv} {s : Sys} (h : SysOK c env s)
    (hr : rangeCreateSys c nr env s = .killed) : ∃ a l, env.k.munmapOk a l = false := by
  rcases rangeCreateSys_cases (nr := nr) h with ⟨t, h1, _⟩ | ⟨_, h1⟩ | ⟨_, _, _, _, _, h1, _⟩
  · rw [hr] at h1; cases h1
  · exact h1
  · rw [hr] at h1; cases h1

/-- C66 (success): a new range is a block of fresh pages with exactly the specified content and flags, aligned on
the stride; no other page changes, the memfd is closed again and as long as the area it backs, and one bitmap is
allocated for a robust pool. -/
theorem rangeCreateSys_range {c : Config} {nr : Nat} {env : SysEnv} {s s' : Sys} {base header mmapAddr mmapLen : Word}
    (h : SysOK c env s) (hr : rangeCreateSys c nr env s = .range base header mmapAddr mmapLen s') :
    c.stride ∣ base.toNat ∧ 0 < header.toNat ∧ c.pg ∣ header.toNat ∧ base.toNat = header.toNat + 2 * c.pg ∧
    base.toNat + rangeLen c < 2 ^ (8 * wb) ∧
    mmapAddr = header ∧ mmapLen.toNat = 2 * c.pg + rangeLen c ∧
    (∀ p, InPages c.pg header.toNat (2 * c.pg + rangeLen c) p →
      s.page p = none ∧ s'.page p = some (wantedPage c header.toNat s.objs p)) ∧
    (∀ p, ¬ InPages c.pg header.toNat (2 * c.pg + rangeLen c) p → s'.page p = s.page p) ∧
    s'.fds = s.fds ∧ s'.heap = s.heap + (if c.robust then 1 else 0) ∧
    (c.cow = true → s'.objs = s.objs + 1 ∧ s'.objLen s.objs = c.stride) := by
  rcases rangeCreateSys_cases (nr := nr) h with ⟨t, h1, _⟩ | ⟨h1, _⟩ | ⟨b, hd, ma, ml, t, h1, g1, g2, g3, g4, g5, g6, g7, g8, g9, g10, g11, g12, _⟩
  · rw [hr] at h1; cases h1
  · rw [hr] at h1; cases h1
  · rw [hr] at h1
    cases h1
    exact ⟨g1, g2, g3, g4, g5, g6, g7, g8, g9, g10, g11, g12⟩

/-- No file page of a new range lies beyond the end of its memory object (an access would be SIGBUS). -/
theorem wantedPage_inside {c : Config} (hv : Valid c) {header obj p o off : Nat} {sh : Bool}
    (h : (wantedPage c header obj p).back = .file o off sh) :
    o = obj ∧ off < c.stride := by
  have hst := hv.stride_pos
  unfold wantedPage at h
  simp only [] at h
  split at h
  · cases h
  · split at h
    · cases h
    · split at h
      · cases h
        exact ⟨rfl, Nat.mod_lt _ hst⟩
      · split at h
        · rename_i h1 h2 h3 h4
          have : c.stride * (c.ncpu + 1) = c.stride * c.ncpu + c.stride := Nat.mul_succ _ _
          cases h
          exact ⟨rfl, by omega⟩
        · cases h

/-- C67 (destroy): destroying the range restores the address space and the heap. -/
theorem create_destroy {c : Config} {nr : Nat} {env : SysEnv} {s s' : Sys} {base header mmapAddr mmapLen : Word}
    (h : SysOK c env s) (hr : rangeCreateSys c nr env s = .range base header mmapAddr mmapLen s') :
    (rangeDestroySys c true header mmapAddr mmapLen s').page = s.page ∧
    (rangeDestroySys c true header mmapAddr mmapLen s').fds = s.fds ∧
    (rangeDestroySys c true header mmapAddr mmapLen s').heap = s.heap := by
  obtain ⟨g1, g2, g3, g4, g5, g6, g7, g8, g9, g10, g11, g12⟩ := rangeCreateSys_range h hr
  unfold rangeDestroySys
  simp only [if_true]
  rw [g6, g7]
  refine ⟨?_, ?_, ?_⟩
  · funext p
    have e : ∀ t : Sys, (t.munmap c.pg header.toNat (2 * c.pg + rangeLen c)).page p =
      if InPages c.pg header.toNat (2 * c.pg + rangeLen c) p then none else t.page p := fun _ => rfl
    rw [e]
    have t1 : (if c.robust = true then { s' with heap := s'.heap - 1 } else s').page = s'.page := by split <;> rfl
    by_cases hp : InPages c.pg header.toNat (2 * c.pg + rangeLen c) p
    · rw [if_pos hp, (g8 p hp).1]
    · rw [if_neg hp, t1, g9 p hp]
  · show (if c.robust = true then { s' with heap := s'.heap - 1 } else s').fds = _
    rw [← g10]
    split <;> rfl
  · show (if c.robust = true then { s' with heap := s'.heap - 1 } else s').heap = _
    cases hc : c.robust
    · rw [hc] at g11
      exact g11
    · rw [hc] at g11
      show s'.heap - 1 = _
      rw [g11]
      rfl

/-- C67 (fork): of a COW_INIT range a forked child inherits exactly the two header pages: the canary page, which the
kernel wipes, and the page with the range structure. The destroy the child performs (`mapping_accessible` false)
removes exactly these two and nothing else. -/
theorem fork_child {c : Config} {nr : Nat} {env : SysEnv} {s s' : Sys} {base header mmapAddr mmapLen : Word}
    (h : SysOK c env s) (hcow : c.cow = true) (hr : rangeCreateSys c nr env s = .range base header mmapAddr mmapLen s') :
    (∀ p, InPages c.pg header.toNat (2 * c.pg + rangeLen c) p →
      s'.fork.page p = if p * c.pg < header.toNat + c.pg then some { back := .anon, wipe := true }
        else if p * c.pg < header.toNat + 2 * c.pg then some { back := .anon } else none) ∧
    (rangeDestroySys c false header mmapAddr mmapLen s'.fork).page = s.fork.page := by
  obtain ⟨g1, g2, g3, g4, g5, g6, g7, g8, g9, g10, g11, g12⟩ := rangeCreateSys_range h hr
  have hfits := h.fits
  have hpg := h.valid.pg_pos
  have eH : (BitVec.ofNat (8 * wb) 2 * BitVec.ofNat (8 * wb) c.pg).toNat = 2 * c.pg := mulW (by omega)
  have inside : ∀ p, InPages c.pg header.toNat (2 * c.pg + rangeLen c) p →
      s'.fork.page p = if p * c.pg < header.toNat + c.pg then some { back := .anon, wipe := true }
        else if p * c.pg < header.toNat + 2 * c.pg then some { back := .anon } else none := by
    intro p hp
    have e : s'.fork.page p = (s'.page p).bind fun q => if q.dontfork then none else some q := rfl
    rw [e, (g8 p hp).2]
    have hp1 := hp.1
    unfold wantedPage
    simp only [hcow]
    by_cases h1 : p * c.pg < header.toNat + c.pg
    · rw [if_pos (by omega), if_pos h1]
      rfl
    · rw [if_neg (by omega), if_neg h1]
      by_cases h2 : p * c.pg < header.toNat + 2 * c.pg
      · rw [if_pos (Or.inl (by omega)), if_pos h2]
        rfl
      · rw [if_neg (by rintro (h | h); · omega
                       · cases h), if_neg h2]
        split
        · rfl
        · split <;> rfl
  refine ⟨inside, ?_⟩
  funext p
  unfold rangeDestroySys
  simp only [Bool.false_eq_true, if_false]
  rw [eH]
  have e : ∀ t : Sys, (t.munmap c.pg header.toNat (2 * c.pg)).page p =
    if InPages c.pg header.toNat (2 * c.pg) p then none else t.page p := fun _ => rfl
  rw [e]
  have t1 : (if c.robust = true then { s'.fork with heap := s'.fork.heap - 1 } else s'.fork).page = s'.fork.page := by split <;> rfl
  rw [t1]
  have f : ∀ (t : Sys), t.fork.page p = (t.page p).bind fun q => if q.dontfork then none else some q := fun _ => rfl
  by_cases hp : InPages c.pg header.toNat (2 * c.pg + rangeLen c) p
  · have : s.fork.page p = none := by rw [f, (g8 p hp).1]; rfl
    rw [this]
    by_cases h2 : InPages c.pg header.toNat (2 * c.pg) p
    · rw [if_pos h2]
    · rw [if_neg h2, inside p hp]
      have hp1 := hp.1
      have h3 : ¬ p * c.pg < header.toNat + 2 * c.pg := fun h => h2 ⟨hp1, h⟩
      rw [if_neg (by omega), if_neg h3]
  · rw [if_neg (fun h => hp ⟨h.1, by have := h.2; omega⟩), f, f, g9 p hp]

/-- C67 (fork, COW_ZERO): the child inherits the whole range, and destroying it there removes all of it. -/
theorem fork_child_zero {c : Config} {nr : Nat} {env : SysEnv} {s s' : Sys} {base header mmapAddr mmapLen : Word}
    (h : SysOK c env s) (hcow : c.cow = false) (hr : rangeCreateSys c nr env s = .range base header mmapAddr mmapLen s') :
    (∀ p, InPages c.pg header.toNat (2 * c.pg + rangeLen c) p → s'.fork.page p = some { back := .anon }) ∧
    (rangeDestroySys c true header mmapAddr mmapLen s'.fork).page = s.fork.page := by
  obtain ⟨g1, g2, g3, g4, g5, g6, g7, g8, g9, g10, g11, g12⟩ := rangeCreateSys_range h hr
  have f : ∀ (t : Sys) p, t.fork.page p = (t.page p).bind fun q => if q.dontfork then none else some q := fun _ _ => rfl
  refine ⟨fun p hp => ?_, ?_⟩
  · rw [f, (g8 p hp).2]
    unfold wantedPage
    simp only [hcow, or_true, if_true]
    split <;> rfl
  · funext p
    unfold rangeDestroySys
    simp only [if_true]
    rw [g6, g7]
    have e : ∀ t : Sys, (t.munmap c.pg header.toNat (2 * c.pg + rangeLen c)).page p =
      if InPages c.pg header.toNat (2 * c.pg + rangeLen c) p then none else t.page p := fun _ => rfl
    have t1 : (if c.robust = true then { s'.fork with heap := s'.fork.heap - 1 } else s'.fork).page = s'.fork.page := by split <;> rfl
    rw [e, t1]
    by_cases hp : InPages c.pg header.toNat (2 * c.pg + rangeLen c) p
    · rw [if_pos hp, f, (g8 p hp).1]
      rfl
    · rw [if_neg hp, f, f, g9 p hp]

end general

/-! ### Examples -/

section examples
attribute [local instance] le64

/-- A robust COW_INIT pool for two CPUs. -/
def exSysC : Config :=
  { pg := 4096, order := 4, stride := 4096, ncpu := 2, cow := true, robust := true, poison := some 0x5555555555555555#64
    maxRanges := 2, initSet := false, global := false }

theorem exSysC_valid : Valid exSysC :=
  ⟨by decide, by decide, ⟨12, by decide⟩, ⟨12, by decide⟩, by decide, by decide, fun _ => rfl, fun h => by cases h⟩

/-- The program's own pages 16-31, one open descriptor. -/
def exSys : Sys := { page := fun p => if p / 16 = 1 then some { back := .anon } else none
                     fds := [(3, 0)], objs := 1, objLen := fun _ => 4096, heap := 5 }

/-- A kernel that maps at 1 MiB and has the next descriptor 4. -/
def exSysEnv : SysEnv := { k := ⟨fun l => if l.toNat ≤ 0x100000 then some 0x100000#_ else none, fun _ _ => true⟩, memfd := some 4 }

theorem exSys_kernel (l a : Word) (h : exSysEnv.k.mmap l = some a) : l.toNat ≤ 0x100000 ∧ a = 0x100000#_ := by
  have h : (if l.toNat ≤ 0x100000 then some 0x100000#_ else none : Option Word) = some a := h
  split at h
  · rename_i hl
    exact ⟨hl, by injection h with h; exact h.symm⟩
  · cases h

theorem exSys_unused (l a : Word) (h : exSysEnv.k.mmap l = some a) : ∀ p, InPages 4096 a.toNat l.toNat p → exSys.page p = none := by
  obtain ⟨_, rfl⟩ := exSys_kernel l a h
  intro p hp
  have hp : 0x100000 ≤ p * 4096 := hp.1
  show (if p / 16 = 1 then _ else _) = _
  rw [if_neg (by omega)]

theorem exSys_kernelOk : Mmap.KernelOk exSysEnv.k 4096 := by
  intro l a h
  obtain ⟨h1, rfl⟩ := exSys_kernel l a h
  exact ⟨by decide, by decide, Nat.lt_of_le_of_lt (Nat.add_le_add_left h1 _) (by decide)⟩

/-- The hypotheses of the theorems hold for a robust COW_INIT pool of two CPUs. -/
theorem exSys_ok : SysOK exSysC exSysEnv exSys :=
  ⟨exSysC_valid, by decide, exSys_kernelOk, exSys_unused, fun fd h => by cases h; rfl⟩

/-- Base, header and unmap arguments of a result. -/
def Res.fields : Res → Option (Word × Word × Word × Word)
  | .range b h a l _ => some (b, h, a, l)
  | _ => none
/-- The process after the call. -/
def Res.sys : Res → Option Sys
  | .range _ _ _ _ s => some s
  | .null s => some s
  | .killed => none

example : (rangeCreateSys exSysC 0 exSysEnv exSys).fields = some (0x102000#_, 0x100000#_, 0x100000#_, 0x6000#_) := by decide

/-- The pages of the new range: canary, range structure, two CPUs, init values, free list. -/
example : (rangeCreateSys exSysC 0 exSysEnv exSys).sys.map (fun s => ([255, 256, 257, 258, 259, 260, 261, 262].map s.page, s.fds, s.heap)) =
    some ([none, some ⟨.anon, false, true⟩, some ⟨.anon, false, false⟩, some ⟨.file 1 0 false, true, false⟩,
      some ⟨.file 1 0 false, true, false⟩, some ⟨.file 1 0 true, true, false⟩, some ⟨.anon, true, false⟩, none], [(3, 0)], 6) := by decide

/-- The second CPU's mapping fails and leaves a hole: NULL, nothing left behind. -/
example : (rangeCreateSys exSysC 0 { exSysEnv with fixed := fun k => if k = 2 then .failHole else .ok } exSys).fields = none ∧
    (rangeCreateSys exSysC 0 { exSysEnv with fixed := fun k => if k = 2 then .failHole else .ok } exSys).sys.map
      (fun s => ([16, 256, 257, 258, 259, 260, 261].map s.page, s.fds, s.heap)) =
    some ([some { back := .anon }, none, none, none, none, none, none], [(3, 0)], 5) := by decide

end examples

/-! ### The length of a range is not checked for overflow (F13) -/

section overflow
attribute [local instance] le32

/-- A 32-bit configuration with 65536 CPUs and the default stride: `range_len` wraps to one stride. -/
def exWrap : Config :=
  { pg := 4096, order := 3, stride := 65536, ncpu := 65536, cow := true, robust := false, poison := none
    maxRanges := 0, initSet := false, global := false }

/-- The program's own page 290 lies behind the block the kernel hands out. -/
def exWrapSys : Sys := { page := fun p => if p = 290 then some { back := .anon } else none
                         fds := [], objs := 0, objLen := fun _ => 0, heap := 0 }

/-- The kernel maps unused address space at 1 MiB; the mapping for CPU 2 fails. -/
def exWrapEnv : SysEnv :=
  { k := ⟨fun l => if l.toNat ≤ 0x22000 then some 0x100000#_ else none, fun _ _ => true⟩, memfd := some 3
    fixed := fun k => if k ≤ 2 then .ok else .failKeep }

theorem exWrap_mapCpus (c : Config) (base : Word) (s : Sys) (n : Nat) :
    mapCpus c exWrapEnv base 3 (n + 3) s =
      match mapCpus c exWrapEnv base 3 2 s with
      | (_, s) => (false, s) := by
  induction n with
  | zero =>
    show (match mapCpus c exWrapEnv base 3 2 s with
      | (false, s) => (false, s)
      | (true, s) => mmapFixed s c.pg _ _ 3 false (exWrapEnv.fixed 3)) = _
    cases mapCpus c exWrapEnv base 3 2 s with
    | mk b s =>
      cases b
      · rfl
      · show mmapFixed s c.pg _ _ 3 false .failKeep = _
        unfold mmapFixed
        cases s.fds.lookup 3 <;> rfl
  | succ n ih =>
    show (match mapCpus c exWrapEnv base 3 (n + 3) s with
      | (false, s) => (false, s)
      | (true, s) => mmapFixed s c.pg _ _ 3 false (exWrapEnv.fixed (n + 4))) = _
    rw [ih]

theorem exWrap_setup (c : Config) (n : Nat) (hn : c.ncpu = n + 3) (hg : c.global = false) (base header : Word) (s : Sys) :
    setupCow c exWrapEnv base header s =
      .fail (some 3) (mapCpus c exWrapEnv base 3 2
        ({ s with fds := (3, s.objs) :: s.fds, objs := s.objs + 1
                  objLen := fun o => if o = s.objs then (BitVec.ofNat (8 * wb) c.stride).toNat
                    else if o = s.objs then 0 else s.objLen o }.mmapFile c.pg
          (base + BitVec.ofNat _ c.stride * BitVec.ofNat _ c.ncpu : Word).toNat (BitVec.ofNat (8 * wb) c.stride).toNat s.objs true)).2 := by
  unfold setupCow
  rw [show memfdCreateInit exWrapEnv (BitVec.ofNat _ c.stride) s =
    (some 3, { s with fds := (3, s.objs) :: s.fds, objs := s.objs + 1
                      objLen := fun o => if o = s.objs then (BitVec.ofNat (8 * wb) c.stride).toNat
                        else if o = s.objs then 0 else s.objLen o }) from rfl]
  dsimp only
  generalize ht : { s with fds := (3, s.objs) :: s.fds, objs := s.objs + 1
                           objLen := fun o => if o = s.objs then (BitVec.ofNat (8 * wb) c.stride).toNat
                             else if o = s.objs then 0 else s.objLen o } = t
  have hl : t.fds.lookup 3 = some s.objs := by rw [← ht]; rfl
  have hf : ∀ a l : Word, mmapFixed t c.pg a l 3 true (exWrapEnv.fixed 0) = (true, t.mmapFile c.pg a.toNat l.toNat s.objs true) := by
    intro a l
    unfold mmapFixed
    rw [hl]
    rfl
  rw [hf]
  dsimp only
  rw [if_neg (by rw [hg]; exact fun h => by cases h)]
  generalize t.mmapFile c.pg _ _ s.objs true = u
  rw [hn, exWrap_mapCpus c base u n]

theorem exWrap_block : Mmap.alignedMmap exWrapEnv.k (BitVec.ofNat _ exWrap.pg) (rangeLenW exWrap) (BitVec.ofNat _ exWrap.stride)
        (BitVec.ofNat (8 * wb) 2 * BitVec.ofNat _ exWrap.pg) =
        .ok 0x110000#_ 0x10e000#_ (0x100000#_, 0x21000#_) [(0x100000#_, 0xe000#_), (0x120000#_, 0x1000#_)] := by decide

theorem exWrap_ncpu : exWrap.ncpu = 65533 + 3 := by decide

theorem exWrap_null (c : Config) (n : Nat) (hn : c.ncpu = n + 3) (hg : c.global = false) (hc : c.cow = true) (hm : c.maxRanges = 0)
    (base header a l : Word) (us : List (Word × Word)) (s : Sys)
    (hb : Mmap.alignedMmap exWrapEnv.k (BitVec.ofNat _ c.pg) (rangeLenW c) (BitVec.ofNat _ c.stride)
        (BitVec.ofNat (8 * wb) 2 * BitVec.ofNat _ c.pg) = .ok base header (a, l) us) :
    ∃ s1 s', s1 = us.foldl (fun s u => s.munmap c.pg u.1.toNat u.2.toNat) (s.mmapAnon c.pg a.toNat l.toNat) ∧
      rangeCreateSys c 0 exWrapEnv s = .null s' ∧
      s' = errorAlloc c exWrapEnv (some 3) false header (BitVec.ofNat _ 2 * BitVec.ofNat _ c.pg + rangeLenW c)
        (mapCpus c exWrapEnv base 3 2
        ({ s1 with fds := (3, s1.objs) :: s1.fds, objs := s1.objs + 1
                   objLen := fun o => if o = s1.objs then (BitVec.ofNat (8 * wb) c.stride).toNat
                    else if o = s1.objs then 0 else s1.objLen o }.mmapFile c.pg
          (base + BitVec.ofNat _ c.stride * BitVec.ofNat _ c.ncpu : Word).toNat (BitVec.ofNat (8 * wb) c.stride).toNat s1.objs true)).2 := by
  refine ⟨_, _, rfl, ?_, rfl⟩
  unfold rangeCreateSys
  rw [if_neg (fun h => h.1 hm)]
  simp only []
  rw [hb]
  simp only [hc, if_true]
  rw [exWrap_setup c n hn hg]

/-- F13: with a length that wraps, a call that fails in the middle returns NULL and has replaced a page of the program
by a page of the memory object; only the requirement `fits` of `SysOK` is violated. -/
theorem rangeCreateSys_overflow : Valid exWrap ∧ Mmap.KernelOk exWrapEnv.k exWrap.pg ∧
    (∀ l a, exWrapEnv.k.mmap l = some a → ∀ p, InPages exWrap.pg a.toNat l.toNat p → exWrapSys.page p = none) ∧
    ∃ s', rangeCreateSys exWrap 0 exWrapEnv exWrapSys = .null s' ∧
      exWrapSys.page 290 = some { back := .anon } ∧ s'.page 290 = some { back := .file 0 8192 false } := by
  have hk : ∀ l a, exWrapEnv.k.mmap l = some a → l.toNat ≤ 0x22000 ∧ a = 0x100000#_ := by
    intro l a h
    have h : (if l.toNat ≤ 0x22000 then some 0x100000#_ else none : Option Word) = some a := h
    split at h
    · rename_i hl
      exact ⟨hl, by injection h with h; exact h.symm⟩
    · cases h
  refine ⟨⟨by decide, by decide, ⟨16, by decide⟩, ⟨12, by decide⟩, by decide, by decide, fun h => (by cases h), fun h => (by cases h)⟩,
    ?_, ?_, ?_⟩
  · intro l a h
    obtain ⟨h1, rfl⟩ := hk l a h
    exact ⟨by decide, by decide, Nat.lt_of_le_of_lt (Nat.add_le_add_left h1 _) (by decide)⟩
  · intro l a h p hp
    obtain ⟨h1, rfl⟩ := hk l a h
    have hp2 : p * 4096 < 0x100000 + l.toNat := hp.2
    show (if p = 290 then _ else _) = _
    rw [if_neg (by omega)]
  · obtain ⟨s1, s', h1, h2, h3⟩ := exWrap_null exWrap 65533 exWrap_ncpu rfl rfl rfl _ _ _ _ _ exWrapSys exWrap_block
    refine ⟨s', h2, rfl, ?_⟩
    rw [h3, h1]
    decide

end overflow

end Verif.RangeSys
