import Verif.PoolSetConcProps
/-
A concrete execution of two threads on a set with two pools (C79): an allocation fails with ENOMEM although at every
moment of the call some pool of the set has a free item of sufficient length.
-/
namespace Verif.PoolSet
open Verif Verif.Mem Verif.Mempool

attribute [local instance] le64

/-- A pool with one item of 4096 bytes. -/
def exOneA : Config :=
  { pg := 4096, order := 12, stride := 4096, ncpu := 1, cow := false, robust := false, poison := none
    maxRanges := 1, initSet := false, global := false }

/-- A pool with one item of 8192 bytes. -/
def exOneB : Config :=
  { pg := 4096, order := 13, stride := 8192, ncpu := 1, cow := false, robust := false, poison := none
    maxRanges := 1, initSet := false, global := false }

theorem exOneA_valid : Valid exOneA :=
  ⟨by decide, by decide, ⟨12, by decide⟩, ⟨12, by decide⟩, by decide, by decide, fun h => (by cases h), fun h => by cases h⟩

theorem exOneB_valid : Valid exOneB :=
  ⟨by decide, by decide, ⟨13, by decide⟩, ⟨12, by decide⟩, by decide, by decide, fun h => (by cases h), fun h => by cases h⟩

/-- A process with both pools, the item of the first in use. -/
theorem ex_ones : ∃ m eA eB p, WReach 4096 ⟨m, [eA, eB]⟩ ∧ eA.c = exOneA ∧ eB.c = exOneB ∧ eA.live = [p] ∧ eA.freed = [] ∧
    eB.live = [] ∧ eB.freed = [] ∧ eA.pool.ranges.length = 1 ∧ eB.pool.ranges.length = 1 := by
  let m0 : Mem := ⟨fun _ => 0#8, fun _ => none⟩
  have hwf : m0.WF := fun p q h => by cases h
  have hw0 : WReach 4096 ⟨m0, []⟩ := .init m0 hwf
  obtain ⟨r1, h1, hb1⟩ := ex_create (c := exOneB) (m := m0) (b := 131072) rfl
  have hmr : mapRange exOneB 131072 m0 = m0 := by
    have hc : exOneB.cow = false := rfl
    simp [mapRange, hc, m0]
  have henv1 : EnvOK exOneB [] m0 { base := some 131072 } := by
    refine ⟨?_, fun _ _ _ hh => by cases hh⟩
    rintro base e
    cases e
    exact ⟨by decide, by decide, by decide, fun r hr => (by cases hr), fun x hx => hx⟩
  have hw1 := WReach.step _ _ hw0 (.create _ exOneB _ r1 _ exOneB_valid rfl henv1 (fun b _ e he => by cases he) h1)
  rw [hmr] at hw1
  obtain ⟨r2, h2, hb2⟩ := ex_create (c := exOneA) (m := m0) (b := 1048576) rfl
  have henv2 : EnvOK exOneA [] m0 { base := some 1048576 } := by
    refine ⟨?_, fun _ _ _ hh => by cases hh⟩
    rintro base e
    cases e
    exact ⟨by decide, by decide, by decide, fun r hr => (by cases hr), fun x hx => hx⟩
  have hw2 := WReach.step _ _ hw1 (.create _ exOneA _ r2 _ exOneA_valid rfl henv2 (by
    intro b hb e he r hr
    cases hb
    simp only [List.mem_singleton] at he
    rw [he] at hr ⊢
    simp only [List.mem_singleton] at hr
    rw [hr]
    dsimp only
    rw [hb1]
    exact Or.inr (by decide)) h2)
  generalize mapRange exOneA 1048576 m0 = m1 at hw2
  obtain ⟨p, s', hm⟩ := ex_malloc hw2 ⟨exOneA, ⟨[r2], 0, 1⟩, [], []⟩ (by simp) rfl (by simp) (show 0 < itemsPerRange exOneA by decide)
  have hw3 := WReach.step _ _ hw2 (.malloc _ [] _ _ (.zero) { base := none } _ s' rfl (ex_env ..) (fun _ hb => by cases hb) hm)
  have hlen : s'.pool.ranges.length = 1 := by
    have hh := every_pool_has_history hw3 (Entry.afterMalloc ⟨exOneA, ⟨[r2], 0, 1⟩, [], []⟩ s'.pool (.ptr p)) (by simp)
    have hne := ranges_ne_nil hh.valid hh.mode hh.reach
    have hle := (capacity_bound hh (show exOneA.maxRanges ≠ 0 by decide)).1
    have h0 : 0 < s'.pool.ranges.length := List.length_pos_iff.2 hne
    have hle : s'.pool.ranges.length ≤ 1 := hle
    omega
  exact ⟨_, _, _, p, hw3, rfl, rfl, rfl, rfl, rfl, rfl, hlen, rfl⟩

/-- A set with two pools. -/
def two (m : Mem) (a b : Entry) : SState := ⟨m, [], fun o => if o = 13 then some b else if o = 12 then some a else none⟩

theorem two_putA (m m' : Mem) (a b a' : Entry) : (two m a b).put 12 a' m' = two m' a' b := by
  unfold two SState.put
  dsimp only
  congr 1
  funext o
  by_cases h1 : o = 12
  · subst h1; rfl
  · rw [if_neg h1, if_neg h1, if_neg h1]

theorem two_putB (m m' : Mem) (a b b' : Entry) : (two m a b).put 13 b' m' = two m' a b' := by
  unfold two SState.put
  dsimp only
  congr 1
  funext o
  by_cases h1 : o = 13
  · subst h1; rfl
  · rw [if_neg h1, if_neg h1, if_neg h1]

theorem two_A (m : Mem) (a b : Entry) : (two m a b).set 12 = some a := rfl
theorem two_B (m : Mem) (a b : Entry) : (two m a b).set 13 = some b := rfl

theorem two_search12 {m : Mem} {a b : Entry} (ha : a.c = exOneA) : search (two m a b).table 4096 12 = some 12 := by
  unfold search
  rw [if_pos (by decide)]
  have : (two m a b).table 12 = some (a.c, a.pool) := rfl
  rw [this]
  dsimp only
  rw [if_pos (by rw [ha]; decide)]

theorem two_search13 {m : Mem} {a b : Entry} (hb : b.c = exOneB) {len : Nat} (hl : len ≤ 8192) :
    search (two m a b).table len 13 = some 13 := by
  unfold search
  rw [if_pos (by decide)]
  have : (two m a b).table 13 = some (b.c, b.pool) := rfl
  rw [this]
  dsimp only
  rw [if_pos (by rw [hb]; exact hl)]

theorem two_search14 {m : Mem} {a b : Entry} {len : Nat} : search (two m a b).table len 14 = none := by
  cases h : search (two m a b).table len 14 with
  | none => rfl
  | some o =>
    obtain ⟨h1, ⟨e, h2, _⟩, _⟩ := search_fits h
    unfold two at h2
    dsimp only at h2
    rw [if_neg (by omega), if_neg (by omega)] at h2
    cases h2

/-- A pool with one item has no room while the item is in use. -/
theorem one_full {e : Entry} (h1 : itemsPerRange e.c = 1) (h2 : e.pool.ranges.length ≤ 1) (h3 : e.live.length = 1) (h4 : e.freed = []) :
    ¬ HasRoom e { base := none } := by
  rintro (h | h | ⟨_, h⟩)
  · exact h h4
  · rw [h1, h3] at h; omega
  · exact h (Or.inl rfl)

theorem envNone (st : SState) (e : Entry) : EnvFor st e { base := none } := ⟨ex_env .., fun _ hb => by cases hb⟩

/-- The execution: thread 1 finds the small pool full; thread 2 frees its item and takes the item of the large pool; thread 1
finds the large pool full. -/
theorem ex_exec : ∃ σ ℓ c c2 q, Exec 4096 σ ℓ 10 ∧ Spans σ 1 c 1 10 (.null .ENOMEM) ∧ Spans σ 2 c2 5 7 (.ptr 13 q) ∧
    ∀ k, 1 ≤ k → k ≤ 10 → ∃ o e, (σ k).st.set o = some e ∧ Fits e c.len.toNat ∧ ∀ env, HasRoom e env := by
  obtain ⟨m, eA, eB, p, hw, hcA, hcB, hlA, hfA, hlB, hfB, hrA, hrB⟩ := ex_ones
  have hoA : eA.c.order = 12 := by rw [hcA]; rfl
  have hoB : eB.c.order = 13 := by rw [hcB]; rfl
  have hr : SReach 4096 (two m eA eB) := by
    have h0 := SReach.create _ hw
    have h1 := SReach.add _ [] [eB] eA _ h0 rfl rfl
    have h2 := SReach.add _ [] [] eB (fun o => if o = eB.c.order then some (eB.c, eB.pool) else
      (if o = eA.c.order then some eA else none : Option Entry).map fun e => (e.c, e.pool)) h1 rfl (by
        unfold addPool SState.table
        dsimp only
        rw [hoA, hoB]
        simp)
    rw [hoA, hoB] at h2
    exact h2
  let cA : Call := ⟨false, none, 4096#64⟩
  let cB : Call := ⟨false, none, 8192#64⟩
  have hmA : minOrder cA.len = 12 := by decide
  have hmB : minOrder cB.len = 13 := by decide
  -- the states
  let s0 : CSt := ⟨two m eA eB, fun _ => .idle⟩
  have C0 : CInv 4096 s0 := ⟨sreach_inv hr, fun _ => trivial⟩
  let s1 : CSt := { s0 with thr := s0.setThr 1 (.search cA 12) }
  have S0 : CStep 4096 (.call 1) s0 s1 := by
    have := CStep.call (pg := 4096) s0 1 cA rfl
    rw [hmA] at this
    exact this
  have C1 := (cstep_inv C0 S0).1
  let s2 : CSt := { s1 with thr := s1.setThr 1 (.use cA 12) }
  have S1 : CStep 4096 (.search 1) s1 s2 := by
    have := CStep.search (pg := 4096) s1 1 cA 12 rfl
    unfold searchStep at this
    rw [show search s1.st.table cA.len.toNat 12 = some 12 from two_search12 hcA] at this
    exact this
  have C2 := (cstep_inv C1 S1).1
  have fullA : ¬ HasRoom eA { base := none } := one_full (by rw [hcA]; rfl) (by omega) (by rw [hlA]; rfl) hfA
  let s3 : CSt := { s2 with thr := s2.setThr 1 (.search cA 13) }
  have S2 : CStep 4096 (.malloc 1 { base := none }) s2 s3 := by
    have := CStep.malloc (pg := 4096) s2 1 cA 12 { base := none } rfl (fun e _ => envNone _ e)
    rcases mallocStep_cases (t := 1) C2.inv (two_A m eA eB) (c := cA) (by unfold Fits; rw [hcA]; decide) (envNone _ eA) with
      ⟨h, _⟩ | ⟨_, e1⟩
    · exact absurd h fullA
    · rw [e1] at this; exact this
  have C3 := (cstep_inv C2 S2).1
  obtain ⟨f, hf, _⟩ := free_spec (C3.inv.hist (two_A m eA eB)).valid (C3.inv.hist (two_A m eA eB)).inv (p := p)
    (by show p ∈ eA.live; rw [hlA]; simp)
  let eA' : Entry := { eA with pool := f.pool, live := eA.live.erase p, freed := p :: eA.freed }
  let s4 : CSt := { s3 with st := two f.mem eA' eB }
  have S3 : CStep 4096 (.free 2) s3 s4 := by
    have := CStep.free (pg := 4096) s3 2 12 p eA f (two_A m eA eB) (by rw [hlA]; simp) hf
    rw [two_putA] at this
    exact this
  have C4 := (cstep_inv C3 S3).1
  let s5 : CSt := { s4 with thr := s4.setThr 2 (.search cB 13) }
  have S4 : CStep 4096 (.call 2) s4 s5 := by
    have := CStep.call (pg := 4096) s4 2 cB rfl
    rw [hmB] at this
    exact this
  have C5 := (cstep_inv C4 S4).1
  let s6 : CSt := { s5 with thr := s5.setThr 2 (.use cB 13) }
  have S5 : CStep 4096 (.search 2) s5 s6 := by
    have := CStep.search (pg := 4096) s5 2 cB 13 rfl
    unfold searchStep at this
    rw [show search s5.st.table cB.len.toNat 13 = some 13 from two_search13 hcB (by decide)] at this
    exact this
  have C6 := (cstep_inv C5 S5).1
  have roomB : ∀ env, HasRoom eB env := fun env => Or.inr (Or.inl (by
    rw [hlB, hrB, hcB]; decide))
  have roomA' : ∀ env, HasRoom eA' env := fun env => Or.inl (by simp [eA'])
  obtain ⟨q, f2, hm2, e2⟩ : ∃ q f2, malloc eB.c (fillOf false none 8192) { base := none } { pool := eB.pool, mem := f.mem } =
      .ok (.ptr q, f2) ∧ mallocStep s6 2 cB 13 { base := none } =
        { st := s6.st.put 13 (eB.afterMalloc f2.pool (.ptr q)) f2.mem, thr := s6.setThr 2 (.done cB (.ptr 13 q)) } := by
    rcases mallocStep_cases (t := 2) C6.inv (two_B f.mem eA' eB) (c := cB) (by unfold Fits; rw [hcB]; decide) (envNone _ eB) with
      ⟨_, q, f2, a1, a2⟩ | ⟨h, _⟩
    · exact ⟨q, f2, a1, a2⟩
    · exact absurd (roomB _) h
  let eB' : Entry := eB.afterMalloc f2.pool (.ptr q)
  let s7 : CSt := { st := two f2.mem eA' eB', thr := s6.setThr 2 (.done cB (.ptr 13 q)) }
  have S6 : CStep 4096 (.malloc 2 { base := none }) s6 s7 := by
    have := CStep.malloc (pg := 4096) s6 2 cB 13 { base := none } rfl (fun e _ => envNone _ e)
    rw [e2, show s6.st = two f.mem eA' eB from rfl, two_putB] at this
    exact this
  have C7 := (cstep_inv C6 S6).1
  let s8 : CSt := { s7 with thr := s7.setThr 1 (.use cA 13) }
  have S7 : CStep 4096 (.search 1) s7 s8 := by
    have := CStep.search (pg := 4096) s7 1 cA 13 rfl
    unfold searchStep at this
    rw [show search s7.st.table cA.len.toNat 13 = some 13 from two_search13 (show eB'.c = exOneB from hcB) (by decide)] at this
    exact this
  have C8 := (cstep_inv C7 S7).1
  have fullB : ¬ HasRoom eB' { base := none } := by
    refine one_full (by show itemsPerRange eB.c = 1; rw [hcB]; rfl) ?_ ?_ ?_
    · have hmax : eB.c.maxRanges = 1 := by rw [hcB]; rfl
      have := (capacity_bound (C8.inv.hist (two_B f2.mem eA' eB')) (by show eB.c.maxRanges ≠ 0; omega)).1
      have this : f2.pool.ranges.length ≤ eB.c.maxRanges := this
      show f2.pool.ranges.length ≤ 1
      omega
    · show (q :: eB.live).length = 1
      rw [hlB]; rfl
    · show eB.freed.erase q = []
      rw [hfB]; rfl
  let s9 : CSt := { s8 with thr := s8.setThr 1 (.search cA 14) }
  have S8 : CStep 4096 (.malloc 1 { base := none }) s8 s9 := by
    have := CStep.malloc (pg := 4096) s8 1 cA 13 { base := none } rfl (fun e _ => envNone _ e)
    rcases mallocStep_cases (t := 1) C8.inv (two_B f2.mem eA' eB') (c := cA)
      (by unfold Fits; rw [show eB'.c = exOneB from hcB]; decide) (envNone _ eB') with ⟨h, _⟩ | ⟨_, e1⟩
    · exact absurd h fullB
    · rw [e1] at this; exact this
  let s10 : CSt := { s9 with thr := s9.setThr 1 (.done cA (.null .ENOMEM)) }
  have S9 : CStep 4096 (.search 1) s9 s10 := by
    have := CStep.search (pg := 4096) s9 1 cA 14 rfl
    unfold searchStep at this
    rw [show search s9.st.table cA.len.toNat 14 = none from two_search14] at this
    exact this
  let σ : Nat → CSt := fun k => match k with
    | 0 => s0 | 1 => s1 | 2 => s2 | 3 => s3 | 4 => s4 | 5 => s5 | 6 => s6 | 7 => s7 | 8 => s8 | 9 => s9 | _ => s10
  let ℓ : Nat → Lbl := fun k => match k with
    | 0 => .call 1 | 1 => .search 1 | 2 => .malloc 1 { base := none } | 3 => .free 2 | 4 => .call 2 | 5 => .search 2
    | 6 => .malloc 2 { base := none } | 7 => .search 1 | 8 => .malloc 1 { base := none } | _ => .search 1
  have fitA : Fits eA' cA.len.toNat := by unfold Fits; rw [show eA'.c = exOneA from hcA]; decide
  have fitB : Fits eB cA.len.toNat := by unfold Fits; rw [hcB]; decide
  refine ⟨σ, ℓ, cA, cB, q, ⟨hr, fun _ => rfl, ?_⟩, ⟨by omega, ?_, ?_, rfl⟩, ⟨by omega, ?_, ?_, rfl⟩, ?_⟩
  · intro i hi
    match i, hi with
    | 0, _ => exact S0
    | 1, _ => exact S1
    | 2, _ => exact S2
    | 3, _ => exact S3
    | 4, _ => exact S4
    | 5, _ => exact S5
    | 6, _ => exact S6
    | 7, _ => exact S7
    | 8, _ => exact S8
    | 9, _ => exact S9
  · rw [hmA]; rfl
  · intro k h1 h2
    match k, h1, h2 with
    | 1, _, _ => exact rfl
    | 2, _, _ => exact rfl
    | 3, _, _ => exact rfl
    | 4, _, _ => exact rfl
    | 5, _, _ => exact rfl
    | 6, _, _ => exact rfl
    | 7, _, _ => exact rfl
    | 8, _, _ => exact rfl
    | 9, _, _ => exact rfl
  · rw [hmB]; rfl
  · intro k h1 h2
    match k, h1, h2 with
    | 5, _, _ => exact rfl
    | 6, _, _ => exact rfl
  · intro k h1 h2
    match k, h1, h2 with
    | 1, _, _ => exact ⟨13, eB, rfl, fitB, roomB⟩
    | 2, _, _ => exact ⟨13, eB, rfl, fitB, roomB⟩
    | 3, _, _ => exact ⟨13, eB, rfl, fitB, roomB⟩
    | 4, _, _ => exact ⟨12, eA', rfl, fitA, roomA'⟩
    | 5, _, _ => exact ⟨12, eA', rfl, fitA, roomA'⟩
    | 6, _, _ => exact ⟨12, eA', rfl, fitA, roomA'⟩
    | 7, _, _ => exact ⟨12, eA', rfl, fitA, roomA'⟩
    | 8, _, _ => exact ⟨12, eA', rfl, fitA, roomA'⟩
    | 9, _, _ => exact ⟨12, eA', rfl, fitA, roomA'⟩
    | 10, _, _ => exact ⟨12, eA', rfl, fitA, roomA'⟩

/-- C79, negative side (DESIGN F36): there is an execution in which an allocation fails with ENOMEM although at every moment
from the start of the call to its end some pool of the set has a free item of sufficient length, whatever the system answers. -/
theorem conc_set_enomem_with_room : ∃ σ ℓ n t c i j, Exec 4096 σ ℓ n ∧ j ≤ n ∧ Spans σ t c i j (.null .ENOMEM) ∧
    ∀ k, i ≤ k → k ≤ j → ∃ o e, (σ k).st.set o = some e ∧ Fits e c.len.toNat ∧ ∀ env, HasRoom e env := by
  obtain ⟨σ, ℓ, c, _, _, h, hs, _, hr⟩ := ex_exec
  exact ⟨σ, ℓ, 10, 1, c, 1, 10, h, Nat.le_refl _, hs, hr⟩

/-- C78: the execution above meets the hypotheses: in it the failing call found both pools full, at different moments. -/
example : ∃ σ ℓ n t c i j, Exec 4096 σ ℓ n ∧ j ≤ n ∧ Spans σ t c i j (.null .ENOMEM) ∧
    ∃ o k e, (σ i).st.set o = some e ∧ i ≤ k ∧ k < j ∧ FoundFull σ ℓ t o k := by
  obtain ⟨σ, ℓ, n, t, c, i, j, h, hj, hs, hroom⟩ := conc_set_enomem_with_room
  obtain ⟨o, e, he, hf, _⟩ := hroom i (Nat.le_refl _) (by have := hs.le; omega)
  obtain ⟨k, h1, h2, h3⟩ := conc_set_enomem h hj hs o e he hf
  exact ⟨σ, ℓ, n, t, c, i, j, h, hj, hs, o, k, e, he, h1, h2, h3⟩

/-- C78: and a call that succeeds. -/
example : ∃ σ ℓ c e pool p, Exec 4096 σ ℓ 10 ∧ Spans σ 2 c 5 7 (.ptr 13 p) ∧
    (σ 7).st.set 13 = some (Entry.afterMalloc e pool (.ptr p)) ∧ e.c.itemLen = 8192 := by
  obtain ⟨σ, ℓ, _, c, p, h, _, hs, _⟩ := ex_exec
  obtain ⟨_, env, e, pool, _, _, _, h1, _, _, _, h2, _⟩ := (conc_set_ptr h (by omega) hs).1
  exact ⟨σ, ℓ, c, e, pool, p, h, hs, h2, h1⟩

/-- C79, partial: a failing call without interference; the only pool of the set is full. -/
theorem ex_exec_quiet : ∃ σ ℓ c e, Exec 4096 σ ℓ 4 ∧ Spans σ 1 c 1 4 (.null .ENOMEM) ∧ (∀ k, 1 ≤ k → k < 4 → ∀ u, ℓ k ≠ .free u) ∧
    (∀ k, 1 ≤ k → k < 4 → ∀ o e e', (σ k).st.set o = some e → (σ (k + 1)).st.set o = some e' →
      e'.pool.ranges.length = e.pool.ranges.length) ∧
    (σ 1).st.set 12 = some e ∧ Fits e c.len.toNat := by
  obtain ⟨m, eA, eB, p, hw, hcA, hcB, hlA, hfA, hlB, hfB, hrA, hrB⟩ := ex_ones
  have hoA : eA.c.order = 12 := by rw [hcA]; rfl
  let st : SState := ⟨m, [eB], fun o => if o = 12 then some eA else none⟩
  have hr : SReach 4096 st := by
    have h1 := SReach.add _ [] [eB] eA _ (SReach.create _ hw) rfl rfl
    rw [hoA] at h1
    exact h1
  have hset : st.set 12 = some eA := rfl
  let cA : Call := ⟨false, none, 4096#64⟩
  have hmA : minOrder cA.len = 12 := by decide
  have hs12 : search st.table cA.len.toNat 12 = some 12 := by
    unfold search
    rw [if_pos (by decide), show st.table 12 = some (eA.c, eA.pool) from rfl]
    dsimp only
    rw [if_pos (by rw [hcA]; decide)]
  have hs13 : search st.table cA.len.toNat 13 = none := by
    cases h : search st.table cA.len.toNat 13 with
    | none => rfl
    | some o =>
      obtain ⟨h1, ⟨e, h2, _⟩, _⟩ := search_fits h
      have h2 : (if o = 12 then some eA else none) = some e := h2
      rw [if_neg (by omega)] at h2
      cases h2
  have hfit : Fits eA cA.len.toNat := by unfold Fits; rw [hcA]; decide
  let s0 : CSt := ⟨st, fun _ => .idle⟩
  let s1 : CSt := { s0 with thr := s0.setThr 1 (.search cA 12) }
  let s2 : CSt := { s1 with thr := s1.setThr 1 (.use cA 12) }
  let s3 : CSt := { s2 with thr := s2.setThr 1 (.search cA 13) }
  let s4 : CSt := { s3 with thr := s3.setThr 1 (.done cA (.null .ENOMEM)) }
  have S0 : CStep 4096 (.call 1) s0 s1 := by
    have := CStep.call (pg := 4096) s0 1 cA rfl
    rw [hmA] at this
    exact this
  have S1 : CStep 4096 (.search 1) s1 s2 := by
    have := CStep.search (pg := 4096) s1 1 cA 12 rfl
    unfold searchStep at this
    rw [show search s1.st.table cA.len.toNat 12 = some 12 from hs12] at this
    exact this
  have S2 : CStep 4096 (.malloc 1 { base := none }) s2 s3 := by
    have := CStep.malloc (pg := 4096) s2 1 cA 12 { base := none } rfl (fun e _ => envNone _ e)
    rcases mallocStep_cases (s := s2) (t := 1) (sreach_inv hr) hset (c := cA) hfit (envNone _ eA) with ⟨h, _⟩ | ⟨_, e1⟩
    · exact absurd h (one_full (by rw [hcA]; rfl) (by omega) (by rw [hlA]; rfl) hfA)
    · rw [e1] at this; exact this
  have S3 : CStep 4096 (.search 1) s3 s4 := by
    have := CStep.search (pg := 4096) s3 1 cA 13 rfl
    unfold searchStep at this
    rw [show search s3.st.table cA.len.toNat 13 = none from hs13] at this
    exact this
  let σ : Nat → CSt := fun k => match k with | 0 => s0 | 1 => s1 | 2 => s2 | 3 => s3 | _ => s4
  let ℓ : Nat → Lbl := fun k => match k with | 0 => .call 1 | 1 => .search 1 | 2 => .malloc 1 { base := none } | _ => .search 1
  refine ⟨σ, ℓ, cA, eA, ⟨hr, fun _ => rfl, ?_⟩, ⟨by omega, ?_, ?_, rfl⟩, ?_, ?_, rfl, hfit⟩
  · intro i hi
    match i, hi with
    | 0, _ => exact S0
    | 1, _ => exact S1
    | 2, _ => exact S2
    | 3, _ => exact S3
  · rw [hmA]; rfl
  · intro k h1 h2
    match k, h1, h2 with
    | 1, _, _ => exact rfl
    | 2, _, _ => exact rfl
    | 3, _, _ => exact rfl
  · intro k h1 h2 u
    match k, h1, h2 with
    | 1, _, _ => exact fun h => by cases h
    | 2, _, _ => exact fun h => by cases h
    | 3, _, _ => exact fun h => by cases h
  · intro k h1 h2 o e e' he he'
    have hst : ∀ k, (σ k).st = st := by
      intro k
      match k with
      | 0 => rfl
      | 1 => rfl
      | 2 => rfl
      | 3 => rfl
      | _ + 4 => rfl
    rw [hst] at he he'
    rw [he] at he'
    cases he'
    rfl

end Verif.PoolSet
