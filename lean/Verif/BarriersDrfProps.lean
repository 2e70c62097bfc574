import Verif.BarriersDrf
import Verif.BarriersEx
/-
C85: on the weakly ordered architectures, data that each CPU accesses alone, or that is handed over with the
library's release/acquire, behaves like one memory accessed one step at a time.
-/

namespace Verif.Barrier

open Relation (TransGen ReflTransGen)
open Verif.Rseq (Arch)

/-- On every architecture: a run without races on `D` has an order of all accesses, compatible with
happens-before, in which every load from `D` gets what a single memory holds at that point, and the run's
final values of `D` are those of that memory. Accesses to other locations may race. -/
theorem race_free_sequential (a : Arch) (X : Exec) (h : Allowed a X) (hf : FiniteRun X) (D : Nat → Prop)
    (hr : NoRace X D) : ∃ l, Runs X D l := by
  obtain ⟨l, h1, h2⟩ := accesses hf
  obtain ⟨l', g1, g2, g3⟩ := topo (R := HB X) (fun e he => hb_irrefl h he) (fun _ _ _ => TransGen.trans) l h1
  exact ⟨l', runs_of_sorted h hr l' g1 (fun e => (g2 e).trans (h2 e)) g3⟩

/-- Not just one: every order of the accesses that is compatible with happens-before executes the run. -/
theorem race_free_any_order (a : Arch) (X : Exec) (h : Allowed a X) (D : Nat → Prop) (hr : NoRace X D)
    (l : List Ev) (h1 : l.Nodup) (h2 : ∀ e, e ∈ l ↔ Access X e)
    (h3 : ∀ e1 e2, HB X e1 e2 → BeforeIn l e1 e2) : Runs X D l := by
  refine runs_of_sorted h hr l h1 h2 (List.pairwise_iff_forall_sublist.2 fun {e f} hs hb => ?_)
  obtain ⟨l1, l2, rfl, hm⟩ := h3 f e hb
  have hn := List.nodup_append.1 h1
  have hn2 := List.nodup_cons.1 hn.2.1
  obtain ⟨s1, s2, he, t1, t2⟩ := List.sublist_append_iff.1 hs
  cases s1 with
  | nil =>
    simp only [List.nil_append] at he
    subst he
    rcases List.sublist_cons_iff.1 t2 with t2 | ⟨r, hr', t2⟩
    · have : e ∈ l2 := t2.subset List.mem_cons_self
      exact hn2.1 this
    · cases hr'
      have : f ∈ l2 := t2.subset List.mem_cons_self
      exact hn.2.2 f hm f (List.mem_cons_of_mem _ this) rfl
  | cons b s1 =>
    simp only [List.cons_append, List.cons.injEq] at he
    obtain ⟨rfl, he⟩ := he
    exact hn.2.2 e (t1.subset List.mem_cons_self) e List.mem_cons_self rfl

/-- Data that each CPU accesses alone needs no barrier, whatever else the CPUs do. -/
theorem percpu_sequential (a : Arch) (X : Exec) (h : Allowed a X) (hf : FiniteRun X) (D : Nat → Prop)
    (hc : OneCpu X D) : ∃ l, Runs X D l := by
  refine race_free_sequential a X h hf D fun x hx e1 e2 v h1 h2 hne => ?_
  have ht := hc x hx e1 e2 ⟨v, .inr h1⟩ h2
  have a1 : Access X e1 := h1.acc
  have a2 : Access X e2 := ⟨x, h2⟩
  rcases Nat.lt_trichotomy e1.k e2.k with hk | hk | hk
  · exact .inl (.single (.inl ⟨a1, a2, ht, hk⟩))
  · exact (hne (by cases e1; cases e2; simp_all)).elim
  · exact .inr (.single (.inl ⟨a2, a1, ht.symm, hk⟩))

/-- Data accessed only inside the sections of a lock (C40, C65). -/
theorem locked_sequential (a : Arch) (X : Exec) (h : Allowed a X) (hf : FiniteRun X) {ι : Type} [Finite ι] (x : Nat)
    (C : ι → Sect) (hS : Sections X x C) (D : Nat → Prop)
    (hD : ∀ y, D y → ∀ e, Touches X e y → ∃ i, e.t = (C i).t ∧ (C i).ka < e.k ∧ ∀ k, (C i).kr = some k → e.k ≤ k) :
    ∃ l, Runs X D l := by
  refine race_free_sequential a X h hf D fun y hy e1 e2 v h1 h2 hne => ?_
  obtain ⟨i, t1, b1, c1⟩ := hD y hy e1 ⟨v, .inr h1⟩
  obtain ⟨j, t2, b2, c2⟩ := hD y hy e2 h2
  have a1 : Access X e1 := h1.acc
  have a2 : Access X e2 := ⟨y, h2⟩
  by_cases hij : i = j
  · subst hij
    have ht : e1.t = e2.t := t1.trans t2.symm
    rcases Nat.lt_trichotomy e1.k e2.k with hk | hk | hk
    · exact .inl (.single (.inl ⟨a1, a2, ht, hk⟩))
    · exact (hne (by cases e1; cases e2; simp_all)).elim
    · exact .inr (.single (.inl ⟨a2, a1, ht.symm, hk⟩))
  · rcases lock_orders_sections a X h x C hS i j hij with ⟨k, hk, hp⟩ | ⟨k, hk, hp⟩
    · exact .inl (hp e1 e2 a1 t1 (c1 k hk) a2 t2 b2)
    · exact .inr (hp e2 e1 a2 t2 (c2 k hk) a1 t1 b1)

/-! ### Races do show -/

/-- Two CPUs that each store to their own location and load the other's. -/
def sbPlain : Exec := mk [[.store 0 1, .load 1 0], [.store 1 1, .load 0 0]] [] []

theorem sbPlain_finite : FiniteRun sbPlain :=
  ⟨2, fun t ht => by
    show List.getD _ _ _ = _
    rw [List.getD_eq_getElem?_getD, List.getElem?_eq_none (by simpa using ht)]
    rfl⟩

/-- Without the condition the claim is false on every architecture: both loads may miss the other CPU's
store, and no order of the four accesses on one memory gives that. -/
theorem races_not_sequential (a : Arch) :
    Allowed a sbPlain ∧ FiniteRun sbPlain ∧ ¬ ∃ l, Runs sbPlain (fun _ => True) l := by
  refine ⟨?_, sbPlain_finite, ?_⟩
  · cases a <;> exact allowed_of (t1 := fun e => 1 - e.k) (t2 := fun e => 1 - e.k) (by decide)
  · rintro ⟨l, hl⟩
    have w0 : IsW sbPlain ⟨0, 0⟩ 0 1 := .inl rfl
    have w1 : IsW sbPlain ⟨1, 0⟩ 1 1 := .inl rfl
    have r0 : IsR sbPlain ⟨0, 1⟩ 1 0 := .inl rfl
    have r1 : IsR sbPlain ⟨1, 1⟩ 0 0 := .inl rfl
    -- a store keeps its value
    have keep : ∀ (x : Nat) (w : Ev), (∀ e v, IsW sbPlain e x v → v = 1) → IsW sbPlain w x 1 → ∀ (l1 : List Ev) m, w ∈ l1 →
        replay sbPlain l1 m x = 1 := by
      intro x w hx hw l1 m hm
      rcases last_store (X := sbPlain) x l1 with hno | ⟨p, w', q, v, rfl, hw', hq⟩
      · exact (hno w hm 1 hw).elim
      · rw [replay_append]
        show replay _ q _ x = _
        rw [replay_other q hq, apply_isW hw', hx w' v hw']
    have only : ∀ x e v, IsW sbPlain e x v → v = 1 := by
      intro x e v hw
      have hw := mk_isW.1 hw
      have hm := mem_w hw
      have key : ∀ e ∈ evs [[Op.store 0 1, .load 1 0], [Op.store 1 1, .load 0 0]],
          ∀ p, wAt [[Op.store 0 1, .load 1 0], [Op.store 1 1, .load 0 0]] e = some p → p.2 = 1 := by decide
      exact key e hm _ hw
    -- each load stands before the other CPU's store
    have bef : ∀ (r w : Ev) x, IsR sbPlain r x 0 → IsW sbPlain w x 1 → ∀ l1 l2, l = l1 ++ r :: l2 → w ∈ l2 := by
      intro r w x hr hw l1 l2 hl'
      have hm : w ∈ l := (hl.all w).2 hw.acc
      rw [hl'] at hm
      rcases List.mem_append.1 hm with hm | hm
      · have h0 := hl.loads l1 r l2 x 0 hl' hr trivial
        rw [keep x w (only x) hw l1 _ hm] at h0
        exact absurd h0 (by decide)
      · rcases List.mem_cons.1 hm with rfl | hm
        · exact (isW_not_isR hw hr).elim
        · exact hm
    obtain ⟨p1, p2, e1, m1⟩ := hl.order ⟨0, 0⟩ ⟨0, 1⟩ (.single (.inl ⟨w0.acc, r0.acc, rfl, by decide⟩))
    obtain ⟨q1, q2, e2, m2⟩ := hl.order ⟨1, 0⟩ ⟨1, 1⟩ (.single (.inl ⟨w1.acc, r1.acc, rfl, by decide⟩))
    have n1 : (⟨1, 0⟩ : Ev) ∈ p2 := bef ⟨0, 1⟩ ⟨1, 0⟩ 1 r0 w1 p1 p2 e1
    have n2 : (⟨0, 0⟩ : Ev) ∈ q2 := bef ⟨1, 1⟩ ⟨0, 0⟩ 0 r1 w0 q1 q2 e2
    -- w0 < r0 < w1 < r1 < w0
    have hnd := hl.once
    have hp := e1 ▸ hnd
    have hr1 : (⟨1, 1⟩ : Ev) ∈ p1 ∨ (⟨1, 1⟩ : Ev) ∈ p2 := by
      have : (⟨1, 1⟩ : Ev) ∈ l := (hl.all _).2 r1.acc
      rw [e1] at this
      rcases List.mem_append.1 this with h | h
      · exact .inl h
      · rcases List.mem_cons.1 h with h | h
        · cases h
        · exact .inr h
    have hd := (List.nodup_append.1 hp).2.2
    rcases hr1 with hr1 | hr1
    · -- r1 in p1: then w1 in p1 too
      obtain ⟨s1, s2, rfl⟩ := List.append_of_mem hr1
      have heq : q1 = s1 := by
        have : s1 ++ (⟨1, 1⟩ : Ev) :: (s2 ++ ⟨0, 1⟩ :: p2) = q1 ++ ⟨1, 1⟩ :: q2 := by
          rw [← e2, e1]; simp
        exact (nodup_split (by rw [this]; exact e2 ▸ hnd) this).symm
      subst heq
      exact hd ⟨1, 0⟩ (List.mem_append_left _ m2) ⟨1, 0⟩ (List.mem_cons_of_mem _ n1) rfl
    · obtain ⟨s1, s2, rfl⟩ := List.append_of_mem hr1
      have heq : q2 = s2 := by
        have : (p1 ++ ⟨0, 1⟩ :: s1) ++ (⟨1, 1⟩ : Ev) :: s2 = q1 ++ ⟨1, 1⟩ :: q2 := by
          rw [← e2, e1]; simp
        have h1 := nodup_split (by rw [this]; exact e2 ▸ hnd) this
        rw [h1] at this
        exact (List.cons.inj (List.append_cancel_left this)).2.symm
      subst heq
      exact hd ⟨0, 0⟩ m1 ⟨0, 0⟩ (by simp [n2]) rfl

/-! ### Runs that meet the hypotheses -/

/-- The run of `races_not_sequential` with a second, per-CPU location each. -/
def mixed : Exec :=
  mk [[.store 2 7, .store 0 1, .load 1 0, .load 2 7], [.store 3 8, .store 1 1, .load 0 0, .load 3 8]]
    [(⟨0, 0⟩, ⟨0, 3⟩), (⟨1, 0⟩, ⟨1, 3⟩)] []

theorem mk_finite (th : List (List Op)) (rf co : List (Ev × Ev)) : FiniteRun (mk th rf co) :=
  ⟨th.length, fun t ht => by
    show List.getD _ _ _ = _
    rw [List.getD_eq_getElem?_getD, List.getElem?_eq_none ht]
    rfl⟩

/-- The per-CPU locations 2 and 3 behave sequentially although the locations 0 and 1 do not. -/
example (a : Arch) : Allowed a mixed ∧ ∃ l, Runs mixed (fun x => x = 2 ∨ x = 3) l := by
  have h : Allowed a mixed := by
    cases a <;> exact allowed_of (t1 := rank [(⟨0, 0⟩, 0), (⟨1, 0⟩, 0), (⟨0, 2⟩, 1), (⟨1, 2⟩, 1), (⟨0, 1⟩, 2), (⟨1, 1⟩, 2), (⟨0, 3⟩, 3), (⟨1, 3⟩, 3)])
      (t2 := rank [(⟨0, 0⟩, 0), (⟨1, 0⟩, 0), (⟨0, 2⟩, 1), (⟨1, 2⟩, 1), (⟨0, 1⟩, 2), (⟨1, 1⟩, 2), (⟨0, 3⟩, 3), (⟨1, 3⟩, 3)]) (by decide)
  refine ⟨h, percpu_sequential _ _ h (mk_finite _ _ _) _ ?_⟩
  have key : ∀ e x, (x = 2 ∨ x = 3) → Touches mixed e x → e.t + 2 = x := by
    intro e x hx ⟨v, ht⟩
    have hm : e ∈ evs _ := ht.elim (fun h => mem_r (mk_isR.1 h)) fun h => mem_w (mk_isW.1 h)
    have chk : ∀ e ∈ evs [[Op.store 2 7, .store 0 1, .load 1 0, .load 2 7], [Op.store 3 8, .store 1 1, .load 0 0, .load 3 8]],
        ∀ y ∈ [2, 3], ((rAt [[Op.store 2 7, .store 0 1, .load 1 0, .load 2 7], [Op.store 3 8, .store 1 1, .load 0 0, .load 3 8]] e).map (·.1) = some y ∨
          (wAt [[Op.store 2 7, .store 0 1, .load 1 0, .load 2 7], [Op.store 3 8, .store 1 1, .load 0 0, .load 3 8]] e).map (·.1) = some y) → e.t + 2 = y := by decide
    refine chk e hm x (by simpa using hx) ?_
    rcases ht with h | h
    · left; rw [mk_isR.1 h]; rfl
    · right; rw [mk_isW.1 h]; rfl
  intro x hx e1 e2 h1 h2
  have := key e1 x hx h1
  have := key e2 x hx h2
  omega

/-- The counter of `lockRun` behaves sequentially. -/
example (a : Arch) : ∃ l, Runs lockRun (fun y => y = 1) l := by
  refine locked_sequential a lockRun (lockRun_allowed a) (mk_finite _ _ _) 0 lockC lock_sections _ ?_
  rintro y rfl e ⟨v, ht⟩
  have hm : e ∈ evs lockTh := ht.elim (fun h => mem_r (mk_isR.1 h)) fun h => mem_w (mk_isW.1 h)
  have chk : ∀ e ∈ evs lockTh, ((rAt lockTh e).map (·.1) = some 1 ∨ (wAt lockTh e).map (·.1) = some 1) →
      ∃ i, e.t = (lockC i).t ∧ (lockC i).ka < e.k ∧ e.k ≤ 6 := by decide
  obtain ⟨i, h1, h2, h3⟩ := chk e hm (by
    rcases ht with h | h
    · left; rw [mk_isR.1 h]; rfl
    · right; rw [mk_isW.1 h]; rfl)
  exact ⟨i, h1, h2, fun k hk => by cases hk; exact h3⟩

end Verif.Barrier
