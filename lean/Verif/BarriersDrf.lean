import Verif.BarriersLock
/-
C85, definitions and helper lemmas: one memory that is accessed one step at a time (the memory of the machine in
`RseqConc.lean`) is enough for locations whose conflicting accesses are ordered.
-/

namespace Verif.Barrier

open Relation (TransGen ReflTransGen)
open Verif.Rseq (Arch)

/-! ### Specification -/

/-- The effect of a C operation on a memory without caches or buffers. -/
def Op.apply (o : Option Op) (m : Nat → Int) : Nat → Int :=
  match o with
  | some (.store x v) | some (.storeRelease x v) => fun y => if y = x then v else m y
  | _ => m

/-- Memory after the given accesses were executed one after the other. -/
def replay (X : Exec) : List Ev → (Nat → Int) → (Nat → Int)
  | [], m => m
  | e :: l, m => replay X l (Op.apply (X.op e) m)

/-- `e1` stands before `e2` in `l`. -/
def BeforeIn (l : List Ev) (e1 e2 : Ev) : Prop := ∃ l1 l2, l = l1 ++ e2 :: l2 ∧ e1 ∈ l1

/-- `l` executes the run: each access once, and what happens before stands before. On the locations in `D`
each load gets what a single memory has at that point, and at the end that memory has the final values. -/
structure Runs (X : Exec) (D : Nat → Prop) (l : List Ev) : Prop where
  once : l.Nodup
  all : ∀ e, e ∈ l ↔ Access X e
  order : ∀ e1 e2, HB X e1 e2 → BeforeIn l e1 e2
  loads : ∀ l1 r l2 x v, l = l1 ++ r :: l2 → IsR X r x v → D x → v = replay X l1 X.init x
  final : ∀ x, D x → Final X x (replay X l X.init x)

/-- `e` accesses location `x`. -/
def Touches (X : Exec) (e : Ev) (x : Nat) : Prop := ∃ v, IsR X e x v ∨ IsW X e x v

/-- No races on the locations in `D`: of two accesses to one of them, with at least one store, one happens
before the other. -/
def NoRace (X : Exec) (D : Nat → Prop) : Prop :=
  ∀ x, D x → ∀ e1 e2 v, IsW X e1 x v → Touches X e2 x → e1 ≠ e2 → HB X e1 e2 ∨ HB X e2 e1

/-- Each location in `D` is accessed from one CPU only. -/
def OneCpu (X : Exec) (D : Nat → Prop) : Prop :=
  ∀ x, D x → ∀ e1 e2, Touches X e1 x → Touches X e2 x → e1.t = e2.t

/-- Finitely many CPUs. -/
def FiniteRun (X : Exec) : Prop := ∃ n, ∀ t, n ≤ t → X.ops t = []

/-! ### Lists ordered by a relation -/

section Topo
variable {R : Ev → Ev → Prop}

theorem insert_sorted (irr : ∀ e, ¬ R e e) (tr : ∀ a b c, R a b → R b c → R a c) (a : Ev) (l : List Ev)
    (h : l.Pairwise fun x y => ¬ R y x) :
    ∃ l1 l2, l = l1 ++ l2 ∧ (l1 ++ a :: l2).Pairwise fun x y => ¬ R y x := by
  induction l with
  | nil => exact ⟨[], [], rfl, by simp⟩
  | cons b l ih =>
    obtain ⟨hb, hl⟩ := List.pairwise_cons.1 h
    by_cases hab : R a b
    · refine ⟨[], b :: l, rfl, List.pairwise_cons.2 ⟨?_, h⟩⟩
      intro d hd hda
      rcases List.mem_cons.1 hd with rfl | hd
      · exact irr _ (tr _ _ _ hab hda)
      · exact hb d hd (tr _ _ _ hda hab)
    · obtain ⟨l1, l2, rfl, hp⟩ := ih hl
      refine ⟨b :: l1, l2, rfl, List.pairwise_cons.2 ⟨?_, hp⟩⟩
      intro d hd
      rcases List.mem_append.1 hd with hd | hd
      · exact hb d (List.mem_append_left _ hd)
      · rcases List.mem_cons.1 hd with rfl | hd
        · exact hab
        · exact hb d (List.mem_append_right _ hd)

theorem topo (irr : ∀ e, ¬ R e e) (tr : ∀ a b c, R a b → R b c → R a c) (l : List Ev) (hn : l.Nodup) :
    ∃ l' : List Ev, l'.Nodup ∧ (∀ e, e ∈ l' ↔ e ∈ l) ∧ l'.Pairwise fun x y => ¬ R y x := by
  induction l with
  | nil => exact ⟨[], by simp⟩
  | cons a l ih =>
    obtain ⟨ha, hl⟩ := List.nodup_cons.1 hn
    obtain ⟨l', h1, h2, h3⟩ := ih hl
    obtain ⟨l1, l2, rfl, hp⟩ := insert_sorted irr tr a l' h3
    have ha' : a ∉ l1 ++ l2 := fun h => ha ((h2 a).1 h)
    refine ⟨l1 ++ a :: l2, ?_, ?_, hp⟩
    · exact (List.perm_middle (l₁ := l1) (l₂ := l2) (a := a)).nodup_iff.2 (List.nodup_cons.2 ⟨ha', h1⟩)
    · intro e
      rw [(List.perm_middle (l₁ := l1) (l₂ := l2) (a := a)).mem_iff, List.mem_cons, List.mem_cons, h2]

end Topo

/-- An element stands at one place in a list without duplicates. -/
theorem nodup_split {e : Ev} {a b c d : List Ev} (hn : (a ++ e :: b).Nodup) (h : a ++ e :: b = c ++ e :: d) : a = c := by
  induction a generalizing c with
  | nil =>
    cases c with
    | nil => rfl
    | cons f c =>
      simp only [List.nil_append, List.cons_append, List.cons.injEq] at h
      obtain ⟨rfl, rfl⟩ := h
      exact ((List.nodup_cons.1 hn).1 (by simp)).elim
  | cons g a ih =>
    cases c with
    | nil =>
      simp only [List.nil_append, List.cons_append, List.cons.injEq] at h
      obtain ⟨rfl, rfl⟩ := h
      exact ((List.nodup_cons.1 hn).1 (by simp)).elim
    | cons f c =>
      simp only [List.cons_append, List.cons.injEq] at h
      obtain ⟨rfl, h⟩ := h
      rw [ih (List.nodup_cons.1 hn).2 h]

variable {a : Arch} {X : Exec}

theorem IsR.acc {e : Ev} {x : Nat} {v : Int} (h : IsR X e x v) : Access X e := ⟨x, v, .inl h⟩
theorem IsW.acc {e : Ev} {x : Nat} {v : Int} (h : IsW X e x v) : Access X e := ⟨x, v, .inr h⟩

theorem isW_not_isR {e : Ev} {x y : Nat} {v u : Int} (h : IsW X e x v) (h' : IsR X e y u) : False := by
  rcases h with h | h <;> rcases h' with h' | h' <;> rw [h] at h' <;> cases h'

theorem Acquired.accR {l e : Ev} (h : Acquired X l e) : Access X e := by
  rcases h with ⟨-, h⟩ | ⟨-, h, -⟩ <;> exact h.2.1

theorem hb_access {e1 e2 : Ev} (h : HB X e1 e2) : Access X e1 ∧ Access X e2 := by
  have one : ∀ {e f}, Po X e f ∨ Handover X e f → Access X e ∧ Access X f := by
    rintro e f (hp | ⟨s, l, h1, ⟨x, v, h2⟩, -, h4⟩)
    · exact ⟨hp.1, hp.2.1⟩
    · refine ⟨?_, h4.accR⟩
      rcases h1 with rfl | h1
      · exact ⟨x, v, .inr (.inr h2)⟩
      · exact h1.1
  induction h with
  | single h => exact one h
  | tail _ h ih => exact ⟨ih.1, (one h).2⟩

/-- The accesses of a finite run. -/
theorem accesses (hf : FiniteRun X) : ∃ l : List Ev, l.Nodup ∧ ∀ e, e ∈ l ↔ Access X e := by
  obtain ⟨n, hn⟩ := hf
  let all : List Ev := (List.range n).flatMap fun t => (List.range (X.ops t).length).map fun k => ⟨t, k⟩
  classical
  have key : ∀ L : List Ev, ∃ l : List Ev, l.Nodup ∧ ∀ e, e ∈ l ↔ e ∈ L ∧ Access X e := by
    intro L
    induction L with
    | nil => exact ⟨[], by simp⟩
    | cons b L ih =>
      obtain ⟨l, h1, h2⟩ := ih
      by_cases hb : b ∈ l ∨ ¬ Access X b
      · refine ⟨l, h1, fun e => ?_⟩
        rw [h2, List.mem_cons]
        constructor
        · rintro ⟨h, h'⟩
          exact ⟨.inr h, h'⟩
        · rintro ⟨rfl | h, h'⟩
          · rcases hb with hb | hb
            · exact (h2 _).1 hb
            · exact (hb h').elim
          · exact ⟨h, h'⟩
      · have hb1 : b ∉ l := fun h => hb (.inl h)
        have hb2 : Access X b := Classical.byContradiction fun h => hb (.inr h)
        refine ⟨b :: l, List.nodup_cons.2 ⟨hb1, h1⟩, fun e => ?_⟩
        rw [List.mem_cons, List.mem_cons, h2]
        constructor
        · rintro (rfl | ⟨h, h'⟩)
          · exact ⟨.inl rfl, hb2⟩
          · exact ⟨.inr h, h'⟩
        · rintro ⟨rfl | h, h'⟩
          · exact .inl rfl
          · exact .inr ⟨h, h'⟩
  obtain ⟨l, h1, h2⟩ := key all
  refine ⟨l, h1, fun e => (h2 e).trans ⟨fun h => h.2, fun h => ⟨?_, h⟩⟩⟩
  have hop : ∃ o, X.op e = some o := by
    obtain ⟨x, v, (h | h) | (h | h)⟩ := h <;> exact ⟨_, h⟩
  obtain ⟨o, ho⟩ := hop
  obtain ⟨t, k⟩ := e
  have hk : k < (X.ops t).length := (List.getElem?_eq_some_iff.1 ho).1
  have ht : t < n := by
    refine Nat.lt_of_not_le fun h => ?_
    rw [hn t h] at hk
    exact Nat.not_lt_zero _ hk
  exact List.mem_flatMap.2 ⟨t, List.mem_range.2 ht, List.mem_map.2 ⟨k, List.mem_range.2 hk, rfl⟩⟩

/-! ### Replay -/

theorem replay_append (l1 l2 : List Ev) (m : Nat → Int) : replay X (l1 ++ l2) m = replay X l2 (replay X l1 m) := by
  induction l1 generalizing m with
  | nil => rfl
  | cons e l1 ih => exact ih _

theorem apply_isW {e : Ev} {x : Nat} {v : Int} (h : IsW X e x v) (m : Nat → Int) : Op.apply (X.op e) m x = v := by
  rcases h with h | h <;> simp [Op.apply, h]

theorem apply_other {e : Ev} {x : Nat} (h : ∀ v, ¬ IsW X e x v) (m : Nat → Int) : Op.apply (X.op e) m x = m x := by
  rcases ho : X.op e with _ | o
  · rfl
  · cases o with
    | store y v => exact if_neg fun (hy : x = y) => h v (.inl (hy ▸ ho))
    | storeRelease y v => exact if_neg fun (hy : x = y) => h v (.inr (hy ▸ ho))
    | _ => rfl

theorem replay_other {x : Nat} (l : List Ev) (h : ∀ e ∈ l, ∀ v, ¬ IsW X e x v) (m : Nat → Int) :
    replay X l m x = m x := by
  induction l generalizing m with
  | nil => rfl
  | cons e l ih =>
    show replay X l _ x = _
    rw [ih (fun e' h' => h e' (List.mem_cons_of_mem _ h')), apply_other (h e List.mem_cons_self)]

/-- The last store to `x` in a list, if there is one. -/
theorem last_store (x : Nat) (l : List Ev) :
    (∀ e ∈ l, ∀ v, ¬ IsW X e x v) ∨
    ∃ l1 w l2 v, l = l1 ++ w :: l2 ∧ IsW X w x v ∧ ∀ e ∈ l2, ∀ u, ¬ IsW X e x u := by
  induction l with
  | nil => left; simp
  | cons b l ih =>
    rcases ih with h | ⟨l1, w, l2, v, rfl, h⟩
    · by_cases hb : ∃ v, IsW X b x v
      · obtain ⟨v, hb⟩ := hb
        exact .inr ⟨[], b, l, v, rfl, hb, h⟩
      · refine .inl fun e he v hv => ?_
        rcases List.mem_cons.1 he with rfl | he
        · exact hb ⟨v, hv⟩
        · exact h e he v hv
    · exact .inr ⟨b :: l1, w, l2, v, rfl, h⟩

/-- A list ordered by happens-before executes a run without races. -/
theorem runs_of_sorted (h : Allowed a X) {D : Nat → Prop} (hr : NoRace X D) (l : List Ev) (h1 : l.Nodup)
    (h2 : ∀ e, e ∈ l ↔ Access X e) (h3 : l.Pairwise fun x y => ¬ HB X y x) : Runs X D l := by
  -- two conflicting accesses stand in the order of happens-before
  have fwd : ∀ l1 e l2, l = l1 ++ e :: l2 → ∀ f ∈ l1, ¬ HB X e f := by
    rintro l1 e l2 rfl f hf
    exact (List.pairwise_append.1 h3).2.2 f hf e List.mem_cons_self
  have bwd : ∀ l1 e l2, l = l1 ++ e :: l2 → ∀ f ∈ l2, ¬ HB X f e := by
    rintro l1 e l2 rfl f hf
    exact (List.pairwise_cons.1 (List.pairwise_append.1 h3).2.1).1 f hf
  have ne1 : ∀ l1 e l2, l = l1 ++ e :: l2 → ∀ f ∈ l1, f ≠ e := by
    rintro l1 e l2 rfl f hf rfl
    exact (List.nodup_append.1 h1).2.2 f hf f List.mem_cons_self rfl
  have split : ∀ l1 e l2, l = l1 ++ e :: l2 → ∀ f, Access X f → f ∈ l1 ∨ f = e ∨ f ∈ l2 := by
    rintro l1 e l2 rfl f hf
    rcases List.mem_append.1 ((h2 f).2 hf) with h | h
    · exact .inl h
    · exact .inr (List.mem_cons.1 h)
  refine ⟨h1, h2, ?_, ?_, ?_⟩
  · intro e1 e2 hb
    obtain ⟨ha1, ha2⟩ := hb_access hb
    obtain ⟨l1, l2, hl⟩ := List.append_of_mem ((h2 e2).2 ha2)
    refine ⟨l1, l2, hl, ?_⟩
    rcases split l1 e2 l2 hl e1 ha1 with h' | rfl | h'
    · exact h'
    · exact (hb_irrefl h hb).elim
    · exact (bwd l1 e2 l2 hl e1 h' hb).elim
  · intro l1 r l2 x v hl hrd hx
    -- a store that the load read stands before the load
    have rfin : ∀ w, X.rf w r → w ∈ l1 ∧ IsW X w x v := by
      intro w hw
      obtain ⟨y, u, t1, t2⟩ := rf_types h hw
      obtain ⟨rfl, rfl⟩ := isR_unique t2 hrd
      refine ⟨?_, t1⟩
      have hne : w ≠ r := fun e => isW_not_isR t1 (e ▸ hrd)
      rcases hr _ hx w r _ t1 ⟨_, .inl hrd⟩ hne with hb | hb
      · rcases split l1 r l2 hl w t1.acc with h' | h' | h'
        · exact h'
        · exact (hne h').elim
        · exact (bwd l1 r l2 hl w h' hb).elim
      · exact (hb_no_back h hb (.single (.inl hw))).elim
    rcases last_store (X := X) x l1 with hno | ⟨p, w, q, u, rfl, hw, hq⟩
    · rw [replay_other l1 hno]
      refine h.wf.rf_init r x v (reads_iff.2 hrd) fun w hw => ?_
      obtain ⟨g1, g2⟩ := rfin w hw
      exact hno w g1 v g2
    · have hwl : w ∈ p ++ w :: q := List.mem_append_right _ List.mem_cons_self
      have hne : w ≠ r := ne1 _ r l2 hl w hwl
      have hb : HB X w r := by
        rcases hr x hx w r u hw ⟨v, .inl hrd⟩ hne with hb | hb
        · exact hb
        · exact (fwd _ r l2 hl w hwl hb).elim
      obtain ⟨w', e1, e2⟩ := visible h hw hrd hb
      obtain ⟨g1, g2⟩ := rfin w' e1
      have hww : w' = w := by
        rcases e2 with e2 | e2
        · exact e2
        · refine Classical.byContradiction fun hne' => ?_
          have hl' : l = p ++ w :: (q ++ r :: l2) := by rw [hl]; simp
          rcases List.mem_append.1 g1 with g | g
          · rcases hr x hx w w' u hw ⟨v, .inr g2⟩ (Ne.symm hne') with hb' | hb'
            · exact fwd p w _ hl' w' g hb'
            · exact hb_no_back h hb' (.single (.inr (.inl e2)))
          · rcases List.mem_cons.1 g with g | g
            · exact hne' g
            · exact hq w' g v g2
      subst hww
      obtain ⟨-, rfl⟩ := isW_unique g2 hw
      rw [replay_append]
      show _ = replay X q _ x
      rw [replay_other q hq, apply_isW hw]
  · intro x hx
    rcases last_store (X := X) x l with hno | ⟨p, w, q, u, hl, hw, hq⟩
    · exact .inr ⟨fun w v hw => hno w ((h2 w).2 hw.acc) v hw, replay_other l hno _⟩
    · have hv : replay X l X.init x = u := by
        rw [hl, replay_append]
        show replay X q _ x = _
        rw [replay_other q hq, apply_isW hw]
      rw [hv]
      refine .inl ⟨w, hw, fun w' v' hw' => ?_⟩
      rcases split p w q hl w' hw'.acc with g | g | g
      · have hne : w ≠ w' := Ne.symm (ne1 p w q hl w' g)
        rcases h.wf.co_total w w' x u v' (writes_iff.2 hw) (writes_iff.2 hw') hne with hc | hc
        · rcases hr x hx w w' u hw ⟨v', .inr hw'⟩ hne with hb | hb
          · exact (fwd p w q hl w' g hb).elim
          · exact (hb_no_back h hb (.single (.inr (.inl hc)))).elim
        · exact .inr hc
      · exact .inl g
      · exact (hq w' g v' hw').elim

end Verif.Barrier
