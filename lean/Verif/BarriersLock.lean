import Mathlib.Data.Fintype.Card
import Mathlib.Data.Fintype.EquivFin
import Mathlib.Order.WellFounded
import Mathlib.Tactic.Ring
import Verif.BarriersMb
/- Helper lemmas about lock sections for `BarriersProps.lean`. -/

namespace Verif.Barrier

open Relation (TransGen ReflTransGen)
open Verif.Rseq (Arch)

variable {a : Arch} {X : Exec}

/-- No effect against happens-before. -/
theorem hb_no_back (h : Allowed a X) {e1 e2 : Ev} (hb : HB X e1 e2) : ¬ Eff X e2 e1 := by
  intro hc
  rcases hb_cases h hb with hp | hv
  · have := eff_po h hc hp.2.2.1.symm
    have h1 := this.2.2.2
    have h2 := hp.2.2.2
    omega
  · exact via_no_back h hv hc

/-- Happens-before has no cycle. -/
theorem hb_irrefl (h : Allowed a X) {e : Ev} (hb : HB X e e) : False := by
  rcases hb_cases h hb with h2 | ⟨s, l, d1, d2, d3⟩
  · exact Nat.lt_irrefl _ h2.2.2.2
  · have hs : TransGen (Hb a X) s e := d2.hb.tail (acquired_hb d3)
    rcases d1 with rfl | d1
    · exact h.noThinAir _ hs
    · exact h.noThinAir _ (hs.tail (release_F d1 d2.release).hb)

theorem visible (h : Allowed a X) {w r : Ev} {x : Nat} {v u : Int} (hw : IsW X w x v) (hr : IsR X r x u)
    (hb : HB X w r) : ∃ w', X.rf w' r ∧ (w' = w ∨ X.co w w') := by
  refine Classical.byContradiction fun hn => ?_
  refine hb_no_back h hb (.single (.inr (.inr ⟨x, u, v, hr, hw, fun w0 h0 => ?_⟩)))
  obtain ⟨y, u', h1, h2⟩ := rf_types h h0
  obtain rfl := (isR_unique h2 hr).1
  by_cases he : w0 = w
  · exact (hn ⟨w0, h0, .inl he⟩).elim
  · rcases h.wf.co_total w0 w y u' v (writes_iff.2 h1) (writes_iff.2 hw) he with hc | hc
    · exact hc
    · exact (hn ⟨w0, h0, .inr hc⟩).elim

section
variable {ι : Type} {x : Nat} {C : ι → Sect}

theorem Sect.In.st_w {c : Sect} (h : c.In X x) : IsW X c.st x 1 := .inl h.store
theorem Sect.In.ld_r {c : Sect} (h : c.In X x) : IsR X c.ld x 0 := .inl h.load

theorem Sect.In.ld_st {c : Sect} (h : c.In X x) : PoL X c.ld c.st :=
  ⟨rfl, Nat.lt_trans h.lt1 h.lt2, x, ⟨0, .inl h.ld_r⟩, ⟨1, .inr h.st_w⟩⟩

theorem Sect.In.rel_w {c : Sect} (h : c.In X x) {k : Nat} (hk : c.kr = some k) : IsW X ⟨c.t, k⟩ x 0 :=
  .inr (h.rel k hk).2

theorem Sect.In.st_rel {c : Sect} (h : c.In X x) {k : Nat} (hk : c.kr = some k) : PoL X c.st ⟨c.t, k⟩ :=
  ⟨rfl, Nat.lt_trans h.lt3 (h.rel k hk).1, x, ⟨1, .inr h.st_w⟩, ⟨0, .inr (h.rel_w hk)⟩⟩

/-- Stores to one location follow program order. -/
theorem poL_co (h : Allowed a X) {w w' : Ev} {y : Nat} {u u' : Int} (hw : IsW X w y u) (hw' : IsW X w' y u')
    (hp : PoL X w w') : X.co w w' := by
  have hne : w ≠ w' := fun he => by
    subst he; exact Nat.lt_irrefl _ hp.2.1
  rcases h.wf.co_total w w' y u u' (writes_iff.2 hw) (writes_iff.2 hw') hne with hc | hc
  · exact hc
  · exact (no_back h hp (.single (.inr (.inl hc)))).elim

/-- What the load of a later section read: a release after the earlier section's store. -/
theorem later_read (h : Allowed a X) (hS : Sections X x C) {p j : ι} (hpj : X.co (C p).st (C j).st) :
    ∃ m k, (C m).kr = some k ∧ X.rf ⟨(C m).t, k⟩ (C j).ld ∧ X.co (C p).st ⟨(C m).t, k⟩ ∧
      X.co ⟨(C m).t, k⟩ (C j).st ∧ X.co (C m).st (C j).st := by
  have ip := hS.isIn p
  have ij := hS.isIn j
  have : ∃ w, X.rf w (C j).ld ∧ ¬ X.co w (C p).st := by
    refine Classical.byContradiction fun hn => hS.serial p j (fun w hw => ?_) hpj
    exact Classical.byContradiction fun hc => hn ⟨w, hw, hc⟩
  obtain ⟨w, hrf, hn⟩ := this
  obtain ⟨y, u, hw, hr⟩ := rf_types h hrf
  obtain ⟨rfl, rfl⟩ := isR_unique hr ij.ld_r
  obtain ⟨m, hm⟩ := hS.only w 0 hw
  have im := hS.isIn m
  rcases hm with rfl | ⟨k, hk, rfl⟩
  · have := (isW_unique hw im.st_w).2
    simp at this
  · have hne : ∀ i, (⟨(C m).t, k⟩ : Ev) ≠ (C i).st := by
      intro i he
      have := (isW_unique hw (he ▸ (hS.isIn i).st_w)).2
      simp at this
    have c1 : X.co (C p).st ⟨(C m).t, k⟩ := by
      rcases h.wf.co_total _ _ _ _ _ (writes_iff.2 hw) (writes_iff.2 ip.st_w) (hne p) with hc | hc
      · exact (hn hc).elim
      · exact hc
    have c2 : X.co ⟨(C m).t, k⟩ (C j).st := by
      rcases h.wf.co_total _ _ _ _ _ (writes_iff.2 hw) (writes_iff.2 ij.st_w) (hne j) with hc | hc
      · exact hc
      · exact (no_back h ij.ld_st (.tail (.single (.inr (.inl hc))) (.inl hrf))).elim
    refine ⟨m, k, hk, hrf, c1, c2, ?_⟩
    exact h.wf.co_trans _ _ _ (poL_co h im.st_w (im.rel_w hk) (im.st_rel hk)) c2

theorem co_precedes [Finite ι] (h : Allowed a X) (hS : Sections X x C) (j : ι) :
    ∀ i, X.co (C i).st (C j).st →
      Precedes X (C i) (C j) ∧ ∀ k, (C i).kr = some k → X.co ⟨(C i).t, k⟩ (C j).st := by
  let lt : ι → ι → Prop := fun i j => X.co (C i).st (C j).st
  let gt : ι → ι → Prop := fun i j => X.co (C j).st (C i).st
  have t1 : IsTrans ι lt := ⟨fun _ _ _ h1 h2 => h.wf.co_trans _ _ _ h1 h2⟩
  have t2 : Std.Irrefl lt := ⟨fun _ => h.wf.co_irrefl _⟩
  have t3 : IsTrans ι gt := ⟨fun _ _ _ h1 h2 => h.wf.co_trans _ _ _ h2 h1⟩
  have t4 : Std.Irrefl gt := ⟨fun _ => h.wf.co_irrefl _⟩
  have w1 : WellFounded lt := Finite.wellFounded_of_trans_of_irrefl lt
  have w2 : WellFounded gt := Finite.wellFounded_of_trans_of_irrefl gt
  induction j using w1.induction with
  | _ j ih =>
    intro i hij
    obtain ⟨p, hp, hmax⟩ := w2.has_min {i | lt i j} ⟨i, hij⟩
    have hmax : ∀ q, X.co (C q).st (C j).st → ¬ X.co (C p).st (C q).st := hmax
    have hp : X.co (C p).st (C j).st := hp
    have ip := hS.isIn p
    have ij := hS.isIn j
    obtain ⟨m, k, hk, hrf, c1, c2, c3⟩ := later_read h hS hp
    -- the section read from is the last one before `j`
    have hmp : m = p := by
      by_cases he : (C m).st = (C p).st
      · exact hS.st_inj _ _ he
      · rcases h.wf.co_total _ _ _ _ _ (writes_iff.2 (hS.isIn m).st_w) (writes_iff.2 ip.st_w) he with hc | hc
        · exact (h.wf.co_irrefl _ (h.wf.co_trans _ _ _ c1 ((ih p hp m hc).2 k hk))).elim
        · exact (hmax m c3 hc).elim
    subst hmp
    have hand : ∀ e e', Access X e → e.t = (C m).t → e.k ≤ k → Access X e' → e'.t = (C j).t →
        (C j).ka < e'.k → HB X e e' := by
      intro e e' h1 h2 h3 h4 h5 h6
      have hw := (hS.isIn m).rel_w hk
      refine .single (.inr ⟨⟨(C m).t, k⟩, (C j).ld, ?_, ⟨x, 0, ((hS.isIn m).rel k hk).2⟩, hrf, .inr ⟨⟨x, 0, ij.ld_r⟩, ?_, (C j).kb, (C j).ka, ij.lt1, Nat.lt_trans ij.lt2 ij.lt3, h6, ij.branch, ij.acq⟩⟩)
      · rcases Nat.lt_or_ge e.k k with hlt | hge
        · exact .inr ⟨h1, hw.access, h2, hlt⟩
        · left
          have : e.k = k := Nat.le_antisymm h3 hge
          cases e
          simp only at h2 this
          subst h2 this
          rfl
      · refine ⟨ij.ld_r.access, h4, h5.symm, ?_⟩
        have := ij.lt1
        have := ij.lt2
        have := ij.lt3
        simp only [Sect.ld]
        omega
    by_cases he : (C i).st = (C m).st
    · obtain rfl := hS.st_inj _ _ he
      refine ⟨⟨k, hk, hand⟩, fun k' hk' => ?_⟩
      rw [hk] at hk'
      cases hk'
      exact c2
    · rcases h.wf.co_total _ _ _ _ _ (writes_iff.2 (hS.isIn i).st_w) (writes_iff.2 ip.st_w) he with hc | hc
      · obtain ⟨⟨k', hk', hh⟩, hco⟩ := ih m hp i hc
        refine ⟨⟨k', hk', fun e e' h1 h2 h3 h4 h5 h6 => ?_⟩, fun k'' hk'' => ?_⟩
        · have hw := (hS.isIn m).rel_w hk
          have first := hh e ⟨(C m).t, k⟩ h1 h2 h3 hw.access rfl ((hS.isIn m).rel k hk).1
          exact TransGen.trans first (hand ⟨(C m).t, k⟩ e' hw.access rfl (Nat.le_refl _) h4 h5 h6)
        · exact h.wf.co_trans _ _ _ (hco k'' hk'') hp
      · exact (hmax i hij hc).elim

/-! ### The counter -/

variable {c : Nat} {cl cs : ι → Nat} {v : ι → Int}

/-- Load and store of the counter. -/
theorem Counting.facts (hC : Counting X c C cl cs v) (i : ι) :
    IsR X ⟨(C i).t, cl i⟩ c (v i) ∧ IsW X ⟨(C i).t, cs i⟩ c (v i + 1) ∧ (C i).ka < cl i ∧ cl i < cs i :=
  ⟨.inl (hC.load i), .inl (hC.store i), (hC.order i).1, (hC.order i).2⟩

open Classical in
/-- The load of section `j` gets the initial value plus the number of earlier sections. -/
theorem count_value [Fintype ι] (h : Allowed a X) (hS : Sections X x C) (hC : Counting X c C cl cs v) (j : ι) :
    v j = X.init c + ((Finset.univ.filter fun i => X.co (C i).st (C j).st).card : Int) := by
  let lt : ι → ι → Prop := fun i j => X.co (C i).st (C j).st
  let gt : ι → ι → Prop := fun i j => X.co (C j).st (C i).st
  have t1 : IsTrans ι lt := ⟨fun _ _ _ h1 h2 => h.wf.co_trans _ _ _ h1 h2⟩
  have t2 : Std.Irrefl lt := ⟨fun _ => h.wf.co_irrefl _⟩
  have t3 : IsTrans ι gt := ⟨fun _ _ _ h1 h2 => h.wf.co_trans _ _ _ h2 h1⟩
  have t4 : Std.Irrefl gt := ⟨fun _ => h.wf.co_irrefl _⟩
  have w1 : WellFounded lt := Finite.wellFounded_of_trans_of_irrefl lt
  have w2 : WellFounded gt := Finite.wellFounded_of_trans_of_irrefl gt
  have tot : ∀ i j, i ≠ j → lt i j ∨ lt j i := fun i j hij =>
    h.wf.co_total _ _ _ _ _ (writes_iff.2 (hS.isIn i).st_w) (writes_iff.2 (hS.isIn j).st_w)
      (fun he => hij (hS.st_inj _ _ he))
  -- counter accesses of different sections are ordered
  have ord : ∀ i j, lt i j → ∀ k k', (k = cl i ∨ k = cs i) → (k' = cl j ∨ k' = cs j) →
      HB X ⟨(C i).t, k⟩ ⟨(C j).t, k'⟩ := by
    intro i j hij k k' hk hk'
    obtain ⟨⟨kr, hkr, hh⟩, -⟩ := co_precedes h hS j i hij
    obtain ⟨kr', hkr', hlt⟩ := hC.rel i
    rw [hkr] at hkr'
    cases hkr'
    obtain ⟨a1, a2, a3, a4⟩ := hC.facts i
    obtain ⟨b1, b2, b3, b4⟩ := hC.facts j
    refine hh _ _ ?_ rfl ?_ ?_ rfl ?_
    · rcases hk with rfl | rfl
      · exact a1.access
      · exact a2.access
    · rcases hk with rfl | rfl <;> simp only <;> omega
    · rcases hk' with rfl | rfl
      · exact b1.access
      · exact b2.access
    · rcases hk' with rfl | rfl <;> simp only <;> omega
  induction j using w1.induction with
  | _ j ih =>
    obtain ⟨r1, s1, o1, o2⟩ := hC.facts j
    -- a store that the load reads is from an earlier section
    have early : ∀ m, X.rf ⟨(C m).t, cs m⟩ ⟨(C j).t, cl j⟩ → lt m j := by
      intro m hrf
      by_cases hmj : m = j
      · subst hmj
        exact (no_back h (e1 := ⟨(C m).t, cl m⟩) (e2 := ⟨(C m).t, cs m⟩) ⟨rfl, o2, c, ⟨_, .inl r1⟩, ⟨_, .inr s1⟩⟩ (.single (.inl hrf))).elim
      · rcases tot m j hmj with hl | hl
        · exact hl
        · exact (hb_no_back h (ord j m hl _ _ (.inl rfl) (.inr rfl)) (.single (.inl hrf))).elim
    by_cases hex : ∃ i, lt i j
    · obtain ⟨p, hp, hmax⟩ := w2.has_min {i | lt i j} hex
      have hmax : ∀ q, lt q j → ¬ lt p q := hmax
      have hp : lt p j := hp
      obtain ⟨q1, q2, q3, q4⟩ := hC.facts p
      obtain ⟨w, hrf, hw⟩ := visible h q2 r1 (ord p j hp _ _ (.inr rfl) (.inl rfl))
      obtain ⟨y, u, hw1, hw2⟩ := rf_types h hrf
      obtain ⟨rfl, rfl⟩ := isR_unique hw2 r1
      obtain ⟨m, rfl⟩ := hC.only w _ hw1
      have hm := early m hrf
      have hmp : m = p := by
        refine Classical.byContradiction fun hne => ?_
        rcases tot m p hne with hl | hl
        · rcases hw with he | hco
          · have h1 := ord m p hl _ _ (.inr rfl) (.inr rfl)
            rw [he] at h1
            exact hb_irrefl h h1
          · exact hb_no_back h (ord m p hl _ _ (.inr rfl) (.inr rfl)) (.single (.inr (.inl hco)))
        · exact hmax m hm hl
      subst hmp
      have hval := (isW_unique hw1 q2).2
      have hset : (Finset.univ.filter fun i => X.co (C i).st (C j).st) =
          insert m (Finset.univ.filter fun i => X.co (C i).st (C m).st) := by
        ext i
        simp only [Finset.mem_filter, Finset.mem_univ, true_and, Finset.mem_insert]
        constructor
        · intro hi
          by_cases him : i = m
          · exact .inl him
          · rcases tot i m him with hl | hl
            · exact .inr hl
            · exact (hmax i hi hl).elim
        · rintro (rfl | hi)
          · exact hp
          · exact h.wf.co_trans _ _ _ hi hp
      rw [hset, Finset.card_insert_of_notMem (by simp [h.wf.co_irrefl]), hval, ih m hp]
      push_cast
      ring
    · have hnone : ∀ w, ¬ X.rf w ⟨(C j).t, cl j⟩ := by
        intro w hrf
        obtain ⟨y, u, hw1, hw2⟩ := rf_types h hrf
        obtain ⟨rfl, rfl⟩ := isR_unique hw2 r1
        obtain ⟨m, rfl⟩ := hC.only w _ hw1
        exact hex ⟨m, early m hrf⟩
      rw [h.wf.rf_init _ c (v j) (reads_iff.2 r1) hnone]
      have : (Finset.univ.filter fun i => X.co (C i).st (C j).st) = ∅ := by
        ext i
        simp only [Finset.mem_filter, Finset.mem_univ, true_and, Finset.notMem_empty, iff_false]
        exact fun hi => hex ⟨i, hi⟩
      rw [this]
      simp

open Classical in
/-- The last store leaves the initial value plus the number of sections. -/
theorem count_final [Fintype ι] (h : Allowed a X) (hS : Sections X x C) (hC : Counting X c C cl cs v)
    {u : Int} (hf : Final X c u) : u = X.init c + (Fintype.card ι : Int) := by
  rcases hf with ⟨w, hw, hlast⟩ | ⟨hn, rfl⟩
  · obtain ⟨j, rfl⟩ := hC.only w u hw
    have hval := (isW_unique hw (hC.facts j).2.1).2
    have hset : (Finset.univ.filter fun i => X.co (C i).st (C j).st) = Finset.univ.erase j := by
      ext i
      simp only [Finset.mem_filter, Finset.mem_univ, true_and, Finset.mem_erase, and_true]
      constructor
      · rintro hi rfl
        exact h.wf.co_irrefl _ hi
      · intro hij
        rcases h.wf.co_total _ _ _ _ _ (writes_iff.2 (hS.isIn i).st_w) (writes_iff.2 (hS.isIn j).st_w)
          (fun he => hij (hS.st_inj _ _ he)) with hc | hc
        · exact hc
        · -- `j` precedes `i`, so its store would not be last
          obtain ⟨⟨kr, hkr, hh⟩, -⟩ := co_precedes h hS i j hc
          obtain ⟨kr', hkr', hlt⟩ := hC.rel j
          rw [hkr] at hkr'
          cases hkr'
          obtain ⟨-, a2, -, -⟩ := hC.facts j
          obtain ⟨-, b2, b3, b4⟩ := hC.facts i
          have hb : HB X ⟨(C j).t, cs j⟩ ⟨(C i).t, cs i⟩ :=
            hh _ _ a2.access rfl (by simp only; omega) b2.access rfl (by simp only; omega)
          rcases hlast _ _ b2 with he | hco
          · rw [he] at hb
            exact (hb_irrefl h hb).elim
          · exact (hb_no_back h hb (.single (.inr (.inl hco)))).elim
    rw [hval, count_value h hS hC j, hset, Finset.card_erase_of_mem (Finset.mem_univ j), Finset.card_univ]
    have : 0 < Fintype.card ι := Fintype.card_pos_iff.2 ⟨j⟩
    omega
  · have : IsEmpty ι := ⟨fun i => hn _ _ (hC.facts i).2.1⟩
    simp

end

end Verif.Barrier
