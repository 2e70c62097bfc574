import Verif.BarriersLemmas
/- Helper lemmas about `rseq_smp_mb` for `BarriersProps.lean`. -/

namespace Verif.Barrier

open Relation (TransGen ReflTransGen)
open Verif.Rseq (Arch)

variable {a : Arch} {X : Exec}

/-- Access `e` is before the `rseq_smp_mb` at `b`. -/
def Bef (X : Exec) (e b : Ev) : Prop := X.op b = some .mb ∧ Access X e ∧ e.t = b.t ∧ e.k < b.k

/-- Access `e` is after the `rseq_smp_mb` at `b`. -/
def Aft (X : Exec) (b e : Ev) : Prop := X.op b = some .mb ∧ Access X e ∧ b.t = e.t ∧ b.k < e.k

theorem sep_iff {e1 e2 : Ev} : Sep X .mb e1 e2 ↔ ∃ b, Bef X e1 b ∧ Aft X b e2 := by
  constructor
  · rintro ⟨⟨h1, h2, ht, -⟩, k, hk1, hk2, ho⟩
    exact ⟨⟨e1.t, k⟩, ⟨ho, h1, rfl, hk1⟩, ⟨ho, h2, ht, hk2⟩⟩
  · rintro ⟨b, ⟨ho, h1, ht1, hk1⟩, ⟨-, h2, ht2, hk2⟩⟩
    refine ⟨⟨h1, h2, ht1.trans ht2, Nat.lt_trans hk1 hk2⟩, b.k, hk1, hk2, ?_⟩
    rw [ht1]; exact ho

/-- One stretch of communication between two barriers. -/
def H (X : Exec) (b b' : Ev) : Prop := ∃ m n, Aft X b m ∧ (m = n ∨ Eff X m n) ∧ Bef X n b'

theorem eff_trans {e1 e2 e3 : Ev} (h : e1 = e2 ∨ Eff X e1 e2) (h' : e2 = e3 ∨ Eff X e2 e3) :
    e1 = e3 ∨ Eff X e1 e3 := by
  rcases h with rfl | h
  · exact h'
  · rcases h' with rfl | h'
    · exact .inr h
    · exact .inr (TransGen.trans h h')

theorem alternate {e f : Ev} (h : TransGen (fun e1 e2 => Sep X .mb e1 e2 ∨ Comm X e1 e2) e f) :
    Eff X e f ∨ ∃ n b b' m, (e = n ∨ Eff X e n) ∧ Bef X n b ∧ ReflTransGen (H X) b b' ∧ Aft X b' m ∧
      (m = f ∨ Eff X m f) := by
  induction h with
  | single h =>
    rcases h with h | h
    · obtain ⟨b, h1, h2⟩ := sep_iff.1 h
      exact .inr ⟨e, b, b, _, .inl rfl, h1, .refl, h2, .inl rfl⟩
    · exact .inl (.single h)
  | @tail f g _ h ih =>
    rcases h with h | h
    · obtain ⟨c, h1, h2⟩ := sep_iff.1 h
      rcases ih with ih | ⟨n, b, b', m, i1, i2, i3, i4, i5⟩
      · exact .inr ⟨f, c, c, g, .inr ih, h1, .refl, h2, .inl rfl⟩
      · exact .inr ⟨n, b, c, g, i1, i2, i3.tail ⟨m, f, i4, i5, h1⟩, h2, .inl rfl⟩
    · rcases ih with ih | ⟨n, b, b', m, i1, i2, i3, i4, i5⟩
      · exact .inl (TransGen.tail ih h)
      · exact .inr ⟨n, b, b', m, i1, i2, i3, i4, eff_trans i5 (.inr (.single h))⟩

theorem Aft.po {b m n : Ev} (h : Aft X b m) (hp : Po X m n) : Aft X b n :=
  ⟨h.1, hp.2.1, h.2.2.1.trans hp.2.2.1, Nat.lt_trans h.2.2.2 hp.2.2.2⟩

theorem Bef.po {b m n : Ev} (hp : Po X m n) (h : Bef X n b) : Bef X m b :=
  ⟨h.1, hp.1, hp.2.2.1.trans h.2.2.1, Nat.lt_trans hp.2.2.2 h.2.2.2⟩

/-! #### Architectures with one global order -/

/-- The global order. -/
def G (a : Arch) (X : Exec) (e1 e2 : Ev) : Prop := Hb a X e1 e2 ∨ Ext (Com a X) e1 e2

def HG (a : Arch) (X : Exec) (b b' : Ev) : Prop := ∃ m n, Aft X b m ∧ ReflTransGen (G a X) m n ∧ Bef X n b'

theorem H.hg (h : Allowed a X) {b b' : Ev} (hh : H X b b') : HG a X b b' := by
  obtain ⟨m, n, h1, h2, h3⟩ := hh
  have gc : ∀ {e e'}, Comm X e e' → e.t ≠ e'.t → G a X e e' := fun hc ht => .inr ⟨com_iff.2 hc, ht⟩
  rcases h2 with rfl | h2
  · exact ⟨m, m, h1, .refl, h3⟩
  by_cases ht : m.t = n.t
  · exact ⟨n, n, h1.po (eff_po h h2 ht), .refl, h3⟩
  have two : ∀ {w}, Comm X m w → X.rf w n → HG a X b b' := by
    intro w hc hr
    by_cases hw : w.t = n.t
    · have hp : Po X w n := eff_po h (.single (.inl hr)) hw
      exact ⟨m, w, h1, .single (gc hc (by rw [hw]; exact ht)), Bef.po hp h3⟩
    · by_cases hm : m.t = w.t
      · exact ⟨w, n, h1.po (eff_po h (.single hc) hm), .single (gc (.inl hr) hw), h3⟩
      · exact ⟨m, n, h1, .tail (.single (gc hc hm)) (gc (.inl hr) hw), h3⟩
  rcases eff_cases h h2 with hc | hc | hc | ⟨w, hc, hr⟩ | ⟨w, hc, hr⟩
  · exact ⟨m, n, h1, .single (gc (.inl hc) ht), h3⟩
  · exact ⟨m, n, h1, .single (gc (.inr (.inl hc)) ht), h3⟩
  · exact ⟨m, n, h1, .single (gc (.inr (.inr hc)) ht), h3⟩
  · exact two (.inr (.inl hc)) hr
  · exact two (.inr (.inr hc)) hr

theorem sep_g {n m b : Ev} (h : Bef X n b) (h' : Aft X b m) : G a X n m :=
  .inl (.inr (.inl (mb_ffenced (sep_iff.2 ⟨b, h, h'⟩)).cfenced.fenced))

theorem HG.trans {b b' b'' : Ev} (h : HG a X b b') (h' : HG a X b' b'') : HG a X b b'' := by
  obtain ⟨m, n, h1, h2, h3⟩ := h
  obtain ⟨m', n', h4, h5, h6⟩ := h'
  exact ⟨m, n', h1, h2.trans (.head (sep_g h3 h4) h5), h6⟩

/-! #### Architectures with full fences -/

/-- Propagation followed by communication. -/
def PC (a : Arch) (X : Exec) (e1 e2 : Ev) : Prop :=
  ∃ e, ReflTransGen (Prop' a X) e1 e ∧ ReflTransGen (Com a X) e e2

def HP (a : Arch) (X : Exec) (b b' : Ev) : Prop := ∃ m n, Aft X b m ∧ PC a X m n ∧ Bef X n b'

theorem eff_com {e1 e2 : Ev} (h : e1 = e2 ∨ Eff X e1 e2) : ReflTransGen (Com a X) e1 e2 := by
  rcases h with rfl | h
  · exact .refl
  · exact (tgMono h fun _ _ hc => com_iff.2 hc).to_reflTransGen

theorem H.hp {b b' : Ev} (hh : H X b b') : HP a X b b' := by
  obtain ⟨m, n, h1, h2, h3⟩ := hh
  exact ⟨m, n, h1, ⟨m, .refl, eff_com h2⟩, h3⟩

theorem com_sep {e n m b : Ev} (h : ReflTransGen (Com a X) e n) (h1 : Bef X n b) (h2 : Aft X b m) :
    Prop' a X e m :=
  .inr ⟨n, n, m, h, .refl, mb_ffenced (sep_iff.2 ⟨b, h1, h2⟩), .refl⟩

theorem HP.trans {b b' b'' : Ev} (h : HP a X b b') (h' : HP a X b' b'') : HP a X b b'' := by
  obtain ⟨m, n, h1, ⟨e, p1, p2⟩, h3⟩ := h
  obtain ⟨m', n', h4, ⟨e', p3, p4⟩, h6⟩ := h'
  exact ⟨m, n', h1, ⟨e', p1.trans (.head (com_sep p2 h3 h4) p3), p4⟩, h6⟩

theorem no_H_cycle (h : Allowed a X) {b : Ev} (hh : TransGen (H X) b b) : False := by
  rcases hm : multiCopy a
  · have : HP a X b b := by
      have gen : ∀ {c}, TransGen (H X) b c → HP a X b c := by
        intro c hc
        induction hc with
        | single h => exact h.hp
        | tail _ h ih => exact ih.trans h.hp
      exact gen hh
    obtain ⟨m, n, h1, ⟨e, p1, p2⟩, h3⟩ := this
    have := TransGen.tail' p1 (com_sep p2 h3 h1)
    exact h.propagation hm m (tgMono this fun _ _ => .inr)
  · have : HG a X b b := by
      have gen : ∀ {c}, TransGen (H X) b c → HG a X b c := by
        intro c hc
        induction hc with
        | single hs => exact hs.hg h
        | tail _ hs ih => exact ih.trans (hs.hg h)
      exact gen hh
    obtain ⟨m, n, h1, p, h3⟩ := this
    exact h.ghb hm m (TransGen.tail' p (sep_g h3 h1))

end Verif.Barrier
