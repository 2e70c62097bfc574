import Verif.BarriersLemmas
/- Helper lemmas that show a run to be allowed. -/

namespace Verif.Barrier

open Relation (TransGen ReflTransGen)
open Verif.Rseq (Arch)

variable {a : Arch} {X : Exec}

theorem Fits.wf (h : Fits X) (a : Arch) : WF a X where
  rf_val w r hr := by
    obtain ⟨x, v, h1, h2⟩ := h.rf_val w r hr
    exact ⟨x, v, writes_iff.2 h1, reads_iff.2 h2⟩
  rf_one := h.rf_one
  rf_init r x v hr hn := h.rf_init r x v (reads_iff.1 hr) hn
  co_loc w w' hc := by
    obtain ⟨x, v, v', h1, h2⟩ := h.co_loc w w' hc
    exact ⟨x, v, v', writes_iff.2 h1, writes_iff.2 h2⟩
  co_irrefl := h.co_irrefl
  co_trans := h.co_trans
  co_total w w' x v v' h1 h2 hne := h.co_total w w' x v v' (writes_iff.1 h1) (writes_iff.1 h2) hne

/-- An operation has at most one access. -/
theorem one_acc {e : Ev} {j j' : Nat} {k k' : RW} (h : Acc a X e j k) (h' : Acc a X e j' k') : j = j' := by
  rcases ho : X.op e with _ | o
  · obtain ⟨i, hi, -⟩ := h
    rw [ins_none ho] at hi; simp at hi
  · obtain ⟨i, hi, hk⟩ := acc_unique ho h
    obtain ⟨i', hi', hk'⟩ := acc_unique ho h'
    clear h h'
    cases o <;> cases a <;>
      simp only [expand, loadAcquireI, storeReleaseI, mbI, rmbI, wmbI, acqCtrlI, List.cons_append,
        List.nil_append] at hi hi' <;>
      rcases j with _ | _ | j <;> rcases j' with _ | _ | j' <;> simp_all <;>
      (try subst hi) <;> (try subst hi') <;> simp_all [Instr.rw]

theorem acc_kind {e : Ev} {j : Nat} {k : RW} (h : Acc a X e j k) :
    (k = .r ∧ ∃ x v, IsR X e x v) ∨ k = .w ∧ ∃ x v, IsW X e x v := by
  obtain ⟨i, hi, hk⟩ := h
  cases i
  case ld x v => simp only [Instr.rw] at hk; cases hk; exact .inl ⟨rfl, x, v, reads_iff.1 ⟨j, _, hi, rfl⟩⟩
  case ldar x v => simp only [Instr.rw] at hk; cases hk; exact .inl ⟨rfl, x, v, reads_iff.1 ⟨j, _, hi, rfl⟩⟩
  case st x v => simp only [Instr.rw] at hk; cases hk; exact .inr ⟨rfl, x, v, writes_iff.1 ⟨j, _, hi, rfl⟩⟩
  case stlr x v => simp only [Instr.rw] at hk; cases hk; exact .inr ⟨rfl, x, v, writes_iff.1 ⟨j, _, hi, rfl⟩⟩
  case bar b => simp [Instr.rw] at hk
  case br k => simp [Instr.rw] at hk

theorem acc_access {e : Ev} {j : Nat} {k : RW} (h : Acc a X e j k) : Access X e := by
  rcases acc_kind h with ⟨-, x, v, h⟩ | ⟨-, x, v, h⟩
  · exact h.access
  · exact h.access

theorem before_trans {p q r : Nat × Nat} (h : Before p q) (h' : Before q r) : Before p r := by
  simp only [Before] at *
  omega

theorem before_po {e1 e2 : Ev} {j1 j2 : Nat} {k1 k2 : RW} (ht : e1.t = e2.t) (h1 : Acc a X e1 j1 k1)
    (h2 : Acc a X e2 j2 k2) (hb : Before (e1.k, j1) (e2.k, j2)) : Po X e1 e2 := by
  refine ⟨acc_access h1, acc_access h2, ht, ?_⟩
  rcases hb with hb | ⟨hk, hj⟩
  · exact hb
  · simp only at hk hj
    have : e1 = e2 := by cases e1; cases e2; simp_all
    subst this
    exact absurd (one_acc h1 h2) (Nat.ne_of_lt hj)

theorem Between.po {b : Bar} {k1 k2 : RW} {e1 e2 : Ev} (h : Between a X b k1 k2 e1 e2) : Po X e1 e2 := by
  obtain ⟨ht, j1, j2, p, h1, h2, -, h3, h4⟩ := h
  exact before_po ht h1 h2 (before_trans h3 h4)

theorem Ppo.po {e1 e2 : Ev} (h : Ppo a X e1 e2) : Po X e1 e2 := by
  rcases h with ⟨ht, j1, j2, p, h1, h2, -, h3, h4⟩ | ⟨ht, j1, j2, k1, k2, h1, h2, h3, -⟩ |
    ⟨-, ht, j1, j2, k1, k2, h1, h2, h3, -⟩
  · exact before_po ht h1 h2 (before_trans h3 h4)
  · exact before_po ht h1 h2 h3
  · exact before_po ht h1 h2 h3

/-- An order given by numbers has no cycle. -/
theorem acyclic_of {R : Ev → Ev → Prop} (time : Ev → Nat) (h : ∀ e1 e2, R e1 e2 → time e1 < time e2) :
    Acyclic R := by
  have gen : ∀ {e e'}, TransGen R e e' → time e < time e' := by
    intro e e' ht
    induction ht with
    | single hs => exact h _ _ hs
    | tail _ hs ih => exact Nat.lt_trans ih (h _ _ hs)
  exact fun e he => Nat.lt_irrefl _ (gen he)

theorem rtg_le {R : Ev → Ev → Prop} (time : Ev → Nat) (h : ∀ e1 e2, R e1 e2 → time e1 ≤ time e2) {e e' : Ev}
    (ht : ReflTransGen R e e') : time e ≤ time e' := by
  induction ht with
  | refl => exact Nat.le_refl _
  | tail _ hs ih => exact Nat.le_trans ih (h _ _ hs)

section
variable {time : Ev → Nat} (hX : Interleaved X time)
include hX

theorem Interleaved.com {e1 e2 : Ev} (h : Com a X e1 e2) : time e1 < time e2 := by
  rcases h with h | h | h
  · exact hX.rf _ _ h
  · exact hX.co _ _ h
  · exact hX.old _ _ (fr_iff.1 h)

theorem Interleaved.hb {e1 e2 : Ev} (h : Hb a X e1 e2) : time e1 < time e2 := by
  rcases h with h | ⟨b, k1, k2, h, -⟩ | h
  · exact hX.po _ _ h.po
  · exact hX.po _ _ h.po
  · exact hX.rf _ _ h.1

theorem Interleaved.base {e1 e2 : Ev} (h : PropBase a X e1 e2) : time e1 < time e2 := by
  have le : ∀ {e e'}, ReflTransGen (Hb a X) e e' → time e ≤ time e' :=
    rtg_le time fun _ _ h => Nat.le_of_lt (hX.hb h)
  rcases h with ⟨f, ⟨b, k1, k2, h1, -⟩, h2⟩ | ⟨r, f, h0, ⟨b, k1, k2, h1, -⟩, h2⟩
  · have := hX.po _ _ h1.po
    have := le h2
    omega
  · have := hX.rf _ _ h0.1
    have := hX.po _ _ h1.po
    have := le h2
    omega

theorem Interleaved.prop {e1 e2 : Ev} (h : Prop' a X e1 e2) : time e1 < time e2 := by
  rcases h with ⟨h, -⟩ | ⟨b, c, d, h1, h2, ⟨f, k1, k2, h3, -⟩, h4⟩
  · exact hX.base h
  · have l1 := rtg_le time (fun _ _ h => Nat.le_of_lt (hX.com (a := a) h)) h1
    have l2 := rtg_le time (fun _ _ h => Nat.le_of_lt (hX.base (a := a) h)) h2
    have l3 := hX.po _ _ h3.po
    have l4 := rtg_le time (fun _ _ h => Nat.le_of_lt (hX.hb (a := a) h)) h4
    omega

theorem Interleaved.allowed (a : Arch) : Allowed a X where
  wf := hX.fits.wf a
  perLoc := acyclic_of time fun e1 e2 h => by
    rcases h with h | h
    · obtain ⟨ht, hk, x, h1, h2⟩ := poLoc_iff.1 h
      exact hX.po _ _ ⟨At.access h1, At.access h2, ht, hk⟩
    · exact hX.com h
  ghb _ := acyclic_of time fun e1 e2 h => by
    rcases h with h | h
    · exact hX.hb h
    · exact hX.com h.1
  noThinAir := acyclic_of time fun e1 e2 h => hX.hb h
  observation _ r w w' h1 h2 h3 := by
    have l1 := hX.old _ _ (fr_iff.1 h1.1)
    have l2 := hX.prop h2
    have l3 := rtg_le time (fun _ _ h => Nat.le_of_lt (hX.hb (a := a) h)) h3
    omega
  propagation _ := acyclic_of time fun e1 e2 h => by
    rcases h with h | h
    · exact hX.co _ _ h
    · exact hX.prop h

end

end Verif.Barrier
