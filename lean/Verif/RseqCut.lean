import Verif.RseqZone
/-
Static check: no helper writes memory before its last comparison.
-/

namespace Verif.Rseq

variable {n : Nat}

/-- The instruction writes memory. -/
def wr : Instr → Bool
  | .st .. | .stl .. | .addM .. | .stb .. | .stbx .. | .stbu .. => true
  | _ => false

theorem exec_wr {ins : Instr} (h : wr ins = false) (p : Prog n) (fv : BitVec 32) (i : Nat) (l : LSt n)
    (m : Mem n) : (exec p fv i ins l m).2 = m := by
  cases ins <;> simp_all [wr, exec]

/-- Exit taken when a comparison fails. -/
def neqExit (p : Prog n) (t : Pc) : Bool := zone p t == .neq || t == .ret 1

/-- Index after the last instruction of the body that can take that exit. -/
def cutFrom (p : Prog n) : Nat → Nat → List Instr → Nat
  | _, c, [] => c
  | i, c, ins :: r =>
    cutFrom p (i + 1) (if i < p.commit ∧ (succs i ins).any (neqExit p) = true then i + 1 else c) r

def cut (p : Prog n) : Nat := cutFrom p 0 0 p.code

def tgtOK (p : Prog n) (c : Nat) : Pc → Bool
  | .at j => Nat.ble c j && Nat.blt j p.commit
  | .ret _ => false

/-- Up to the cut nothing is written; after it control stays after it. -/
def cutI (p : Prog n) (c i : Nat) (ins : Instr) : Bool :=
  if i < p.chk then true else if p.commit ≤ i + 1 then true
  else if i < c then !wr ins else (succs i ins).all (tgtOK p c)

def cutAll (p : Prog n) (c : Nat) : Nat → List Instr → Bool
  | _, [] => true
  | i, ins :: r => cutI p c i ins && cutAll p c (i + 1) r

def cutOK (p : Prog n) : Bool := cutAll p (cut p) 0 p.code

set_option maxRecDepth 4000 in
theorem program_cutOK (al : Opnd → Nat) (be : Bool) (csa : W n) (arch : Arch) (k : Kind) (rel : Bool)
    (p : Prog n) (hp : program al be csa arch k rel = some p) : cutOK p = true := by
  cases arch <;> cases k <;> cases rel <;>
    first
      | (simp only [program, reduceCtorEq] at hp; done)
      | (simp only [program, Option.some.injEq] at hp; subst hp; rfl)

theorem cutAll_get (p : Prog n) (k : Nat) : ∀ (c : List Instr) (j i : Nat) (ins : Instr),
    cutAll p k j c = true → c[i]? = some ins → cutI p k (j + i) ins = true := by
  intro c
  induction c with
  | nil => intro j i ins _ h; simp at h
  | cons a r ih =>
    intro j i ins h hi
    simp only [cutAll, Bool.and_eq_true] at h
    cases i with
    | zero => simp at hi; subst hi; exact h.1
    | succ i =>
      have := ih (j + 1) i ins h.2 (by simpa using hi)
      rwa [show j + 1 + i = j + (i + 1) by omega] at this

/-- What the check says. -/
theorem cut_step {p : Prog n} (Z : ZoneFacts p) (h : cutOK p = true) {i : Nat} {ins : Instr}
    (hc : p.code[i]? = some ins) (hz : zone p (.at i) = .body) (hcm : i + 1 ≠ p.commit) :
    (i < cut p → wr ins = false) ∧
    (cut p ≤ i → ∀ fv l (m : Mem n), ∃ j, (exec p fv i ins l m).1.pc = .at j ∧ cut p ≤ j ∧
      zone p (.at j) = .body) := by
  have hi : p.chk ≤ i ∧ i < p.commit := by
    rcases zone_at_cases Z (i := i) with h|h|h|h|h|h|h <;> simp_all
  have := cutAll_get p (cut p) p.code 0 i ins h hc
  rw [Nat.zero_add] at this
  unfold cutI at this
  rw [if_neg (by omega), if_neg (by omega)] at this
  refine ⟨fun hlt => ?_, fun hle fv l m => ?_⟩
  · rw [if_pos hlt] at this; simpa using this
  · rw [if_neg (by omega)] at this
    have ht := List.all_eq_true.1 this _ (exec_succs p fv i ins l m)
    have hb := (body_step Z hc hz (fv := fv) (l := l) (m := m)).2.2.2 hcm
    cases hpc : (exec p fv i ins l m).1.pc with
    | ret r => rw [hpc] at ht; simp [tgtOK] at ht
    | «at» j =>
      rw [hpc] at ht hb
      simp only [tgtOK, Bool.and_eq_true] at ht
      have h1 := Nat.le_of_ble_eq_true ht.1
      have h2 : j < p.commit := by have := ht.2; unfold Nat.blt at this; exact Nat.le_of_ble_eq_true this
      refine ⟨j, rfl, h1, ?_⟩
      rcases hb.2 with h|h|h
      · exact h
      · have := Z.ca; have := Z.an
        rcases zone_at_cases Z (i := j) with h'|h'|h'|h'|h'|h'|h' <;> rw [h'.1] at h <;>
          first | (simp at h; done) | omega
      · have := Z.ca; have := Z.an
        rcases zone_at_cases Z (i := j) with h'|h'|h'|h'|h'|h'|h' <;> rw [h'.1] at h <;>
          simp at h

end Verif.Rseq
