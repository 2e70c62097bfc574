import Verif.RseqTwice
/-
Static facts about the inserted block, checked for every site.
-/

namespace Verif.Rseq

variable {n : Nat}

/-- Explicit jump targets. -/
def tgts : Instr → List Pc
  | .jne t | .je t | .bne _ _ t | .beq _ _ t | .cbnz _ t | .cbz _ t | .cbnz32 _ t | .jmp t => [t]
  | _ => []

def isJmp : Instr → Bool
  | .jmp _ => true
  | _ => false

/-- The position is after index `p`, or outside the helper. -/
def beyond (p : Nat) : Pc → Bool
  | .at j => Nat.ble (p + 1) j
  | .ret _ => true

/-- A way out of the block that ends in `rseq_bug`. -/
def bugExit (e : Nat) : Pc → Bool
  | .at j => Nat.ble e j
  | .ret r => r == 2 || (r == 3 || r == 4)

/-- Check of one instruction of the original program. -/
def tInstr (P : Prog n) (p i : Nat) (ins : Instr) : Bool :=
  (tgts ins).all (beyond p) && (!(Nat.ble (i + 1) p && isJmp ins) &&
    (!(Nat.ble P.abort i && Nat.ble (i + 1) P.ne) ||
      (match ins with | .ldS .. => true | .jmp .. => true | _ => false)))

def tAll (P : Prog n) (p : Nat) : Nat → List Instr → Bool
  | _, [] => true
  | i, ins :: r => tInstr P p i ins && tAll P p (i + 1) r

/-- Check of one instruction of the block; `e` is the index after the last original instruction. -/
def bInstr (e : Nat) (ins : Instr) : Bool :=
  !wr ins && (!isCs ins && (!isJmp ins && (tgts ins).all (bugExit e)))

def twOK (P : Prog n) (p : Nat) (blk : List Instr) : Bool :=
  Nat.ble 1 p && (Nat.ble P.chk p && (Nat.ble (p + 1) P.commit && (Nat.ble 1 blk.length &&
    (Nat.ble (cut P) p && (tAll P p 0 P.code && blk.all (bInstr (P.code.length + blk.length)))))))

set_option maxRecDepth 4000 in
theorem program_tOK (al : Opnd → Nat) (be : Bool) (csa : W n) (a : Arch) (k : Kind) (rel : Bool)
    (P : Prog n) (hp : program al be csa a k rel = some P) :
    twOK P (twiceAt a k) (twiceBlk al (twiceExit P.code.length a k).1 (twiceExit P.code.length a k).2
      (.ret 4) a k) = true := by
  cases a <;> cases k <;> cases rel <;>
    first
      | (simp only [program, reduceCtorEq] at hp; done)
      | (simp only [program, Option.some.injEq] at hp; subst hp; rfl)

theorem tAll_get (P : Prog n) (p : Nat) : ∀ (c : List Instr) (j i : Nat) (ins : Instr),
    tAll P p j c = true → c[i]? = some ins → tInstr P p (j + i) ins = true := by
  intro c
  induction c with
  | nil => intro j i ins _ h; simp at h
  | cons a r ih =>
    intro j i ins h hi
    simp only [tAll, Bool.and_eq_true] at h
    cases i with
    | zero => simp at hi; subst hi; exact h.1
    | succ i =>
      have := ih (j + 1) i ins h.2 (by simpa using hi)
      rwa [show j + 1 + i = j + (i + 1) by omega] at this

/-- What the check says. -/
structure TwiceFacts (P : Prog n) (p : Nat) (blk : List Instr) : Prop where
  p1 : 0 < p
  chk : P.chk ≤ p
  commit : p < P.commit
  k1 : 0 < blk.length
  cut : cut P ≤ p
  tgt : ∀ (i : Nat) (ins : Instr), P.code[i]? = some ins → ∀ t ∈ tgts ins, beyond p t = true
  jmp : ∀ (i : Nat) (ins : Instr), P.code[i]? = some ins → i < p → isJmp ins = false
  abt : ∀ (i : Nat) (ins : Instr), P.code[i]? = some ins → P.abort ≤ i → i < P.ne →
    (∃ r s, ins = .ldS r s) ∨ ∃ t, ins = .jmp t
  bwr : ∀ (j : Nat) (ins : Instr), blk[j]? = some ins → wr ins = false
  bcs : ∀ (j : Nat) (ins : Instr), blk[j]? = some ins → isCs ins = false
  bjmp : ∀ (j : Nat) (ins : Instr), blk[j]? = some ins → isJmp ins = false
  btgt : ∀ (j : Nat) (ins : Instr), blk[j]? = some ins → ∀ t ∈ tgts ins, bugExit (P.code.length + blk.length) t = true

theorem tOK_facts {P : Prog n} {p : Nat} {blk : List Instr} (h : twOK P p blk = true) : TwiceFacts P p blk := by
  simp only [twOK, Bool.and_eq_true] at h
  obtain ⟨h1, h2, h3, h4, h5, h6, h7⟩ := h
  have h1 := Nat.le_of_ble_eq_true h1
  have h2 := Nat.le_of_ble_eq_true h2
  have h3 := Nat.le_of_ble_eq_true h3
  have h4 := Nat.le_of_ble_eq_true h4
  have h5 := Nat.le_of_ble_eq_true h5
  have g : ∀ (i : Nat) (ins : Instr), P.code[i]? = some ins → tInstr P p i ins = true := by
    intro i ins hi
    have := tAll_get P p P.code 0 i ins h6 hi
    simpa using this
  have b : ∀ (j : Nat) (ins : Instr), blk[j]? = some ins → bInstr (P.code.length + blk.length) ins = true := by
    intro j ins hj
    exact List.all_eq_true.1 h7 _ (List.mem_of_getElem? hj)
  refine ⟨by omega, h2, by omega, by omega, h5, ?_, ?_, ?_, ?_, ?_, ?_, ?_⟩
  · intro i ins hi
    have := g i ins hi
    simp only [tInstr, Bool.and_eq_true, List.all_eq_true] at this
    exact this.1
  · intro i ins hi hlt
    have := g i ins hi
    simp only [tInstr, Bool.and_eq_true] at this
    have h := this.2.1
    rw [Nat.ble_eq_true_of_le (by omega)] at h
    simpa using h
  · intro i ins hi ha hb
    have := g i ins hi
    simp only [tInstr, Bool.and_eq_true] at this
    have h := this.2.2
    rw [Nat.ble_eq_true_of_le ha, Nat.ble_eq_true_of_le (by omega)] at h
    cases ins <;> simp at h <;> simp
  · intro j ins hj
    have := b j ins hj
    simp only [bInstr, Bool.and_eq_true, Bool.not_eq_true'] at this
    exact this.1
  · intro j ins hj
    have := b j ins hj
    simp only [bInstr, Bool.and_eq_true, Bool.not_eq_true'] at this
    exact this.2.1
  · intro j ins hj
    have := b j ins hj
    simp only [bInstr, Bool.and_eq_true, Bool.not_eq_true'] at this
    exact this.2.2.1
  · intro j ins hj
    have := b j ins hj
    simp only [bInstr, Bool.and_eq_true, Bool.not_eq_true', List.all_eq_true] at this
    exact this.2.2.2

theorem Site.tfacts (S : Site n) : TwiceFacts S.prog S.tp S.blk :=
  tOK_facts (program_tOK S.al S.be S.csa S.arch S.kind S.rel S.prog S.ok)

/-! ### The code of the new program -/

section code
variable {P : Prog n} {p : Nat} {blk tail : List Instr}

theorem ins_lt (hp : p ≤ P.code.length) {i : Nat} (h : i < p) :
    (insertBlock P p blk tail).code[i]? = (P.code[i]?).map (·.shift p blk.length) := by
  simp only [insertBlock]
  rw [List.getElem?_append_left (by simp; omega), List.getElem?_map, List.getElem?_take_of_lt h]

theorem ins_blk (hp : p ≤ P.code.length) {j : Nat} (h : j < blk.length) :
    (insertBlock P p blk tail).code[p + j]? = blk[j]? := by
  simp only [insertBlock]
  rw [List.getElem?_append_right (by simp; omega), List.length_map, List.length_take, Nat.min_eq_left hp,
    Nat.add_sub_cancel_left, List.getElem?_append_left h]

theorem ins_ge (hp : p ≤ P.code.length) {i : Nat} (h : p ≤ i) (hi : i < P.code.length) :
    (insertBlock P p blk tail).code[i + blk.length]? = (P.code[i]?).map (·.shift p blk.length) := by
  simp only [insertBlock]
  rw [List.getElem?_append_right (by simp; omega), List.length_map, List.length_take, Nat.min_eq_left hp,
    List.getElem?_append_right (by omega), List.getElem?_append_left (by simp; omega), List.getElem?_map,
    List.getElem?_drop]
  congr 2
  omega

end code

end Verif.Rseq
