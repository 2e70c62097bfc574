import Verif.RseqArch
import Verif.RseqAttr
/-
Lemmas for evaluating helper programs symbolically.
-/

namespace Verif.Rseq

variable {n : Nat}

theorem upd_same {β : Type} (f : Nat → β) (k : Nat) (v : β) : upd f k v k = v := by simp [upd]
theorem upd_ne {β : Type} (f : Nat → β) (k j : Nat) (v : β) (h : j ≠ k) : upd f k v j = f j := by
  simp [upd, h]

theorem setWidth32_setWidth (hn : 4 ≤ n) (fv : BitVec 32) :
    (fv.setWidth (8 * n)).setWidth 32 = fv := by
  apply BitVec.eq_of_toNat_eq
  have h1 : fv.toNat < 2 ^ 32 := fv.isLt
  have h2 : 2 ^ 32 ≤ 2 ^ (8 * n) := Nat.pow_le_pow_right (by decide) (by omega)
  rw [BitVec.toNat_setWidth, BitVec.toNat_setWidth, Nat.mod_eq_of_lt (a := fv.toNat) (by omega),
    Nat.mod_eq_of_lt h1]

theorem setWidth32_signExtend (hn : 4 ≤ n) (fv : BitVec 32) :
    (fv.signExtend (8 * n)).setWidth 32 = fv := by
  apply BitVec.eq_of_getLsbD_eq
  intro i hi
  have h1 : i < 8 * n := by omega
  rw [BitVec.getLsbD_setWidth, BitVec.getLsbD_signExtend]
  simp [h1, hi]

theorem signExtend_inj (hn : 4 ≤ n) (a b : BitVec 32) :
    a.signExtend (8 * n) = b.signExtend (8 * n) ↔ a = b := by
  constructor
  · intro h
    have := congrArg (BitVec.setWidth 32) h
    rwa [setWidth32_signExtend hn, setWidth32_signExtend hn] at this
  · rintro rfl; rfl

theorem sub_eq_zero_iff {w : Nat} (a b : BitVec w) : a - b = 0#w ↔ a = b := by
  constructor
  · intro h
    have := congrArg (· + b) h
    simpa [BitVec.sub_add_cancel] using this
  · rintro rfl; simp

end Verif.Rseq

namespace Verif.Rseq
variable {n : Nat}

/-- What it means for program `p` to implement the pseudo-code of `op`: when the CPU field equals the
`cpu` argument, an uninterrupted execution returns the pseudo-code's value with the pseudo-code's
memory; when it differs, the execution returns -1 and changes no memory.  In both cases registers
outside the clobber list are unchanged. -/
def Implements (p : Prog n) (clob : List Nat) (sx : Bool) (al : Opnd → Nat) (op : Op n) : Prop :=
  ∀ (cpu fv : BitVec 32) (l : LSt n) (m : Mem n), Setup clob sx al op cpu l →
    (fv = cpu → Returns p fv clob l m (pseudo p.be op m).1 (pseudo p.be op m).2) ∧
    (fv ≠ cpu → Returns p fv clob l m (-1) m)

end Verif.Rseq

namespace Verif.Rseq
attribute [rrun] run step exec LSt.setR LSt.setF LSt.br LSt.nx upd
attribute [rregs, rrun] rax rbx rcx rdx x15 x14 t6 t5 t4 t3 r17 r18 r19 r20 r21 g0 g1 m4 a0 a5 a6 a7
end Verif.Rseq
