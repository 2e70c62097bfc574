import Verif.RseqExec
/-
Words in memory: what is read back after a word store.
-/

namespace Verif.Rseq

variable {n : Nat}

theorem sumTo_digits (v : Nat) : ∀ k, sumTo (fun i => v / 256 ^ i % 256 * 256 ^ i) k = v % 256 ^ k := by
  intro k
  induction k with
  | zero => simp [sumTo, Nat.mod_one]
  | succ k ih =>
    rw [sumTo, ih, Nat.pow_succ, Nat.mod_mul, Nat.mul_comm (256 ^ k)]

theorem sumTo_congr {f g : Nat → Nat} : ∀ k, (∀ i, i < k → f i = g i) → sumTo f k = sumTo g k := by
  intro k
  induction k with
  | zero => intro _; rfl
  | succ k ih => intro h; rw [sumTo, sumTo, ih fun i hi => h i (by omega), h k (by omega)]

theorem sumTo_shift (f : Nat → Nat) : ∀ k, sumTo f (k + 1) = f 0 + sumTo (fun i => f (i + 1)) k := by
  intro k
  induction k with
  | zero => simp [sumTo]
  | succ k ih => rw [sumTo, ih, sumTo]; omega

theorem sumTo_reverse (f : Nat → Nat) : ∀ k, sumTo (fun i => f (k - 1 - i)) k = sumTo f k := by
  intro k
  induction k generalizing f with
  | zero => rfl
  | succ k ih =>
    rw [sumTo_shift f, sumTo]
    have h1 : sumTo (fun i => f (k + 1 - 1 - i)) k = sumTo (fun i => f (i + 1)) k := by
      rw [← ih (fun i => f (i + 1))]
      refine sumTo_congr k fun i hi => ?_
      congr 1; omega
    rw [h1]
    have : k + 1 - 1 - k = 0 := by omega
    rw [this]; omega

theorem sumTo_pos (be : Bool) (v : Nat) :
    sumTo (fun i => v / 256 ^ pos be n i % 256 * 256 ^ pos be n i) n = v % 256 ^ n := by
  cases be with
  | false => simp only [pos, Bool.false_eq_true, if_false]; exact sumTo_digits v n
  | true =>
    simp only [pos, if_true]
    rw [sumTo_reverse (fun i => v / 256 ^ i % 256 * 256 ^ i)]
    exact sumTo_digits v n

theorem lt_word (n : Nat) : n < 2 ^ (8 * n) := by
  calc n < 2 ^ n := Nat.lt_two_pow_self
    _ ≤ 2 ^ (8 * n) := Nat.pow_le_pow_right (by decide) (by omega)

theorem off_toNat (a : W n) {i : Nat} (hi : i < n) : (a + BitVec.ofNat (8 * n) i - a).toNat = i := by
  rw [BitVec.add_comm, BitVec.add_sub_cancel, BitVec.toNat_ofNat]
  exact Nat.mod_eq_of_lt (Nat.lt_trans hi (lt_word n))

/-- The word just stored is read back. -/
theorem ldw_stw_same (be : Bool) (m : Mem n) (a v : W n) : ldw be (stw be m a v) a = v := by
  unfold ldw
  have h : sumTo (fun i => ((stw be m a v) (a + BitVec.ofNat (8 * n) i)).toNat * 256 ^ pos be n i) n =
      v.toNat % 256 ^ n := by
    rw [← sumTo_pos be v.toNat]
    refine sumTo_congr n fun i hi => ?_
    simp only [stw]
    rw [if_pos (by rw [off_toNat a hi]; exact hi), off_toNat a hi, BitVec.toNat_ofNat]
  rw [h]
  have : (256 : Nat) ^ n = 2 ^ (8 * n) := by rw [Nat.pow_mul]
  rw [this, Nat.mod_eq_of_lt v.isLt, BitVec.ofNat_toNat, BitVec.setWidth_eq]

/-- A store elsewhere does not matter. -/
theorem ldw_stw_ne (be : Bool) (m : Mem n) (a b v : W n) (h : ∀ x, InWord b x → ¬ InWord a x) :
    ldw be (stw be m a v) b = ldw be m b := by
  refine ldw_agree fun x hx => ?_
  unfold stw
  exact if_neg (h x hx)

theorem stw_other (be : Bool) (m : Mem n) (a v x : W n) (h : ¬ InWord a x) : stw be m a v x = m x := by
  unfold stw
  exact if_neg h

end Verif.Rseq
