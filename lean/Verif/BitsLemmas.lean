import Verif.Bits
/-! Helper lemmas for `Verif.Bits`. -/
namespace Verif.Bits

theorem and_high_mask_eq_zero {n : Nat} (k : Nat) (x : BitVec n) :
    x &&& (BitVec.allOnes n <<< k) = 0#n ↔ x.toNat < 2 ^ k := by
  constructor
  · intro h
    apply Nat.lt_pow_two_of_testBit
    intro i hi
    by_cases hin : i < n
    · have := congrArg (fun v => v.getLsbD i) h
      simp [hin] at this
      rcases Bool.eq_false_or_eq_true (x.toNat.testBit i) with h' | h'
      · rw [BitVec.testBit_toNat, BitVec.getLsbD_eq_getElem hin] at h'
        have := this h'
        omega
      · exact h'
    · apply Nat.testBit_lt_two_pow
      exact Nat.lt_of_lt_of_le x.isLt (Nat.pow_le_pow_right (by decide) (by omega))
  · intro h
    apply BitVec.eq_of_getLsbD_eq
    intro i hi
    simp [hi]
    intro hx
    rcases Nat.lt_or_ge i k with h' | h'
    · exact h'
    · exfalso
      have : x.toNat.testBit i = false :=
        Nat.testBit_lt_two_pow (Nat.lt_of_lt_of_le h (Nat.pow_le_pow_right (by decide) h'))
      rw [BitVec.testBit_toNat, BitVec.getLsbD_eq_getElem hi, hx] at this
      cases this

/-- One search step keeps `y = x * 2^(n-r)` (no bit lost) and leaves `y ≥ 2^(n-k)`. -/
theorem flsStep_spec {n k b : Nat} {mask : BitVec n} (hm : mask = BitVec.allOnes n <<< (n - k))
    (hkn : k ≤ n) {x r : Nat} {y : BitVec n} (hrn : r ≤ n)
    (hinv : y.toNat = x * 2 ^ (n - r)) (hb : 2 ^ (n - b) ≤ y.toNat) (hbk : b = 2 * k)
    (hr : n - r + b ≤ n) :
    (flsStep mask k (y, r)).1.toNat = x * 2 ^ (n - (flsStep mask k (y, r)).2) ∧
      (flsStep mask k (y, r)).2 ≤ n ∧
      2 ^ (n - k) ≤ (flsStep mask k (y, r)).1.toNat ∧
      n - (flsStep mask k (y, r)).2 + k ≤ n := by
  unfold flsStep
  subst hm
  simp only [and_high_mask_eq_zero]
  split
  · rename_i h
    have hlt : y.toNat * 2 ^ k < 2 ^ n := by
      calc y.toNat * 2 ^ k < 2 ^ (n - k) * 2 ^ k := Nat.mul_lt_mul_of_pos_right h (Nat.two_pow_pos k)
        _ = 2 ^ n := by rw [← Nat.pow_add]; congr 1; omega
    have e : (y <<< k).toNat = y.toNat * 2 ^ k := by
      rw [BitVec.toNat_shiftLeft, Nat.shiftLeft_eq, Nat.mod_eq_of_lt hlt]
    refine ⟨?_, by omega, ?_, by dsimp only; omega⟩
    · dsimp only
      rw [e, hinv, Nat.mul_assoc, ← Nat.pow_add]
      congr 2; omega
    · dsimp only
      rw [e]
      calc 2 ^ (n - k) = 2 ^ (n - b) * 2 ^ k := by rw [← Nat.pow_add]; congr 1; omega
        _ ≤ y.toNat * 2 ^ k := Nat.mul_le_mul_right _ hb
  · rename_i h
    refine ⟨hinv, hrn, by dsimp only; omega, by dsimp only; omega⟩

/-- `flsU64` brackets its argument between consecutive powers of two. -/
theorem flsU64_bracket (x : BitVec 64) (hx : x ≠ 0#64) :
    1 ≤ flsU64 x ∧ flsU64 x ≤ 64 ∧ 2 ^ (flsU64 x - 1) ≤ x.toNat ∧ x.toNat < 2 ^ flsU64 x := by
  have hpos : 0 < x.toNat := by
    rcases Nat.eq_zero_or_pos x.toNat with h | h
    · exact absurd (BitVec.eq_of_toNat_eq (by simpa using h)) hx
    · exact h
  have s1 := flsStep_spec (n := 64) (k := 32) (b := 64) (mask := 0xFFFFFFFF00000000#64) (by decide) (by omega)
    (x := x.toNat) (r := 64) (y := x) (by omega) (by simp) (by simp; omega) (by omega) (by omega)
  have s2 := flsStep_spec (n := 64) (k := 16) (b := 32) (mask := 0xFFFF000000000000#64) (by decide) (by omega)
    s1.2.1 s1.1 s1.2.2.1 (by omega) s1.2.2.2
  have s3 := flsStep_spec (n := 64) (k := 8) (b := 16) (mask := 0xFF00000000000000#64) (by decide) (by omega)
    s2.2.1 s2.1 s2.2.2.1 (by omega) s2.2.2.2
  have s4 := flsStep_spec (n := 64) (k := 4) (b := 8) (mask := 0xF000000000000000#64) (by decide) (by omega)
    s3.2.1 s3.1 s3.2.2.1 (by omega) s3.2.2.2
  have s5 := flsStep_spec (n := 64) (k := 2) (b := 4) (mask := 0xC000000000000000#64) (by decide) (by omega)
    s4.2.1 s4.1 s4.2.2.1 (by omega) s4.2.2.2
  have s6 := flsStep_spec (n := 64) (k := 1) (b := 2) (mask := 0x8000000000000000#64) (by decide) (by omega)
    s5.2.1 s5.1 s5.2.2.1 (by omega) s5.2.2.2
  have e : flsU64 x = (flsStep 0x8000000000000000#64 1 (flsStep 0xC000000000000000#64 2
      (flsStep 0xF000000000000000#64 4 (flsStep 0xFF00000000000000#64 8
      (flsStep 0xFFFF000000000000#64 16 (flsStep 0xFFFFFFFF00000000#64 32 (x, 64))))))).2 := by
    simp only [flsU64, if_neg hx]
  rw [← e] at s6
  revert s6
  generalize flsStep 0x8000000000000000#64 1 (flsStep 0xC000000000000000#64 2
      (flsStep 0xF000000000000000#64 4 (flsStep 0xFF00000000000000#64 8
      (flsStep 0xFFFF000000000000#64 16 (flsStep 0xFFFFFFFF00000000#64 32 (x, 64)))))) = p
  generalize flsU64 x = r
  intro ⟨h1, h2, h3, h4⟩
  have h5 := p.1.isLt
  rw [h1] at h3 h5
  have e1 : 2 ^ (64 - 1) = 2 ^ (r - 1) * 2 ^ (64 - r) := by rw [← Nat.pow_add]; congr 1; omega
  have e2 : (2:Nat) ^ 64 = 2 ^ r * 2 ^ (64 - r) := by rw [← Nat.pow_add]; congr 1; omega
  rw [e1] at h3
  rw [e2] at h5
  exact ⟨by omega, h2, Nat.le_of_mul_le_mul_right h3 (Nat.two_pow_pos _),
    Nat.lt_of_mul_lt_mul_right h5⟩

/-- `flsU32` brackets its argument between consecutive powers of two. -/
theorem flsU32_bracket (x : BitVec 32) (hx : x ≠ 0#32) :
    1 ≤ flsU32 x ∧ flsU32 x ≤ 32 ∧ 2 ^ (flsU32 x - 1) ≤ x.toNat ∧ x.toNat < 2 ^ flsU32 x := by
  have hpos : 0 < x.toNat := by
    rcases Nat.eq_zero_or_pos x.toNat with h | h
    · exact absurd (BitVec.eq_of_toNat_eq (by simpa using h)) hx
    · exact h
  have s2 := flsStep_spec (n := 32) (k := 16) (b := 32) (mask := 0xFFFF0000#32) (by decide) (by omega)
    (x := x.toNat) (r := 32) (y := x) (by omega) (by simp) (by simp; omega) (by omega) (by omega)
  have s3 := flsStep_spec (n := 32) (k := 8) (b := 16) (mask := 0xFF000000#32) (by decide) (by omega)
    s2.2.1 s2.1 s2.2.2.1 (by omega) s2.2.2.2
  have s4 := flsStep_spec (n := 32) (k := 4) (b := 8) (mask := 0xF0000000#32) (by decide) (by omega)
    s3.2.1 s3.1 s3.2.2.1 (by omega) s3.2.2.2
  have s5 := flsStep_spec (n := 32) (k := 2) (b := 4) (mask := 0xC0000000#32) (by decide) (by omega)
    s4.2.1 s4.1 s4.2.2.1 (by omega) s4.2.2.2
  have s6 := flsStep_spec (n := 32) (k := 1) (b := 2) (mask := 0x80000000#32) (by decide) (by omega)
    s5.2.1 s5.1 s5.2.2.1 (by omega) s5.2.2.2
  have e : flsU32 x = (flsStep 0x80000000#32 1 (flsStep 0xC0000000#32 2
      (flsStep 0xF0000000#32 4 (flsStep 0xFF000000#32 8
      (flsStep 0xFFFF0000#32 16 (x, 32)))))).2 := by
    simp only [flsU32, if_neg hx]
  rw [← e] at s6
  revert s6
  generalize flsStep 0x80000000#32 1 (flsStep 0xC0000000#32 2
      (flsStep 0xF0000000#32 4 (flsStep 0xFF000000#32 8
      (flsStep 0xFFFF0000#32 16 (x, 32))))) = p
  generalize flsU32 x = r
  intro ⟨h1, h2, h3, h4⟩
  have h5 := p.1.isLt
  rw [h1] at h3 h5
  have e1 : 2 ^ (32 - 1) = 2 ^ (r - 1) * 2 ^ (32 - r) := by rw [← Nat.pow_add]; congr 1; omega
  have e2 : (2:Nat) ^ 32 = 2 ^ r * 2 ^ (32 - r) := by rw [← Nat.pow_add]; congr 1; omega
  rw [e1] at h3
  rw [e2] at h5
  exact ⟨by omega, h2, Nat.le_of_mul_le_mul_right h3 (Nat.two_pow_pos _),
    Nat.lt_of_mul_lt_mul_right h5⟩

end Verif.Bits
