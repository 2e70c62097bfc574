import Verif.BitsLemmas
/-!
Property theorems for the bit helpers (C29, C30, C57).

Specifications are stated on natural numbers: "least power of two not below x", "number of
significant bits", "least offset to an aligned address".
-/
namespace Verif.Bits

/-- Specification: `k` is the least exponent with `x ≤ 2^k`. -/
def IsLeastOrder (x k : Nat) : Prop := x ≤ 2 ^ k ∧ ∀ j, x ≤ 2 ^ j → k ≤ j

/-- Specification: `r` is the number of significant bits of `x` (1-based position of the last set bit,
0 for 0): the least `r` with `x < 2^r`. -/
def IsNumBits (x r : Nat) : Prop := x < 2 ^ r ∧ ∀ j, x < 2 ^ j → r ≤ j

/-- Specification: `v` is a power of two. -/
def IsPowTwo (v : Nat) : Prop := ∃ k, v = 2 ^ k

/-- C29: `rseq_fls_u64` returns the number of significant bits for all 2^64 arguments. -/
theorem flsU64_isNumBits (x : BitVec 64) : IsNumBits x.toNat (flsU64 x) := by
  by_cases hx : x = 0#64
  · subst hx
    refine ⟨by decide, fun j _ => ?_⟩
    rw [show flsU64 0#64 = 0 from rfl]; exact Nat.zero_le _
  · obtain ⟨h1, _, h3, h4⟩ := flsU64_bracket x hx
    refine ⟨h4, fun j hj => ?_⟩
    rcases Nat.lt_or_ge j (flsU64 x) with h | h
    · exfalso
      have : (2:Nat) ^ j ≤ 2 ^ (flsU64 x - 1) := Nat.pow_le_pow_right (by decide) (by omega)
      omega
    · exact h

example : flsU64 0x123456789A#64 = 37 := by decide

/-- C29: `rseq_fls_u32` returns the number of significant bits for all 2^32 arguments. -/
theorem flsU32_isNumBits (x : BitVec 32) : IsNumBits x.toNat (flsU32 x) := by
  by_cases hx : x = 0#32
  · subst hx
    refine ⟨by decide, fun j _ => ?_⟩
    rw [show flsU32 0#32 = 0 from rfl]; exact Nat.zero_le _
  · obtain ⟨h1, _, h3, h4⟩ := flsU32_bracket x hx
    refine ⟨h4, fun j hj => ?_⟩
    rcases Nat.lt_or_ge j (flsU32 x) with h | h
    · exfalso
      have : (2:Nat) ^ j ≤ 2 ^ (flsU32 x - 1) := Nat.pow_le_pow_right (by decide) (by omega)
      omega
    · exact h

example : flsU32 0x1234567#32 = 25 := by decide

theorem isLeastOrder_of_numBits_pred {x k : Nat} (hx : 0 < x) (h : IsNumBits (x - 1) k) :
    IsLeastOrder x k := by
  refine ⟨by have := h.1; omega, fun j hj => h.2 j (by omega)⟩

/-- C29: for every nonzero 64-bit `x` the count-order helper returns the least `k` with
`x ≤ 2^k`, and that `k` is at most 64. -/
theorem countOrder_isLeast (x : BitVec 64) (hx : x ≠ 0#64) :
    ∃ k : Nat, countOrder x = k ∧ IsLeastOrder x.toNat k ∧ k ≤ 64 := by
  have hpos : 0 < x.toNat := by
    rcases Nat.eq_zero_or_pos x.toNat with h | h
    · exact absurd (BitVec.eq_of_toNat_eq (by simpa using h)) hx
    · exact h
  have e : (x - 1#64).toNat = x.toNat - 1 := by
    have := x.isLt
    rw [BitVec.toNat_sub]
    simp only [BitVec.toNat_ofNat]
    omega
  refine ⟨flsU64 (x - 1#64), by simp only [countOrder, if_neg hx], ?_, ?_⟩
  · apply isLeastOrder_of_numBits_pred hpos
    rw [← e]; exact flsU64_isNumBits _
  · exact (flsU64_isNumBits (x - 1#64)).2 64 (x - 1#64).isLt

example : countOrder 4097#64 = 13 ∧ countOrder 4096#64 = 12 ∧ countOrder 1#64 = 0 := by decide

/-- C29: the count-order helper returns -1 exactly for 0. -/
theorem countOrder_neg_iff (x : BitVec 64) : countOrder x = -1 ↔ x = 0#64 := by
  constructor
  · intro h
    rcases Classical.em (x = 0#64) with h' | h'
    · exact h'
    · obtain ⟨k, hk, _⟩ := countOrder_isLeast x h'
      omega
  · intro h; subst h; rfl

/-- C29 (32-bit `unsigned long`): least order for every nonzero value. -/
theorem countOrder32_isLeast (x : BitVec 32) (hx : x ≠ 0#32) :
    ∃ k : Nat, countOrder32 x = k ∧ IsLeastOrder x.toNat k ∧ k ≤ 32 := by
  have hpos : 0 < x.toNat := by
    rcases Nat.eq_zero_or_pos x.toNat with h | h
    · exact absurd (BitVec.eq_of_toNat_eq (by simpa using h)) hx
    · exact h
  have e : (x - 1#32).toNat = x.toNat - 1 := by
    have := x.isLt
    rw [BitVec.toNat_sub]
    simp only [BitVec.toNat_ofNat]
    omega
  refine ⟨flsU32 (x - 1#32), by simp only [countOrder32, if_neg hx], ?_, ?_⟩
  · apply isLeastOrder_of_numBits_pred hpos
    rw [← e]; exact flsU32_isNumBits _
  · exact (flsU32_isNumBits (x - 1#32)).2 32 (x - 1#32).isLt

example : countOrder32 65537#32 = 17 := by decide

/-- C29: -1 is returned for 0 and nothing else (32-bit `unsigned long`). -/
theorem countOrder32_neg_iff (x : BitVec 32) : countOrder32 x = -1 ↔ x = 0#32 := by
  constructor
  · intro h
    by_cases h' : x = 0#32
    · exact h'
    · obtain ⟨k, hk, _⟩ := countOrder32_isLeast x h'
      rw [hk] at h
      omega
  · rintro rfl
    rfl

/-- C29: the same for the machine's `unsigned long`, of either size. -/
theorem countOrderUlong_isLeast {n : Nat} (hn : n = 32 ∨ n = 64) (x : BitVec n) (hx : x ≠ 0#n) :
    ∃ k : Nat, countOrderUlong x = k ∧ IsLeastOrder x.toNat k ∧ k ≤ n := by
  rcases hn with rfl | rfl
  · unfold countOrderUlong
    rw [if_pos rfl, BitVec.setWidth_eq]
    exact countOrder32_isLeast x hx
  · unfold countOrderUlong
    rw [if_neg (by decide), BitVec.setWidth_eq]
    exact countOrder_isLeast x hx

theorem countOrderUlong_zero (n : Nat) : countOrderUlong 0#n = -1 := by
  unfold countOrderUlong
  split
  · exact (countOrder32_neg_iff _).2 (BitVec.setWidth_zero ..)
  · exact (countOrder_neg_iff _).2 (BitVec.setWidth_zero ..)

theorem countOrderUlong_neg_iff {n : Nat} (hn : n = 32 ∨ n = 64) (x : BitVec n) : countOrderUlong x = -1 ↔ x = 0#n := by
  constructor
  · intro h
    apply Classical.byContradiction
    intro hx
    obtain ⟨k, hk, _⟩ := countOrderUlong_isLeast hn x hx
    omega
  · rintro rfl; exact countOrderUlong_zero n

example : countOrderUlong 0x80000001#32 = 32 ∧ countOrderUlong 0x80000001#64 = 32 ∧ countOrderUlong 4#32 = 2 := by decide

/-- C30: `is_pow2` accepts exactly the powers of two and zero. -/
theorem isPow2_iff (x : BitVec 64) : isPow2 x = true ↔ x.toNat = 0 ∨ IsPowTwo x.toNat := by
  unfold isPow2
  rw [decide_eq_true_iff]
  by_cases hx : x = 0#64
  · subst hx; simp
  · obtain ⟨h1, h2, h3, h4⟩ := flsU64_bracket x hx
    generalize flsU64 x = r at *
    have e : (x - 1#64).toNat = x.toNat - 1 := by
      have := x.isLt
      have : 0 < 2 ^ (r-1) := Nat.two_pow_pos _
      rw [BitVec.toNat_sub]
      simp only [BitVec.toNat_ofNat]
      omega
    have hp : 0 < 2 ^ (r-1) := Nat.two_pow_pos _
    have e0 : (x &&& (x - 1#64) = 0#64) ↔ x.toNat &&& (x.toNat - 1) = 0 := by
      rw [← BitVec.toNat_inj, BitVec.toNat_and, e]; simp
    rw [e0]
    constructor
    · intro h
      right
      refine ⟨r - 1, ?_⟩
      rcases Nat.eq_or_lt_of_le h3 with h5 | h5
      · exact h5.symm
      · exfalso
        have hr : 2 ^ r = 2 ^ (r - 1 + 1) := by congr 1; omega
        have t1 : x.toNat.testBit (r-1) = true :=
          Nat.testBit_of_two_pow_le_and_two_pow_add_one_gt h3 (by omega)
        have t2 : (x.toNat - 1).testBit (r-1) = true :=
          Nat.testBit_of_two_pow_le_and_two_pow_add_one_gt (by omega) (by omega)
        have := congrArg (fun v => Nat.testBit v (r-1)) h
        simp [t1, t2] at this
    · rintro (h | ⟨k, h⟩)
      · omega
      · rw [h, Nat.and_two_pow_sub_one_eq_mod, Nat.mod_self]

example : isPow2 65536#64 = true ∧ isPow2 65537#64 = false ∧ isPow2 0#64 = true := by decide

theorem toNat_sub_one_of_pow {n : Nat} {a : BitVec n} {k : Nat} (ha : a.toNat = 2 ^ k) :
    (a - 1#n).toNat = 2 ^ k - 1 := by
  have := a.isLt
  have : 0 < 2 ^ k := Nat.two_pow_pos k
  rw [BitVec.toNat_sub, BitVec.toNat_ofNat, Nat.mod_eq_of_lt (show 1 < 2 ^ n by omega), ha,
    show 2 ^ n - 1 + 2 ^ k = 2 ^ k - 1 + 2 ^ n by omega, Nat.add_mod_right, Nat.mod_eq_of_lt (by omega)]

theorem pow_lt_width {n : Nat} {a : BitVec n} {k : Nat} (ha : a.toNat = 2 ^ k) : k < n := by
  have := a.isLt
  rw [ha] at this
  exact (Nat.pow_lt_pow_iff_right (by decide)).1 this

theorem offsetAlign_toNat {n : Nat} {p a : BitVec n} {k : Nat} (ha : a.toNat = 2 ^ k) :
    (offsetAlign p a).toNat = (2 ^ k - p.toNat % 2 ^ k) % 2 ^ k := by
  have hk := pow_lt_width ha
  have hp : 0 < 2 ^ k := Nat.two_pow_pos k
  unfold offsetAlign
  rw [BitVec.toNat_and, toNat_sub_one_of_pow ha, Nat.and_two_pow_sub_one_eq_mod, BitVec.toNat_sub, ha]
  have hdvd : 2 ^ k ∣ 2 ^ n := Nat.pow_dvd_pow 2 (by omega)
  rw [Nat.mod_mod_of_dvd _ hdvd]
  obtain ⟨c, hc⟩ := hdvd
  have hpl := p.isLt
  have hm : p.toNat = 2 ^ k * (p.toNat / 2 ^ k) + p.toNat % 2 ^ k := (Nat.div_add_mod _ _).symm
  have hml : p.toNat % 2 ^ k < 2 ^ k := Nat.mod_lt _ hp
  have hq : p.toNat / 2 ^ k < c := by
    apply Nat.div_lt_of_lt_mul; rw [← hc]; exact hpl
  have : 2 ^ n - p.toNat + 2 ^ k = (2 ^ k - p.toNat % 2 ^ k) + 2 ^ k * (c - p.toNat / 2 ^ k) := by
    rw [Nat.mul_sub, ← hc]
    have : 2 ^ k * (p.toNat / 2 ^ k) ≤ 2 ^ k * c := Nat.mul_le_mul_left _ (by omega)
    omega
  rw [this, Nat.add_mul_mod_self_left]

/-- C30: for a power-of-two alignment `a`, `offset_align(p, a)` is the least distance from `p` to a
multiple of `a` (address arithmetic in unbounded naturals, so it also holds for addresses near the
top of the address space). -/
theorem offsetAlign_least {n : Nat} (p a : BitVec n) (ha : IsPowTwo a.toNat) :
    a.toNat ∣ p.toNat + (offsetAlign p a).toNat ∧
      ∀ d, a.toNat ∣ p.toNat + d → (offsetAlign p a).toNat ≤ d := by
  obtain ⟨k, hk⟩ := ha
  rw [offsetAlign_toNat hk, hk]
  have hp : 0 < 2 ^ k := Nat.two_pow_pos k
  have hm := Nat.div_add_mod p.toNat (2 ^ k)
  have hml : p.toNat % 2 ^ k < 2 ^ k := Nat.mod_lt _ hp
  generalize hr : p.toNat % 2 ^ k = r at *
  constructor
  · rcases Nat.eq_zero_or_pos r with h | h
    · subst h; simp only [Nat.sub_zero, Nat.mod_self, Nat.add_zero]
      exact Nat.dvd_of_mod_eq_zero hr
    · rw [Nat.mod_eq_of_lt (by omega : 2 ^ k - r < 2 ^ k)]
      refine ⟨p.toNat / 2 ^ k + 1, ?_⟩
      rw [Nat.mul_add, Nat.mul_one]; omega
  · intro d hd
    rcases Nat.eq_zero_or_pos r with h | h
    · subst h; simp
    · rw [Nat.mod_eq_of_lt (by omega : 2 ^ k - r < 2 ^ k)]
      rcases Nat.lt_or_ge d (2 ^ k - r) with h' | h'
      · exfalso
        have h1 := Nat.mod_eq_zero_of_dvd hd
        rw [← hm, Nat.add_assoc, Nat.mul_add_mod, Nat.mod_eq_of_lt (by omega)] at h1
        omega
      · exact h'

example : IsPowTwo (65536#64).toNat ∧ offsetAlign 0x7f0000003000#64 65536#64 = 0xd000#64 :=
  ⟨⟨16, by decide⟩, by decide⟩

theorem and_not_low {n : Nat} (v : BitVec n) {m : BitVec n} {k : Nat} (hm : m.toNat = 2 ^ k - 1) :
    (v &&& ~~~m).toNat = v.toNat - v.toNat % 2 ^ k := by
  have h1 : (v &&& m) + (v &&& ~~~m) = v := by
    have : (v &&& m) &&& (v &&& ~~~m) = 0#n := by
      ext i hi; simp; intros; simp_all
    rw [BitVec.add_eq_or_of_and_eq_zero _ _ this]
    ext i hi; simp
    cases v[i] <;> cases m[i] <;> rfl
  have h2 : (v &&& m).toNat = v.toNat % 2 ^ k := by
    rw [BitVec.toNat_and, hm, Nat.and_two_pow_sub_one_eq_mod]
  have h4 := congrArg BitVec.toNat h1
  rw [BitVec.toNat_add_of_and_eq_zero (by ext i hi; simp; intros; simp_all), h2] at h4
  have := v.isLt
  omega

/-- C30: `rseq_align(v, a)` is the least multiple of `a` not below `v`, provided it is representable
in `n` bits (`v + a - 1 < 2^n`). -/
theorem rseqAlign_least {n : Nat} (v a : BitVec n) (ha : IsPowTwo a.toNat)
    (hno : v.toNat + (a.toNat - 1) < 2 ^ n) :
    a.toNat ∣ (rseqAlign v a).toNat ∧ v.toNat ≤ (rseqAlign v a).toNat ∧
      ∀ w, a.toNat ∣ w → v.toNat ≤ w → (rseqAlign v a).toNat ≤ w := by
  obtain ⟨k, hk⟩ := ha
  have hk64 := pow_lt_width hk
  have hp : 0 < 2 ^ k := Nat.two_pow_pos k
  have e : (rseqAlign v a).toNat = (v.toNat + (2 ^ k - 1)) - (v.toNat + (2 ^ k - 1)) % 2 ^ k := by
    unfold rseqAlign
    rw [and_not_low _ (toNat_sub_one_of_pow hk), BitVec.toNat_add, toNat_sub_one_of_pow hk,
      Nat.mod_eq_of_lt (by rw [hk] at hno; exact hno)]
  rw [e, hk]
  have hm := Nat.div_add_mod (v.toNat + (2 ^ k - 1)) (2 ^ k)
  have hml : (v.toNat + (2 ^ k - 1)) % 2 ^ k < 2 ^ k := Nat.mod_lt _ hp
  have e2 : v.toNat + (2 ^ k - 1) - (v.toNat + (2 ^ k - 1)) % 2 ^ k
      = 2 ^ k * ((v.toNat + (2 ^ k - 1)) / 2 ^ k) := by omega
  refine ⟨?_, by omega, ?_⟩
  · rw [e2]; exact Nat.dvd_mul_right _ _
  · rintro w ⟨c, hc⟩ hw
    rw [e2, hc]
    apply Nat.mul_le_mul_left
    apply Nat.le_of_lt_succ
    apply Nat.div_lt_of_lt_mul
    rw [Nat.mul_succ, ← hc]; omega

example : rseqAlign 0xFFFF0001#32 4096#32 = 0xFFFF1000#32 ∧ offsetAlign 0xFFFF3000#32 65536#32 = 0xd000#32 := by decide
example : (4095#64).toNat + ((4096#64).toNat - 1) < 2 ^ 64 ∧ rseqAlign 4095#64 4096#64 = 4096#64 := by
  decide

/-- Specification: sum of the binary digits of `x`. -/
def digitSum (x : Nat) : Nat := if x = 0 then 0 else x % 2 + digitSum (x / 2)
  termination_by x
  decreasing_by omega

theorem filter_testBit_length : ∀ (k x : Nat), x < 2 ^ k →
    ((List.range k).filter fun i => x.testBit i).length = digitSum x
  | 0, x, h => by
    have : x = 0 := by omega
    subst this
    unfold digitSum; simp
  | k + 1, x, h => by
    have ih := filter_testBit_length k (x / 2) (by omega)
    have e : ((List.range (k + 1)).filter fun i => x.testBit i).length
        = x % 2 + ((List.range k).filter fun i => (x / 2).testBit i).length := by
      rw [List.range_succ_eq_map, List.filter_cons, List.filter_map, Nat.testBit_zero]
      have hc : ((fun i => x.testBit i) ∘ Nat.succ) = fun i => (x / 2).testBit i := by
        funext i; exact Nat.testBit_succ x i
      rw [hc]
      rcases Nat.mod_two_eq_zero_or_one x with hx | hx <;> simp [hx] <;> omega
    rw [e, ih]
    by_cases hx : x = 0
    · subst hx; unfold digitSum; simp
    · conv => rhs; unfold digitSum
      rw [if_neg hx]

/-- C57: `rseq_hweight_ulong` is the sum of the binary digits, for all arguments of either word size. -/
theorem hweight_digitSum {n : Nat} (v : BitVec n) : hweight v = digitSum v.toNat := by
  rw [← filter_testBit_length n v.toNat v.isLt]
  rfl

example : hweight 0x8000000000000101#64 = 3 := by decide
example : hweight 0x80000101#32 = 3 := by decide

/-- C57: the page length is the system's answer, and 4096 when the system has none; it is a positive
power of two whenever the answer is a power of two or an error. -/
theorem pageLen_spec (sysconf : Int) :
    (∀ n : Nat, sysconf = n → pageLen sysconf = n) ∧ (sysconf < 0 → pageLen sysconf = 4096) ∧
      ((sysconf < 0 ∨ IsPowTwo sysconf.toNat) → IsPowTwo (pageLen sysconf) ∧ 0 < pageLen sysconf) := by
  unfold pageLen
  refine ⟨?_, ?_, ?_⟩
  · rintro n rfl; rw [if_neg (by omega)]; rfl
  · intro h; rw [if_pos h]
  · rintro h
    by_cases hs : sysconf < 0
    · rw [if_pos hs]; exact ⟨⟨12, rfl⟩, by decide⟩
    · rw [if_neg hs]
      obtain ⟨k, hk⟩ := h.resolve_left hs
      exact ⟨⟨k, hk⟩, by rw [hk]; exact Nat.two_pow_pos k⟩

example : pageLen (-1) = 4096 ∧ pageLen 65536 = 65536 ∧ IsPowTwo (65536 : Int).toNat :=
  ⟨rfl, rfl, 16, rfl⟩

end Verif.Bits
