import Verif.SmpSpec
namespace Verif.Smp

/-! ### Decimal notation -/

theorem toNat_digit {k : Nat} (h : k < 10) : (UInt8.ofNat (48 + k)).toNat = 48 + k := by
  rw [UInt8.toNat_ofNat']
  omega

theorem isDigit_iff (b : UInt8) : isDigit b = true ↔ 48 ≤ b.toNat ∧ b.toNat ≤ 57 := by
  unfold isDigit
  simp only [Bool.and_eq_true, decide_eq_true_eq, UInt8.le_iff_toNat_le]
  rfl

theorem decimal_digits (n : Nat) : ∀ b ∈ decimal n, isDigit b = true := by
  induction n using decimal.induct with
  | case1 n h =>
    intro b hb
    rw [decimal, if_pos h, List.mem_singleton] at hb
    rw [isDigit_iff, hb, toNat_digit h]
    omega
  | case2 n h ih =>
    intro b hb
    rw [decimal, if_neg h, List.mem_append] at hb
    rcases hb with hb | hb
    · exact ih b hb
    · rw [List.mem_singleton] at hb
      rw [isDigit_iff, hb, toNat_digit (by omega)]
      omega

theorem digitsVal_append (a : Str) (b : UInt8) : digitsVal (a ++ [b]) = 10 * digitsVal a + (b.toNat - 48) := by
  unfold digitsVal
  rw [List.foldl_append]
  rfl

theorem digitsVal_decimal (n : Nat) : digitsVal (decimal n) = n := by
  induction n using decimal.induct with
  | case1 n h =>
    rw [decimal, if_pos h]
    show 10 * 0 + ((UInt8.ofNat (48 + n)).toNat - 48) = n
    rw [toNat_digit h]
    omega
  | case2 n h ih =>
    rw [decimal, if_neg h, digitsVal_append, ih, toNat_digit (by omega)]
    omega

theorem decimal_ne_nil (n : Nat) : decimal n ≠ [] := by
  rw [decimal]
  split <;> simp

theorem digit_not_space {b : UInt8} (h : isDigit b = true) : isSpace b = false := by
  rw [isDigit_iff] at h
  unfold isSpace
  have h1 : ¬ b = 32 := by rintro rfl; revert h; decide
  have h2 : ¬ b ≤ 13 := by
    rw [UInt8.le_iff_toNat_le]
    show ¬ b.toNat ≤ 13
    omega
  simp [h1, h2]

theorem digit_ne {b : UInt8} (h : isDigit b = true) (c : UInt8) (hc : isDigit c = false) : b ≠ c := by
  rintro rfl
  rw [h] at hc
  cases hc

theorem takeWhile_digits (ds : Str) (hd : ∀ d ∈ ds, isDigit d = true) (rest : Str)
    (hr : ∀ b r, rest = b :: r → isDigit b = false) : (ds ++ rest).takeWhile isDigit = ds := by
  induction ds with
  | nil =>
    cases rest with
    | nil => rfl
    | cons b r => simp [hr b r rfl]
  | cons d ds ih =>
    rw [List.cons_append, List.takeWhile_cons, if_pos (hd d (by simp)), ih fun x hx => hd x (by simp [hx])]

theorem scan_digits (ds : Str) (hne : ds ≠ []) (hd : ∀ d ∈ ds, isDigit d = true) (rest : Str)
    (hr : ∀ b r, rest = b :: r → isDigit b = false) : scan (ds ++ rest) = (false, ds, 0) := by
  have ht := takeWhile_digits ds hd rest hr
  cases ds with
  | nil => exact absurd rfl hne
  | cons d ds =>
    have hdd := hd d (by simp)
    have hs := digit_not_space hdd
    have h1 : d ≠ 45 := digit_ne hdd 45 (by decide)
    have h2 : d ≠ 43 := digit_ne hdd 43 (by decide)
    unfold scan
    rw [List.cons_append] at ht ⊢
    rw [List.takeWhile_cons, List.dropWhile_cons, hs]
    simp only [Bool.false_eq_true, if_false]
    split
    · rename_i h; cases h; exact absurd rfl h1
    · rename_i h; cases h; exact absurd rfl h2
    · rw [ht]; rfl

theorem strtoul_digits (ds : Str) (hne : ds ≠ []) (hd : ∀ d ∈ ds, isDigit d = true) (rest : Str)
    (hr : ∀ b r, rest = b :: r → isDigit b = false) (hv : digitsVal ds < 2 ^ 64) :
    strtoul (ds ++ rest) = (digitsVal ds, ds.length) := by
  unfold strtoul
  rw [scan_digits ds hne hd rest hr]
  dsimp only
  rw [if_neg hne, if_neg (by omega), Nat.zero_add]
  rfl

/-! ### Shape of a printed list -/

def IsSep (b : UInt8) : Prop := b = 44 ∨ b = 45

instance (b : UInt8) : Decidable (IsSep b) := inferInstanceAs (Decidable (_ ∨ _))

theorem digit_not_sep {b : UInt8} (h : isDigit b = true) : ¬ IsSep b := by
  rintro (rfl | rfl) <;> revert h <;> decide

theorem printRange_split (r : Nat × Nat) :
    ∃ pre, printRange r = pre ++ decimal r.2 ∧ (pre = [] ∨ ∃ q s, q ≠ [] ∧ IsSep s ∧ pre = q ++ [s]) := by
  unfold printRange
  split
  · rename_i h
    exact ⟨[], by rw [h]; rfl, Or.inl rfl⟩
  · exact ⟨_, rfl, Or.inr ⟨decimal r.1, 45, decimal_ne_nil _, Or.inr rfl, rfl⟩⟩

theorem printRange_ne (r : Nat × Nat) : printRange r ≠ [] := by
  unfold printRange
  split
  · exact decimal_ne_nil _
  · simp

theorem printList_split (rs : List (Nat × Nat)) (h : rs ≠ []) :
    ∃ pre, printList rs = pre ++ decimal (rs.getLast h).2 ∧ (pre = [] ∨ ∃ q s, q ≠ [] ∧ IsSep s ∧ pre = q ++ [s]) := by
  induction rs with
  | nil => exact absurd rfl h
  | cons r rs ih =>
    cases rs with
    | nil => exact printRange_split r
    | cons r2 rs =>
      obtain ⟨pre, h1, h2⟩ := ih (by simp)
      refine ⟨printRange r ++ [44] ++ pre, ?_, Or.inr ?_⟩
      · show printRange r ++ [44] ++ printList (r2 :: rs) = _
        rw [h1, List.getLast_cons (a := r) (l := r2 :: rs) (by simp)]
        simp only [List.append_assoc]
      · rcases h2 with rfl | ⟨q, s, a1, a2, rfl⟩
        · exact ⟨printRange r, 44, printRange_ne r, Or.inl rfl, by simp⟩
        · exact ⟨printRange r ++ [44] ++ q, s, by simp, a2, by simp⟩

/-! ### Parsing -/

theorem findStart_spec (buf : Str) (a i : Nat) (hai : a ≤ i + 1) (hns : ∀ j, a ≤ j → j ≤ i → ¬ IsSep (buf.getD j 0))
    (ha : a = 0 ∨ (2 ≤ a ∧ IsSep (buf.getD (a - 1) 0))) : findStart buf i = a := by
  induction i with
  | zero =>
    rw [findStart]
    omega
  | succ i ih =>
    rw [findStart]
    simp only [← IsSep.eq_1]
    by_cases hs : IsSep (buf.getD (i + 1) 0)
    · rw [if_pos hs]
      rcases Nat.lt_or_ge (i + 1) a with h | h
      · omega
      · exact absurd hs (hns _ h (Nat.le_refl _))
    · rw [if_neg hs]
      apply ih
      · rcases Nat.lt_or_ge a (i + 2) with h | h
        · omega
        · have : a = i + 2 := by omega
          subst this
          rcases ha with h0 | ⟨_, h0⟩
          · omega
          · exact absurd h0 hs
      · exact fun j h1 h2 => hns j h1 (by omega)

theorem cstr_of_split (a s rest : Str) (hs : ∀ b ∈ s, b ≠ 0) : cstr (a ++ s ++ 0 :: rest) a.length = some s := by
  unfold cstr
  rw [List.append_assoc, List.drop_left]
  rw [if_pos (by simp)]
  congr 1
  clear a
  induction s with
  | nil => simp
  | cons b s ih =>
    have := hs b (by simp)
    rw [List.cons_append, List.takeWhile_cons, if_pos (by simpa using this), ih fun x hx => hs x (by simp [hx])]

theorem getD_mid (a b : Str) (j : Nat) (hj : a.length ≤ j) : (a ++ b).getD j 0 = b.getD (j - a.length) 0 := by
  simp only [List.getD_eq_getElem?_getD]
  rw [List.getElem?_append_right hj]

theorem parse_split (pre ds rest : Str) (n : Nat) (hd : ∀ d ∈ ds, isDigit d = true) (hne : ds ≠ [])
    (hn : digitsVal ds = n) (hlt : (n : Int) < intMax)
    (hpre : pre = [] ∨ ∃ q s, q ≠ [] ∧ IsSep s ∧ pre = q ++ [s]) :
    maxCpuidFromMask (pre ++ (ds ++ [10]) ++ 0 :: rest) (pre ++ (ds ++ [10])).length = .ok n := by
  have hl : (pre ++ (ds ++ [10])).length = pre.length + ds.length + 1 := by simp [Nat.add_assoc]
  have hstart : findStart (pre ++ (ds ++ [10]) ++ 0 :: rest) ((pre ++ (ds ++ [10])).length - 1) = pre.length := by
    apply findStart_spec
    · omega
    · intro j h1 h2
      rw [List.append_assoc, getD_mid _ _ _ h1]
      rw [hl] at h2
      have h3 : j - pre.length ≤ ds.length := by omega
      rw [List.append_assoc]
      rcases Nat.lt_or_ge (j - pre.length) ds.length with h4 | h4
      · rw [List.getD_eq_getElem?_getD, List.getElem?_append_left h4, List.getElem?_eq_getElem h4]
        exact digit_not_sep (hd _ (List.getElem_mem h4))
      · rw [getD_mid _ _ _ h4]
        have : j - pre.length - ds.length = 0 := by omega
        rw [this]
        show ¬ IsSep 10
        decide
    · rcases hpre with rfl | ⟨q, s, h1, h2, rfl⟩
      · exact Or.inl rfl
      · refine Or.inr ⟨?_, ?_⟩
        · have := List.length_pos_iff.2 h1
          simp
          omega
        · have : (q ++ [s]).length - 1 = q.length := by simp
          rw [this, List.append_assoc, List.append_assoc, getD_mid _ _ _ (Nat.le_refl _), Nat.sub_self]
          exact h2
  unfold maxCpuidFromMask
  rw [if_neg (by omega), hstart, cstr_of_split _ _ _ (by
    intro b hb
    rw [List.mem_append, List.mem_singleton] at hb
    rcases hb with hb | rfl
    · exact digit_ne (hd b hb) 0 (by decide)
    · decide)]
  dsimp only
  unfold intMax at hlt ⊢
  rw [strtoul_digits ds hne hd [10] (by rintro b r h; cases h; rfl) (by omega)]
  dsimp only
  rw [if_pos ⟨by have := List.length_pos_iff.2 hne; omega, by rw [hn]; exact hlt⟩, hn]

/-! ### Reading -/

theorem put_length (buf : Str) (pos : Nat) (l : Str) (h : pos + l.length ≤ buf.length) : (put buf pos l).length = buf.length := by
  unfold put
  simp only [List.length_append, List.length_take, List.length_drop]
  omega

theorem put_take (buf : Str) (pos : Nat) (l : Str) (h : pos + l.length ≤ buf.length) :
    (put buf pos l).take (pos + l.length) = buf.take pos ++ l := by
  unfold put
  rw [List.take_left']
  simp only [List.length_append, List.length_take]
  omega

theorem set_split (buf : Str) (k : Nat) (h : k < buf.length) : buf.set k 0 = buf.take k ++ 0 :: buf.drop (k + 1) := by
  rw [List.set_eq_take_append_cons_drop, if_pos h]

theorem finish_spec (max : Nat) (hmax : 0 < max) (hint : (max : Int) ≤ intMax) (buf : Str) (hb : buf.length = max) (total : Nat)
    (ht : total ≤ max) :
    ∃ rest, finish max buf total = ((total : Int), buf.take (min total (max - 1)) ++ 0 :: rest) ∧
      (buf.take (min total (max - 1)) ++ 0 :: rest).length = max := by
  unfold finish
  by_cases h : total < max
  · rw [if_pos h, if_neg (by omega), set_split buf total (by omega)]
    have : min total (max - 1) = total := by omega
    rw [this]
    refine ⟨_, rfl, ?_⟩
    simp only [List.length_append, List.length_take, List.length_cons, List.length_drop]
    omega
  · rw [if_neg h, if_neg (by omega), set_split buf (max - 1) (by omega)]
    have : min total (max - 1) = max - 1 := by omega
    rw [this]
    refine ⟨_, rfl, ?_⟩
    simp only [List.length_append, List.length_take, List.length_cons, List.length_drop]
    omega

/-- Reading a served file to the end. -/
theorem readLoop_serves (content : Str) (max : Nat) (hmax : 0 < max) (hint : (max : Int) ≤ intMax) (reads : List ReadAns) :
    ∀ (buf : Str) (total : Nat), buf.length = max → total < max → total ≤ content.length → buf.take total = content.take total →
      Serves content max total reads →
      (readLoop max reads buf total = .running ∧ dataAnswers reads ≤ content.length - total) ∨
      ∃ rest, readLoop max reads buf total = .ok ((min content.length max : Nat), content.take (max - 1) ++ 0 :: rest) ∧
        (content.take (max - 1) ++ 0 :: rest).length = max := by
  induction reads with
  | nil =>
    intro buf total _ _ _ _ _
    exact Or.inl ⟨rfl, by simp [dataAnswers]⟩
  | cons a reads ih =>
    intro buf total hb ht htc hpre hs
    cases a with
    | err => exact absurd hs id
    | eintr =>
      rw [readLoop, if_pos ht]
      exact ih buf total hb ht htc hpre hs
    | bytes l =>
      obtain ⟨h1, h2, h3, h4⟩ := hs
      rw [readLoop, if_neg (by omega), if_neg (by omega)]
      have hle : total + l.length ≤ content.length := by
        have := h1.length_le
        rw [List.length_drop] at this
        omega
      have hpre' : (put buf total l).take (total + l.length) = content.take (total + l.length) := by
        rw [put_take _ _ _ (by omega), hpre]
        obtain ⟨t, ht⟩ := h1
        rw [List.take_add, ← ht, List.take_left]
      have hlen := put_length buf total l (by omega)
      by_cases hc : max > total + l.length ∧ l ≠ []
      · rw [if_pos hc]
        rcases ih (put buf total l) (total + l.length) (by omega) hc.1 hle hpre' h4 with ⟨a1, a2⟩ | hr
        · refine Or.inl ⟨a1, ?_⟩
          have : dataAnswers (.bytes l :: reads) = dataAnswers reads + 1 := by simp [dataAnswers]
          have := List.length_pos_iff.2 hc.2
          omega
        · exact Or.inr hr
      · rw [if_neg hc]
        obtain ⟨rest, e1, e2⟩ := finish_spec max hmax hint (put buf total l) (by omega) (total + l.length) (by omega)
        have hend : total + l.length = min content.length max := by
          by_cases hl : l = []
          · have := h3 hl
            subst hl
            simp only [List.length_nil] at *
            omega
          · have : ¬ max > total + l.length := fun h => hc ⟨h, hl⟩
            omega
        have htk : (put buf total l).take (min (total + l.length) (max - 1)) = content.take (max - 1) := by
          have : min (total + l.length) (max - 1) = min (min (total + l.length) (max - 1)) (total + l.length) := by omega
          rw [this, ← List.take_take, hpre', List.take_take]
          rcases Nat.lt_or_ge content.length max with h | h
          · rw [List.take_of_length_le (by omega), List.take_of_length_le (by omega)]
          · congr 1
            omega
        rw [htk] at e1 e2
        refine Or.inr ⟨rest, ?_, e2⟩
        rw [e1, hend]

end Verif.Smp
