import Verif.Acquire
/-
Helper lemmas: bytes and numbers.
-/

namespace Verif.Acquire

theorem leBytes_length : ∀ k v, (leBytes k v).length = k
  | 0, _ => rfl
  | k + 1, v => by rw [leBytes, List.length_cons, leBytes_length k]

theorem leNat_leBytes : ∀ k v, leNat (leBytes k v) = v % 256 ^ k
  | 0, v => by rw [leBytes, leNat, Nat.pow_zero, Nat.mod_one]
  | k + 1, v => by
    rw [leBytes, leNat, leNat_leBytes k, BitVec.toNat_ofNat, Nat.pow_succ (n := 256), Nat.mul_comm (256 ^ k), Nat.mod_mul]

theorem leNat_lt : ∀ l, leNat l < 256 ^ l.length
  | [] => by simp [leNat]
  | b :: l => by
    have h := leNat_lt l
    have hb := b.isLt
    rw [leNat, List.length_cons, Nat.pow_succ]
    omega

theorem leBytes_leNat : ∀ l, leBytes l.length (leNat l) = l
  | [] => rfl
  | b :: l => by
    have hb := b.isLt
    have h1 : (b.toNat + 256 * leNat l) / 256 = leNat l := by omega
    have h2 : BitVec.ofNat 8 (b.toNat + 256 * leNat l) = b := by
      apply BitVec.eq_of_toNat_eq
      rw [BitVec.toNat_ofNat]
      omega
    rw [List.length_cons, leNat, leBytes, h1, h2, leBytes_leNat l]

theorem leBytes_get : ∀ k v i, i < k → (leBytes k v)[i]? = some (BitVec.ofNat 8 (v / 256 ^ i))
  | k + 1, v, 0, _ => by simp [leBytes]
  | k + 1, v, i + 1, h => by
    rw [leBytes, List.getElem?_cons_succ, leBytes_get k _ i (by omega), Nat.div_div_eq_div_mul, Nat.pow_succ,
      Nat.mul_comm 256]

theorem rd_length (m : Mem) : ∀ (k : Nat) (p : BitVec 64), (rd m p k).length = k
  | 0, _ => rfl
  | k + 1, p => by rw [rd, List.length_cons, rd_length m k]

theorem add_succ (p : BitVec 64) (i : Nat) : p + 1#64 + BitVec.ofNat 64 i = p + BitVec.ofNat 64 (i + 1) := by
  rw [BitVec.add_assoc, Nat.add_comm i 1, BitVec.ofNat_add]

theorem rd_get (m : Mem) : ∀ (k : Nat) (p : BitVec 64) (i : Nat), i < k →
    (rd m p k)[i]? = some (m (p + BitVec.ofNat 64 i))
  | k + 1, p, 0, _ => by simp [rd]
  | k + 1, p, i + 1, h => by rw [rd, List.getElem?_cons_succ, rd_get m k _ i (by omega), add_succ]

theorem ofNat_length (be : Bool) (k v : Nat) : (ofNat be k v).length = k := by
  unfold ofNat
  split
  · rw [List.length_reverse, leBytes_length]
  · exact leBytes_length k v

theorem toNat_ofNat (be : Bool) (k v : Nat) : toNat be (ofNat be k v) = v % 256 ^ k := by
  unfold toNat ofNat
  cases be
  · exact leNat_leBytes k v
  · simp only [if_true, List.reverse_reverse]; exact leNat_leBytes k v

theorem ofNat_toNat (be : Bool) (l : List Byte) : ofNat be l.length (toNat be l) = l := by
  unfold toNat ofNat
  cases be
  · exact leBytes_leNat l
  · simp only [if_true]
    have := leBytes_leNat l.reverse
    rw [List.length_reverse] at this
    rw [this, List.reverse_reverse]

theorem toNat_lt (be : Bool) (l : List Byte) : toNat be l < 256 ^ l.length := by
  unfold toNat
  split
  · have := leNat_lt l.reverse; rwa [List.length_reverse] at this
  · exact leNat_lt l

theorem ofNat_get (be : Bool) (k v i : Nat) (h : i < k) :
    (ofNat be k v)[if be then k - 1 - i else i]? = some (BitVec.ofNat 8 (v / 256 ^ i)) := by
  unfold ofNat
  cases be
  · exact leBytes_get k v i h
  · simp only [if_true]
    rw [List.getElem?_reverse (by rw [leBytes_length]; omega), leBytes_length,
      show k - 1 - (k - 1 - i) = i by omega]
    exact leBytes_get k v i h

/-- Bytes are determined by their positions in the order of `be`. -/
theorem eq_ofNat {be : Bool} {k v : Nat} {l : List Byte} (hl : l.length = k)
    (h : ∀ i, i < k → ∃ b, l[if be then k - 1 - i else i]? = some b ∧ b.toNat = v / 256 ^ i % 256) :
    l = ofNat be k v := by
  apply List.ext_getElem?
  intro j
  by_cases hj : j < k
  · obtain ⟨i, hi, e⟩ : ∃ i, i < k ∧ (if be then k - 1 - i else i) = j := by
      cases be
      · exact ⟨j, hj, rfl⟩
      · exact ⟨k - 1 - j, by omega, by simp only [if_true]; omega⟩
    obtain ⟨b, h1, h2⟩ := h i hi
    have h3 := ofNat_get be k v i hi
    rw [e] at h1 h3
    rw [h1, h3]
    congr 1
    apply BitVec.eq_of_toNat_eq
    rw [h2, BitVec.toNat_ofNat]
  · rw [List.getElem?_eq_none (by omega), List.getElem?_eq_none (by rw [ofNat_length]; omega)]

theorem wr_other : ∀ {l : List Byte} {m : Mem} {p a : BitVec 64}, (∀ i, i < l.length → a ≠ p + BitVec.ofNat 64 i) →
    wr m p l a = m a
  | [], _, _, _, _ => rfl
  | b :: l, m, p, a, h => by
    rw [wr, wr_other fun i hi => by rw [add_succ]; exact h (i + 1) (by simpa using hi)]
    have := h 0 (by simp)
    rw [if_neg (by simpa using this)]

theorem wr_get : ∀ {l : List Byte} {m : Mem} {p : BitVec 64} {i : Nat}, l.length < 2 ^ 64 → ∀ b, l[i]? = some b →
    wr m p l (p + BitVec.ofNat 64 i) = b
  | [], _, _, i, _, b, h => by simp at h
  | x :: l, m, p, 0, hl, b, h => by
    have hx : x = b := by simpa using h
    rw [wr, wr_other]
    · simp [hx]
    · intro i hi
      rw [add_succ]
      intro e
      rw [List.length_cons] at hl
      have h1 : (p + BitVec.ofNat 64 0).toNat = (p + BitVec.ofNat 64 (i + 1)).toNat := congrArg BitVec.toNat e
      rw [BitVec.toNat_add, BitVec.toNat_add, BitVec.toNat_ofNat, BitVec.toNat_ofNat] at h1
      have := p.isLt
      omega
  | x :: l, m, p, i + 1, hl, b, h => by
    rw [wr, ← add_succ p i]
    exact wr_get (l := l) (by rw [List.length_cons] at hl; omega) b (by simpa using h)

end Verif.Acquire
