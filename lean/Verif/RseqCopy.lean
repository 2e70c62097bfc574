import Verif.RseqTac
/-
The byte-copy loops of the memory-copy helpers.
-/

namespace Verif.Rseq

variable {n : Nat}

/-- Source and destination areas do not overlap (the C precondition of `memcpy`). -/
def NoOverlap (dst src len : W n) : Prop :=
  ∀ i j : Nat, i < len.toNat → j < len.toNat →
    src + BitVec.ofNat (8 * n) i ≠ dst + BitVec.ofNat (8 * n) j

/-- The first `j` bytes are copied. -/
def cpy (m : Mem n) (dst src : W n) (j : Nat) : Mem n := fun x =>
  if (x - dst).toNat < j then m (src + (x - dst)) else m x

/-- The bytes from offset `j` to `len` are copied (aarch64 copies backwards). -/
def cpyB (m : Mem n) (dst src len : W n) (j : Nat) : Mem n := fun x =>
  if j ≤ (x - dst).toNat ∧ (x - dst).toNat < len.toNat then m (src + (x - dst)) else m x

theorem cpy_zero (m : Mem n) (dst src : W n) : cpy m dst src 0 = m := by
  funext x; simp [cpy]

theorem cpy_len (m : Mem n) (dst src len : W n) :
    cpy m dst src len.toNat = memcpy m dst src len := rfl

theorem cpyB_zero (m : Mem n) (dst src len : W n) :
    cpyB m dst src len 0 = memcpy m dst src len := by
  funext x; simp [cpyB, memcpy]

theorem cpyB_len (m : Mem n) (dst src len : W n) : cpyB m dst src len len.toNat = m := by
  funext x
  have : ¬ (len.toNat ≤ (x - dst).toNat ∧ (x - dst).toNat < len.toNat) := by omega
  unfold cpyB; rw [if_neg this]

theorem ofNat_toNat_lt (len : W n) (j : Nat) (hj : j < len.toNat) :
    (BitVec.ofNat (8 * n) j).toNat = j := by
  rw [BitVec.toNat_ofNat, Nat.mod_eq_of_lt (by have := len.isLt; omega)]

theorem add_sub_cancel_w (a b : W n) : a + b - a = b := by
  rw [BitVec.add_comm, BitVec.add_sub_cancel]

theorem sub_eq_ofNat {a d : W n} {j : Nat} (h : (a - d).toNat = j) :
    a = d + BitVec.ofNat (8 * n) j := by
  have h1 : a - d = BitVec.ofNat (8 * n) j := by
    apply BitVec.eq_of_toNat_eq
    rw [BitVec.toNat_ofNat, ← h, Nat.mod_eq_of_lt (a - d).isLt]
  rw [← h1, BitVec.add_comm, BitVec.sub_add_cancel]

/-- Byte loaded in iteration `j` is still the original one. -/
theorem cpy_src (m : Mem n) (dst src len : W n) (hno : NoOverlap dst src len) (j : Nat)
    (hj : j < len.toNat) :
    cpy m dst src j (src + BitVec.ofNat (8 * n) j) = m (src + BitVec.ofNat (8 * n) j) := by
  unfold cpy
  split
  · rename_i h
    exact absurd (sub_eq_ofNat rfl) (hno j _ hj (by omega))
  · rfl

theorem cpy_succ (m : Mem n) (dst src len : W n) (j : Nat) (hj : j < len.toNat) :
    stb1 (cpy m dst src j) (dst + BitVec.ofNat (8 * n) j) (m (src + BitVec.ofNat (8 * n) j))
      = cpy m dst src (j + 1) := by
  funext x
  simp only [stb1, cpy]
  by_cases hx : x = dst + BitVec.ofNat (8 * n) j
  · subst hx
    rw [if_pos rfl, add_sub_cancel_w, if_pos]
    rw [ofNat_toNat_lt len j hj]; omega
  · rw [if_neg hx]
    have hne : (x - dst).toNat ≠ j := fun h => hx (sub_eq_ofNat h)
    by_cases h : (x - dst).toNat < j
    · rw [if_pos h, if_pos (by omega)]
    · rw [if_neg h, if_neg (by omega)]

theorem cpyB_src (m : Mem n) (dst src len : W n) (hno : NoOverlap dst src len) (j : Nat)
    (hj : j < len.toNat) :
    cpyB m dst src len (j + 1) (src + BitVec.ofNat (8 * n) j) = m (src + BitVec.ofNat (8 * n) j) := by
  unfold cpyB
  split
  · rename_i h
    exact absurd (sub_eq_ofNat rfl) (hno j _ hj h.2)
  · rfl

theorem cpyB_succ (m : Mem n) (dst src len : W n) (j : Nat) (hj : j < len.toNat) :
    stb1 (cpyB m dst src len (j + 1)) (dst + BitVec.ofNat (8 * n) j)
      (m (src + BitVec.ofNat (8 * n) j)) = cpyB m dst src len j := by
  funext x
  simp only [stb1, cpyB]
  by_cases hx : x = dst + BitVec.ofNat (8 * n) j
  · subst hx
    rw [if_pos rfl, add_sub_cancel_w, if_pos]
    rw [ofNat_toNat_lt len j hj]; omega
  · rw [if_neg hx]
    have hne : (x - dst).toNat ≠ j := fun h => hx (sub_eq_ofNat h)
    by_cases h : j + 1 ≤ (x - dst).toNat ∧ (x - dst).toNat < len.toNat
    · rw [if_pos h, if_pos (by omega)]
    · rw [if_neg h, if_neg (by omega)]

/-! Arithmetic of the loop counters. -/

theorem ofInt_neg_one : BitVec.ofInt (8 * n) (-1) = - 1#(8 * n) := by
  rw [show (-1 : Int) = -(1 : Int) by rfl, BitVec.ofInt_neg]
  rfl

theorem step_up (a : W n) (j : Nat) :
    a + BitVec.ofNat (8 * n) j + BitVec.ofInt (8 * n) 1 = a + BitVec.ofNat (8 * n) (j + 1) := by
  rw [BitVec.add_assoc]
  congr 1
  rw [BitVec.ofNat_add]
  rfl

theorem step_up1 (a : W n) (j : Nat) :
    a + BitVec.ofNat (8 * n) j + 1#(8 * n) = a + BitVec.ofNat (8 * n) (j + 1) := step_up a j

theorem pred_up1 (a : W n) (j : Nat) :
    a + BitVec.ofInt (8 * n) (-1) + BitVec.ofNat (8 * n) (j + 1) = a + BitVec.ofNat (8 * n) j := by
  rw [BitVec.add_assoc, BitVec.add_comm (BitVec.ofInt _ _)]
  congr 1
  rw [ofInt_neg_one, BitVec.ofNat_add, ← BitVec.sub_eq_add_neg, BitVec.add_sub_cancel]

theorem step_down (a : W n) (j : Nat) :
    a - BitVec.ofNat (8 * n) j + BitVec.ofInt (8 * n) (-1) = a - BitVec.ofNat (8 * n) (j + 1) := by
  rw [ofInt_neg_one, BitVec.ofNat_add, BitVec.sub_eq_add_neg, BitVec.sub_eq_add_neg,
    BitVec.neg_add, BitVec.sub_eq_add_neg, BitVec.add_assoc]

theorem left_zero (len : W n) (j : Nat) (hj : j < len.toNat) :
    (len - BitVec.ofNat (8 * n) (j + 1) = 0#(8 * n)) ↔ j + 1 = len.toNat := by
  rw [sub_eq_zero_iff]
  constructor
  · intro h
    have h2 := congrArg BitVec.toNat h
    rw [BitVec.toNat_ofNat] at h2
    by_cases hw : j + 1 < 2 ^ (8 * n)
    · rw [Nat.mod_eq_of_lt hw] at h2; omega
    · have := len.isLt; omega
  · intro h
    apply BitVec.eq_of_toNat_eq
    rw [BitVec.toNat_ofNat, h, Nat.mod_eq_of_lt len.isLt]

theorem ofNat_pred (j : Nat) :
    BitVec.ofNat (8 * n) (j + 1) + BitVec.ofInt (8 * n) (-1) = BitVec.ofNat (8 * n) j := by
  rw [ofInt_neg_one, BitVec.ofNat_add, ← BitVec.sub_eq_add_neg, BitVec.add_sub_cancel]

theorem ofNat_zero_iff (len : W n) (j : Nat) (hj : j < len.toNat) :
    BitVec.ofNat (8 * n) j = 0#(8 * n) ↔ j = 0 := by
  constructor
  · intro h
    have h2 := congrArg BitVec.toNat h
    rw [ofNat_toNat_lt len j hj] at h2
    simpa using h2
  · rintro rfl; rfl

theorem len_zero_iff (len : W n) : len = 0#(8 * n) ↔ len.toNat = 0 := by
  constructor
  · rintro rfl; simp
  · intro h; exact BitVec.eq_of_toNat_eq (by simpa using h)

theorem byte_trip (hn : 4 ≤ n) (b : Byte) : (b.setWidth (8 * n)).setWidth 8 = b := by
  apply BitVec.eq_of_toNat_eq
  have h1 : b.toNat < 2 ^ 8 := b.isLt
  have h2 : 2 ^ 8 ≤ 2 ^ (8 * n) := Nat.pow_le_pow_right (by decide) (by omega)
  rw [BitVec.toNat_setWidth, BitVec.toNat_setWidth, Nat.mod_eq_of_lt (a := b.toNat) (by omega),
    Nat.mod_eq_of_lt h1]

/-! Composition of runs. -/

theorem run_add (p : Prog n) (fv : BitVec 32) (j k : Nat) (s : LSt n × Mem n) :
    run p fv (j + k) s = run p fv k (run p fv j s) := by
  induction j generalizing s with
  | zero => simp [run]
  | succ j ih => rw [Nat.succ_add]; simp only [run]; exact ih _

/-- Induction over the iterations of a loop. -/
theorem loop (p : Prog n) (fv : BitVec 32) (I : Nat → LSt n × Mem n → Prop) (L : Nat)
    (body : ∀ j s, j < L → I j s → ∃ k, I (j + 1) (run p fv k s)) (s : LSt n × Mem n)
    (h : ∃ k, I 0 (run p fv k s)) : ∃ k, I L (run p fv k s) := by
  have : ∀ j, j ≤ L → ∃ k, I j (run p fv k s) := by
    intro j
    induction j with
    | zero => intro _; exact h
    | succ j ih =>
      intro hj
      obtain ⟨k, hk⟩ := ih (by omega)
      obtain ⟨k', hk'⟩ := body j _ (by omega) hk
      exact ⟨k + k', by rw [run_add]; exact hk'⟩
  exact this L (Nat.le_refl _)

theorem memcpy_zero (m : Mem n) (dst src : W n) : memcpy m dst src 0#(8 * n) = m := by
  funext x; simp [memcpy]

/-- State at the head of a forward copy loop after `j` bytes.  `rs`, `rd`, `rl` are the registers of
source, destination and remaining length; `bs`, `bd` the values of the first two before the loop;
`pl` the loop head and `pe` the instruction after the loop. -/
structure LoopI (pl pe rs rd rl : Nat) (tmp : List Nat) (R0 sl : Nat → W n) (m : Mem n)
    (bs bd src dst len : W n) (j : Nat) (s : LSt n × Mem n) : Prop where
  pc : s.1.pc = if j < len.toNat then .at pl else .at pe
  hs : s.1.regs rs = bs + BitVec.ofNat (8 * n) j
  hd : s.1.regs rd = bd + BitVec.ofNat (8 * n) j
  hl : s.1.regs rl = len - BitVec.ofNat (8 * n) j
  others : ∀ x, x ≠ rs → x ≠ rd → x ≠ rl → x ∉ tmp → s.1.regs x = R0 x
  slots : s.1.slots = sl
  mem : s.2 = cpy m dst src j

/-- State of the backward copy loop (aarch64) after `j` iterations. -/
structure LoopB (pl pe : Nat) (R0 sl : Nat → W n) (m : Mem n)
    (src dst len : W n) (j : Nat) (s : LSt n × Mem n) : Prop where
  pc : s.1.pc = if j < len.toNat then .at pl else .at pe
  hk : s.1.regs 14 = BitVec.ofNat (8 * n) (len.toNat - j)
  others : ∀ x, x ≠ 14 → x ≠ 15 → s.1.regs x = R0 x
  slots : s.1.slots = sl
  mem : s.2 = cpyB m dst src len (len.toNat - j)

end Verif.Rseq
