import Verif.MempoolInv
/-
Preservation of the allocator invariant by each operation. Helper lemmas only.
-/
namespace Verif.Mempool
open Verif Verif.Mem

variable [Abi]

/-! ### Bitmap -/

theorem mod_bits (i : Nat) : i % (8 * wb) < 8 * wb := Nat.mod_lt _ (by have := wb_pos; omega)

theorem eq_iff_mod {i k : Nat} (h : k / (8 * wb) = i / (8 * wb)) : k = i ↔ k % (8 * wb) = i % (8 * wb) := by
  have h1 := Nat.div_add_mod k (8 * wb)
  have h2 := Nat.div_add_mod i (8 * wb)
  rw [h] at h1
  omega

theorem bitTest_eq (bm : Nat → Word) (i : Nat) : bitTest bm i = (bm (i / (8 * wb))).getLsbD (i % (8 * wb)) := by
  unfold bitTest
  have h := BitVec.and_twoPow (bm (i / (8 * wb))) (i % (8 * wb))
  have e : (1#(8 * wb) <<< (i % (8 * wb))) = BitVec.twoPow (8 * wb) (i % (8 * wb)) := by rw [BitVec.twoPow]
  rw [e, h]
  have hne : BitVec.twoPow (8 * wb) (i % (8 * wb)) ≠ 0#_ := by
    intro h0
    have := congrArg (fun b => b.getLsbD (i % (8 * wb))) h0
    simp [BitVec.getLsbD_twoPow] at this
    have := mod_bits i
    omega
  cases (bm (i / (8 * wb))).getLsbD (i % (8 * wb)) <;> simp [hne]

theorem bitTest_bitSet (bm : Nat → Word) (i k : Nat) :
    bitTest (bitSet bm i) k = true ↔ (k = i ∨ bitTest bm k = true) := by
  rw [bitTest_eq, bitTest_eq]
  unfold bitSet
  have e : (1#(8 * wb) <<< (i % (8 * wb))) = BitVec.twoPow (8 * wb) (i % (8 * wb)) := by rw [BitVec.twoPow]
  rw [e]
  by_cases h : k / (8 * wb) = i / (8 * wb)
  · rw [if_pos h, BitVec.getLsbD_or, BitVec.getLsbD_twoPow, h]
    have := eq_iff_mod h
    rw [this]
    have h64 := mod_bits k
    by_cases hk : k % (8 * wb) = i % (8 * wb) <;> simp [hk] <;> omega
  · rw [if_neg h]
    constructor
    · exact Or.inr
    · rintro (rfl | h')
      · exact absurd rfl h
      · exact h'

theorem bitTest_bitClear (bm : Nat → Word) (i k : Nat) :
    bitTest (bitClear bm i) k = true ↔ (k ≠ i ∧ bitTest bm k = true) := by
  rw [bitTest_eq, bitTest_eq]
  unfold bitClear
  have e : (1#(8 * wb) <<< (i % (8 * wb))) = BitVec.twoPow (8 * wb) (i % (8 * wb)) := by rw [BitVec.twoPow]
  rw [e]
  by_cases h : k / (8 * wb) = i / (8 * wb)
  · rw [if_pos h, BitVec.getLsbD_and, BitVec.getLsbD_not, BitVec.getLsbD_twoPow, h]
    have := eq_iff_mod h
    rw [ne_eq, this]
    have h64 := mod_bits k
    by_cases hk : k % (8 * wb) = i % (8 * wb) <;> simp [hk] <;> omega
  · rw [if_neg h]
    constructor
    · exact fun h' => ⟨by rintro rfl; exact h rfl, h'⟩
    · exact And.right

/-! ### Fill loops on an item -/

theorem percpuPtr_eq (c : Config) (r : Range) (i off : Nat) :
    percpuPtr c r i off = r.base + off + c.stride * i := by unfold percpuPtr; omega

/-- Shared argument for zero/init/poison: write the init copy (if any), then every CPU. -/
theorem genFill {c : Config} {l : List Range} {m : Mem} (hwf : m.WF) (hsh : Shape c l m) {r : Range}
    {off : Nat} (hslot : Slot c l (r.base + off)) (hinit : r.init = if c.cow then some (r.base + c.stride * c.ncpu) else none)
    {g : Nat → Byte} {n : Nat} (hn : n ≤ c.itemLen) {body : Nat → Mem → Mem} {iw : Nat → Mem → Mem}
    (hb : FillBody c.pg (fun i => percpuPtr c r i off) g n body)
    (hiw : ∀ p m, Frame c.pg (fun x => p ≤ x ∧ x < p + n) m (iw p m) ∧ (m.WF → Holds c.pg (iw p m) p g n)) :
    let m1 := (match initPtr r off with | some p => iw p m | none => m)
    let m2 := forCpus body c.ncpu m1
    Frame c.pg (ItemBytes c (r.base + off)) m m2 ∧
    (∀ i, i < c.ncpu → Holds c.pg m2 (r.base + off + c.stride * i) g n) ∧
    (c.cow = true → Holds c.pg m2 (r.base + off + c.stride * c.ncpu) g n) := by
  intro m1 m2
  have hinitp : initPtr r off = if c.cow then some (r.base + off + c.stride * c.ncpu) else none := by
    unfold initPtr
    rw [hinit]
    cases c.cow
    · rfl
    · simp; omega
  have hf1 : Frame c.pg (ItemBytes c (r.base + off)) m m1 := by
    show Frame _ _ _ (match initPtr r off with | some p => iw p m | none => m)
    rw [hinitp]
    cases hc : c.cow
    · exact Frame.refl
    · refine (hiw _ m).1.mono ?_
      intro x hx
      refine ⟨c.ncpu, x - (r.base + off + c.stride * c.ncpu), initCol_lt hc, ?_, ?_⟩ <;> omega
  have hf2 : Frame c.pg (fun x => ∃ i, i < c.ncpu ∧ percpuPtr c r i off ≤ x ∧ x < percpuPtr c r i off + n) m1 m2 :=
    forCpus_frame hb c.ncpu m1
  have hwf1 : m1.WF := hf1.wf hwf
  have hsh1 : Shape c l m1 := hsh.frame hf1
  refine ⟨hf1.trans (hf2.mono ?_), ?_, ?_⟩
  · rintro x ⟨i, hi, h⟩
    rw [percpuPtr_eq] at h
    have := ncpu_le_nCols c
    refine ⟨i, x - (r.base + off + c.stride * i), by omega, ?_, ?_⟩ <;> omega
  · intro i hi
    have := forCpus_holds hb (N := c.ncpu) hwf1 ?_ i hi
    · rw [percpuPtr_eq] at this; exact this
    · intro i k hi hk hik j hj
      rw [percpuPtr_eq, percpuPtr_eq]
      have hle := ncpu_le_nCols c
      have hgen : ∀ col, col ≠ k → ¬ (r.base + off + c.stride * k ≤ r.base + off + c.stride * col + j ∧
          r.base + off + c.stride * col + j < r.base + off + c.stride * k + n) := by
        intro col hck ⟨h1, h2⟩
        exact slot_col_disj hslot hck (o := j) (o' := r.base + off + c.stride * col + j - (r.base + off + c.stride * k))
          (by omega) (by omega) (by omega)
      refine ⟨hgen i hik, ?_⟩
      rcases hsh1.slot hslot (col := i) (o := j) (by omega) (by omega) with e | ⟨_, _, e⟩
      · rw [e]; exact hgen i hik
      · rw [e]; exact hgen c.ncpu (by omega)
  · intro hc
    have hi1 : Holds c.pg m1 (r.base + off + c.stride * c.ncpu) g n := by
      show Holds c.pg (match initPtr r off with | some p => iw p m | none => m) _ _ _
      rw [hinitp, if_pos hc]
      exact (hiw _ m).2 hwf
    refine hi1.frame hf2 hwf1 ?_
    intro j hj
    have hgen : ¬ ∃ i, i < c.ncpu ∧ percpuPtr c r i off ≤ r.base + off + c.stride * c.ncpu + j ∧
        r.base + off + c.stride * c.ncpu + j < percpuPtr c r i off + n := by
      rintro ⟨i, hi, h1, h2⟩
      rw [percpuPtr_eq] at h1 h2
      exact slot_col_disj hslot (i := c.ncpu) (j := i) (by omega) (o := j)
        (o' := r.base + off + c.stride * c.ncpu + j - (r.base + off + c.stride * i)) (by omega) (by omega) (by omega)
    refine ⟨hgen, ?_⟩
    rcases hsh1.slot hslot (col := c.ncpu) (o := j) (initCol_lt hc) (by omega) with e | ⟨_, h, _⟩
    · rw [e]; exact hgen
    · omega

theorem zeroItem_spec {c : Config} (hv : Valid c) {l : List Range} {m : Mem} (hwf : m.WF) (hsh : Shape c l m)
    {r : Range} {off : Nat} (hslot : Slot c l (r.base + off))
    (hinit : r.init = if c.cow then some (r.base + c.stride * c.ncpu) else none) :
    Frame c.pg (ItemBytes c (r.base + off)) m (zeroItem c r off m) ∧
    ∀ i, i < c.ncpu → Holds c.pg (zeroItem c r off m) (r.base + off + c.stride * i) (fun _ => 0#8) c.itemLen := by
  have := genFill hwf hsh hslot hinit (Nat.le_refl _) (zeroBody hv.pg_pos hv.item_wb r off)
    (iw := fun p m => bzero c.pg m p c.itemLen)
    (fun p m => ⟨Frame.writeBlock hv.pg_pos, fun w => Holds_writeBlock hv.pg_pos w⟩)
  exact ⟨this.1, this.2.1⟩

theorem initItem_spec {c : Config} (hv : Valid c) {l : List Range} {m : Mem} (hwf : m.WF) (hsh : Shape c l m)
    {r : Range} {off : Nat} (hslot : Slot c l (r.base + off))
    (hinit : r.init = if c.cow then some (r.base + c.stride * c.ncpu) else none) {f : Nat → Byte} {n : Nat}
    (hn : n ≤ c.itemLen) :
    Frame c.pg (ItemBytes c (r.base + off)) m (initItem c r off f n m) ∧
    ∀ i, i < c.ncpu → Holds c.pg (initItem c r off f n m) (r.base + off + c.stride * i) f n := by
  have := genFill hwf hsh hslot hinit hn (initBody hv.pg_pos r off f n)
    (iw := fun p m => memcpy c.pg m p f n)
    (fun p m => ⟨Frame.writeBlock hv.pg_pos, fun w => Holds_writeBlock hv.pg_pos w⟩)
  exact ⟨this.1, this.2.1⟩

theorem poisonItem_spec {c : Config} (hv : Valid c) {l : List Range} {m : Mem} (hwf : m.WF) (hsh : Shape c l m)
    {r : Range} {off : Nat} (hslot : Slot c l (r.base + off))
    (hinit : r.init = if c.cow then some (r.base + c.stride * c.ncpu) else none) {v : Word} :
    Frame c.pg (ItemBytes c (r.base + off)) m (poisonItem c r off v m) ∧
    (∀ i, i < c.ncpu → Holds c.pg (poisonItem c r off v m) (r.base + off + c.stride * i) (pat v) c.itemLen) ∧
    (c.cow = true → Holds c.pg (poisonItem c r off v m) (r.base + off + c.stride * c.ncpu) (pat v) c.itemLen) :=
  genFill hwf hsh hslot hinit (Nat.le_refl _) (poisonBody hv.pg_pos hv.item_wb r off v)
    (iw := fun p m => poisonBlock c.pg m p c.itemLen v)
    (fun _ _ => ⟨poisonBlock_frame hv.pg_pos, fun w => poisonBlock_holds hv.pg_pos w hv.item_wb⟩)

theorem fillItem_frame {c : Config} (hv : Valid c) {l : List Range} {m : Mem} (hwf : m.WF) (hsh : Shape c l m)
    {r : Range} {off : Nat} (hslot : Slot c l (r.base + off))
    (hinit : r.init = if c.cow then some (r.base + c.stride * c.ncpu) else none) {fill : Fill}
    (hn : fill.len ≤ c.itemLen) :
    Frame c.pg (ItemBytes c (r.base + off)) m (fillItem c r off fill m) := by
  cases fill with
  | plain n => exact Frame.refl
  | zero => exact (zeroItem_spec hv hwf hsh hslot hinit).1
  | init f n => exact (initItem_spec hv hwf hsh hslot hinit hn).1

/-- What the poison check looks at. -/
theorem checkPoisonItem_iff {c : Config} (hv : Valid c) (hr : c.robust = true) {v : Word} (hpv : c.poison = some v)
    {r : Range} {off : Nat} (hinit : r.init = if c.cow then some (r.base + c.stride * c.ncpu) else none) {m : Mem} :
    checkPoisonItem c r off m = true ↔
      ∀ col o, PoisonByte c col o → m.read c.pg (r.base + off + c.stride * col + o) = pat v o := by
  have hinitp : initPtr r off = if c.cow then some (r.base + off + c.stride * c.ncpu) else none := by
    unfold initPtr
    rw [hinit]
    cases c.cow
    · rfl
    · simp; omega
  unfold checkPoisonItem
  rw [hr, hpv, hinitp]
  simp only [Bool.not_true, Bool.false_eq_true, if_false, Option.getD_some, Bool.and_eq_true, List.all_eq_true,
    List.mem_range, beq_iff_eq]
  have hcpu : ∀ i, cmpItem c.pg m (percpuPtr c r i off) c.itemLen v = 0#_ ↔
      Holds c.pg m (r.base + off + c.stride * i) (pat v) c.itemLen := by
    intro i; rw [percpuPtr_eq, cmpItem_eq_zero_iff hv.item_wb]
  constructor
  · rintro ⟨h1, h2⟩ col o ⟨hcol, ho, _⟩
    by_cases hlt : col < c.ncpu
    · exact (hcpu col).1 (h2 col hlt) o ho
    · cases hc : c.cow with
      | false => simp [hc] at hcol; omega
      | true =>
        simp [hc] at hcol h1
        have : col = c.ncpu := by omega
        subst this
        exact (cmpItem_eq_zero_iff hv.item_wb).1 h1 o ho
  · intro h
    constructor
    · cases hc : c.cow with
      | false => simp
      | true =>
        simp only [if_true, beq_iff_eq]
        rw [cmpItem_eq_zero_iff hv.item_wb]
        intro o ho
        exact h c.ncpu o ⟨by simp [hc], ho, Or.inl hr⟩
    · intro i hi
      rw [hcpu]
      intro o ho
      exact h i o ⟨by omega, ho, Or.inl hr⟩

end Verif.Mempool
