import Verif.MempoolSpec
import Verif.MempoolFill
/-
The allocator invariant and address arithmetic. Helper definitions and lemmas only.
-/
namespace Verif.Mempool
open Verif Verif.Mem

variable [Abi]

/-! ### Columns -/

/-- Number of stride-sized areas of a range. -/
def Config.nCols (c : Config) : Nat := c.ncpu + (if c.cow then 1 else 0) + (if c.robust then 1 else 0)

/-- The area holding the free list nodes. -/
def Config.flCol (c : Config) : Nat :=
  if c.robust then c.ncpu + (if c.cow then 1 else 0) else if c.cow then c.ncpu else 0

theorem rangeLen_eq (c : Config) : rangeLen c = c.stride * c.nCols := by
  unfold rangeLen Config.nCols
  cases c.cow <;> cases c.robust <;> simp [Nat.mul_add]

theorem toFreeList_eq (c : Config) (p : Nat) : percpuToFreeList c p = p + c.stride * c.flCol := by
  unfold percpuToFreeList Config.flCol
  cases c.cow <;> cases c.robust <;> simp [Nat.mul_add, Nat.mul_comm] <;> omega

theorem toPercpu_toFreeList (c : Config) (p : Nat) : freeListToPercpu c (p + c.stride * c.flCol) = p := by
  unfold freeListToPercpu Config.flCol
  cases c.cow <;> cases c.robust <;> simp [Nat.mul_add, Nat.mul_comm] <;> omega

theorem Valid.flCol_lt {c : Config} (hv : Valid c) : c.flCol < c.nCols := by
  have := hv.ncpu_pos
  unfold Config.flCol Config.nCols
  cases c.cow <;> cases c.robust <;> simp <;> omega

theorem ncpu_le_flCol {c : Config} (h : c.robust = true ∨ c.cow = true) : c.ncpu ≤ c.flCol := by
  unfold Config.flCol
  cases hc : c.cow <;> cases hr : c.robust <;> simp [hc, hr] at h ⊢

theorem ncpu_le_nCols (c : Config) : c.ncpu ≤ c.nCols := by unfold Config.nCols; omega

theorem initCol_lt {c : Config} (h : c.cow = true) : c.ncpu < c.nCols := by
  unfold Config.nCols; simp [h]; omega

theorem flCol_robust {c : Config} (h : c.robust = true) : c.flCol = c.ncpu + (if c.cow then 1 else 0) := by
  unfold Config.flCol; simp [h]

theorem flCol_zero {c : Config} (h : c.robust = false) (h' : c.cow = false) : c.flCol = 0 := by
  unfold Config.flCol; simp [h, h']

theorem flCol_cow {c : Config} (h : c.robust = false) (h' : c.cow = true) : c.flCol = c.ncpu := by
  unfold Config.flCol; simp [h, h']

/-! ### Consequences of validity -/

theorem Valid.item_pos {c : Config} (_ : Valid c) : 0 < c.itemLen := by
  unfold Config.itemLen; exact Nat.two_pow_pos _

theorem Valid.stride_pos {c : Config} (hv : Valid c) : 0 < c.stride :=
  Nat.lt_of_lt_of_le hv.item_pos hv.item_le

theorem Valid.pg_pos {c : Config} (hv : Valid c) : 0 < c.pg := by
  obtain ⟨k, hk⟩ := hv.pg_pow; rw [hk]; exact Nat.two_pow_pos _

theorem Valid.item_dvd {c : Config} (hv : Valid c) : c.itemLen ∣ c.stride := by
  obtain ⟨k, hk⟩ := hv.stride_pow
  have h := hv.item_le
  unfold Config.itemLen at h ⊢
  rw [hk] at h ⊢
  exact Nat.pow_dvd_pow 2 ((Nat.pow_le_pow_iff_right (by omega)).1 h)

theorem Valid.pg_dvd {c : Config} (hv : Valid c) : c.pg ∣ c.stride := by
  obtain ⟨k, hk⟩ := hv.stride_pow
  obtain ⟨p, hp⟩ := hv.pg_pow
  have h := hv.pg_le
  rw [hk, hp] at h ⊢
  exact Nat.pow_dvd_pow 2 ((Nat.pow_le_pow_iff_right (by omega)).1 h)

theorem Valid.item_wb {c : Config} (hv : Valid c) : wb ∣ c.itemLen := by
  have h := hv.item_ge
  unfold Config.itemLen at h ⊢
  have : ∃ k, wb = 2 ^ k := by
    rcases Abi.wb_eq with e | e <;> rw [e]
    · exact ⟨2, rfl⟩
    · exact ⟨3, rfl⟩
  obtain ⟨k, hk⟩ := this
  rw [hk] at h ⊢
  exact Nat.pow_dvd_pow 2 ((Nat.pow_le_pow_iff_right (by omega)).1 h)

theorem Valid.shr {c : Config} (_ : Valid c) (k : Nat) : (k * c.itemLen) >>> c.order = k := by
  unfold Config.itemLen
  rw [Nat.shiftRight_eq_div_pow, Nat.mul_div_cancel _ (Nat.two_pow_pos _)]

/-! ### Ranges and slots -/

/-- Per-range part of the invariant. -/
structure RangeInv (c : Config) (r : Range) : Prop where
  al : c.stride ∣ r.base
  pos : 2 * c.pg ≤ r.base
  top : r.base + rangeLen c ≤ 2 ^ (8 * wb)
  nu : r.nextUnused ≤ c.stride
  nud : c.itemLen ∣ r.nextUnused
  init_eq : r.init = if c.cow then some (r.base + c.stride * c.ncpu) else none
  bm : r.bitmap.isSome = c.robust
  hdr : r.header = r.base - 2 * c.pg
  maddr : r.mmapAddr = r.base - 2 * c.pg
  mlen : r.mmapLen = 2 * c.pg + rangeLen c
  can : c.cow = true → r.canary = 1#8

/-- All ranges are well formed and mutually disjoint. -/
structure RangesInv (c : Config) (l : List Range) : Prop where
  each : ∀ r ∈ l, RangeInv c r
  nodup : (l.map (·.base)).Nodup
  apart : ∀ r1 ∈ l, ∀ r2 ∈ l, r1.base ≠ r2.base → Apart c r1.base r2.base

/-- `p` is the address of an item slot of some range. -/
def Slot (c : Config) (l : List Range) (p : Nat) : Prop :=
  ∃ r ∈ l, ∃ k, k * c.itemLen + c.itemLen ≤ c.stride ∧ p = r.base + k * c.itemLen

/-- `p` is the address of an item slot that was handed out at least once. -/
def Used (c : Config) (l : List Range) (p : Nat) : Prop :=
  ∃ r ∈ l, ∃ k, k * c.itemLen < r.nextUnused ∧ p = r.base + k * c.itemLen

theorem lt_item_of_lt {c : Config} {n k : Nat} (hd : c.itemLen ∣ n) (h : k * c.itemLen < n) :
    k * c.itemLen + c.itemLen ≤ n := by
  obtain ⟨w, rfl⟩ := hd
  have hk : k < w := by
    rw [Nat.mul_comm] at h
    exact Nat.lt_of_mul_lt_mul_left h
  have := Nat.mul_le_mul_left c.itemLen (show k + 1 ≤ w from hk)
  rw [Nat.mul_add, Nat.mul_one, Nat.mul_comm _ k] at this
  exact this

theorem Used.slot {c : Config} {l : List Range} (hi : RangesInv c l) {p : Nat} (h : Used c l p) :
    Slot c l p := by
  obtain ⟨r, hr, k, hk, e⟩ := h
  have hR := hi.each r hr
  exact ⟨r, hr, k, Nat.le_trans (lt_item_of_lt hR.nud hk) hR.nu, e⟩

omit [Abi] in
theorem mul_add_inj {S i j a b : Nat} (ha : a < S) (hb : b < S) (h : S * i + a = S * j + b) :
    i = j ∧ a = b := by
  have h1 : (S * i + a) % S = a := by rw [Nat.mul_add_mod]; exact Nat.mod_eq_of_lt ha
  have h2 : (S * j + b) % S = b := by rw [Nat.mul_add_mod]; exact Nat.mod_eq_of_lt hb
  have hab : a = b := by rw [← h1, ← h2, h]
  subst hab
  refine ⟨Nat.eq_of_mul_eq_mul_left (Nat.lt_of_le_of_lt (Nat.zero_le _) ha) ?_, rfl⟩
  omega

theorem col_in {c : Config} {base i a : Nat} (hi : i < c.nCols) (ha : a < c.stride) :
    InRegion c base (base + c.stride * i + a) := by
  unfold InRegion
  rw [rangeLen_eq]
  have := Nat.mul_le_mul_left c.stride (show i + 1 ≤ c.nCols from hi)
  rw [Nat.mul_add, Nat.mul_one] at this
  omega

theorem region_unique {c : Config} {l : List Range} (hi : RangesInv c l) {r1 r2 : Range} (h1 : r1 ∈ l)
    (h2 : r2 ∈ l) {x : Nat} (x1 : InRegion c r1.base x) (x2 : InRegion c r2.base x) :
    r1.base = r2.base := by
  by_cases h : r1.base = r2.base
  · exact h
  · have := hi.apart r1 h1 r2 h2 h
    unfold Apart InRegion at *
    omega

theorem eq_of_base {l : List Range} (hn : (l.map (·.base)).Nodup) {r1 r2 : Range} (h1 : r1 ∈ l)
    (h2 : r2 ∈ l) (h : r1.base = r2.base) : r1 = r2 := by
  induction l with
  | nil => cases h1
  | cons a l ih =>
    rw [List.map_cons, List.nodup_cons] at hn
    rcases List.mem_cons.1 h1 with rfl | h1' <;> rcases List.mem_cons.1 h2 with rfl | h2'
    · rfl
    · exact absurd (h ▸ List.mem_map_of_mem h2') hn.1
    · exact absurd (h ▸ List.mem_map_of_mem h1') hn.1
    · exact ih hn.2 h1' h2'

theorem findRange_mem {l : List Range} {b : Nat} {r : Range} (h : findRange l b = some r) :
    r ∈ l ∧ r.base = b := by
  unfold findRange at h
  refine ⟨List.mem_of_find?_eq_some h, ?_⟩
  have := List.find?_some h
  simpa using this

theorem findRange_eq {l : List Range} (hn : (l.map (·.base)).Nodup) {r : Range} (h : r ∈ l) :
    findRange l r.base = some r := by
  cases hf : findRange l r.base with
  | none =>
    unfold findRange at hf
    have := List.find?_eq_none.1 hf r h
    simp at this
  | some r' =>
    have := findRange_mem hf
    rw [eq_of_base hn this.1 h this.2]

theorem mem_putRange {l : List Range} {r' : Range} (hb : ∃ r ∈ l, r.base = r'.base) {x : Range} :
    x ∈ putRange l r' ↔ x = r' ∨ (x ∈ l ∧ x.base ≠ r'.base) := by
  unfold putRange
  rw [List.mem_map]
  constructor
  · rintro ⟨a, ha, rfl⟩
    split
    · exact Or.inl rfl
    · rename_i h; exact Or.inr ⟨ha, h⟩
  · rintro (rfl | ⟨hx, h⟩)
    · obtain ⟨r, hr, e⟩ := hb
      exact ⟨r, hr, by rw [if_pos e]⟩
    · exact ⟨x, hx, by rw [if_neg h]⟩

theorem map_base_putRange (l : List Range) (r' : Range) :
    (putRange l r').map (·.base) = l.map (·.base) := by
  unfold putRange
  rw [List.map_map]
  apply List.map_congr_left
  intro a _
  simp only [Function.comp]
  split
  · rename_i h; exact h.symm
  · rfl

theorem length_putRange (l : List Range) (r' : Range) : (putRange l r').length = l.length := by
  unfold putRange; rw [List.length_map]

theorem RangesInv.put {c : Config} {l : List Range} (hi : RangesInv c l) {r r' : Range} (hr : r ∈ l)
    (hb : r.base = r'.base) (h' : RangeInv c r') : RangesInv c (putRange l r') := by
  have hm := fun x => mem_putRange (x := x) ⟨r, hr, hb⟩
  refine ⟨fun x hx => ?_, ?_, fun x hx y hy h => ?_⟩
  · rcases (hm x).1 hx with rfl | ⟨hx, _⟩
    · exact h'
    · exact hi.each x hx
  · rw [map_base_putRange]; exact hi.nodup
  · rcases (hm x).1 hx with e1 | ⟨hx, _⟩ <;> rcases (hm y).1 hy with e2 | ⟨hy, _⟩
    · exact absurd (by rw [e1, e2]) h
    · rw [e1, ← hb] at h ⊢; exact hi.apart r hr y hy h
    · rw [e2, ← hb] at h ⊢; exact hi.apart x hx r hr h
    · exact hi.apart x hx y hy h

/-- Distinct slots share no byte in any column. -/
theorem slot_disj {c : Config} {l : List Range} (hi : RangesInv c l) {p q : Nat}
    (hp : Slot c l p) (hq : Slot c l q) (hne : p ≠ q) {i j o o' : Nat} (hi' : i < c.nCols)
    (hj : j < c.nCols) (ho : o < c.itemLen) (ho' : o' < c.itemLen) :
    p + c.stride * i + o ≠ q + c.stride * j + o' := by
  obtain ⟨r1, hr1, k1, hk1, rfl⟩ := hp
  obtain ⟨r2, hr2, k2, hk2, rfl⟩ := hq
  intro h
  have e1 := col_in (c := c) (base := r1.base) hi' (show k1 * c.itemLen + o < c.stride by omega)
  have e2 := col_in (c := c) (base := r2.base) hj (show k2 * c.itemLen + o' < c.stride by omega)
  have hx : r1.base + c.stride * i + (k1 * c.itemLen + o) = r2.base + c.stride * j + (k2 * c.itemLen + o') := by
    omega
  rw [hx] at e1
  have hb := region_unique hi hr1 hr2 e1 e2
  rw [hb] at hx
  have h3 := mul_add_inj (i := i) (j := j) (show k1 * c.itemLen + o < c.stride by omega)
    (show k2 * c.itemLen + o' < c.stride by omega) (by omega)
  have h4 := mul_add_inj (S := c.itemLen) (i := k1) (j := k2) ho ho'
    (by rw [Nat.mul_comm _ k1, Nat.mul_comm _ k2]; exact h3.2)
  apply hne
  rw [hb, h4.1]

/-- Same slot, different column: no shared byte. -/
theorem slot_col_disj {c : Config} {l : List Range} {p : Nat} (hp : Slot c l p) {i j o o' : Nat}
    (hij : i ≠ j) (ho : o < c.itemLen) (ho' : o' < c.itemLen) :
    p + c.stride * i + o ≠ p + c.stride * j + o' := by
  obtain ⟨r, _, k, hk, rfl⟩ := hp
  intro h
  have := mul_add_inj (S := c.stride) (i := i) (j := j) (a := k * c.itemLen + o) (b := k * c.itemLen + o')
    (by omega) (by omega) (by omega)
  exact hij this.1

/-- A used slot's address determines its range, the way the code computes it. -/
theorem slot_base {c : Config} (hv : Valid c) {l : List Range} (hi : RangesInv c l) {r : Range} (hr : r ∈ l)
    {k : Nat} (hk : k * c.itemLen + c.itemLen ≤ c.stride) :
    (r.base + k * c.itemLen) % c.stride = k * c.itemLen := by
  obtain ⟨w, hw⟩ := (hi.each r hr).al
  have := hv.item_pos
  rw [hw, Nat.mul_add_mod]
  exact Nat.mod_eq_of_lt (by omega)

/-! ### Memory shape -/

/-- How pool memory is mapped: every byte of a range is plain, or is a private byte still showing the
init area; nobody outside maps pool memory. -/
structure Shape (c : Config) (l : List Range) (m : Mem) : Prop where
  inside : ∀ r ∈ l, ∀ col off, col < c.nCols → off < c.stride →
    m.resolve c.pg (r.base + c.stride * col + off) = r.base + c.stride * col + off ∨
    (c.cow = true ∧ col < c.ncpu ∧
      m.resolve c.pg (r.base + c.stride * col + off) = r.base + c.stride * c.ncpu + off)
  outside : ∀ x, (∀ r ∈ l, ¬ InRegion c r.base x) → ∀ r ∈ l, ¬ InRegion c r.base (m.resolve c.pg x)

theorem Shape.slot {c : Config} {l : List Range} {m : Mem} (h : Shape c l m) {p : Nat} (hp : Slot c l p)
    {col o : Nat} (hc : col < c.nCols) (ho : o < c.itemLen) :
    m.resolve c.pg (p + c.stride * col + o) = p + c.stride * col + o ∨
    (c.cow = true ∧ col < c.ncpu ∧
      m.resolve c.pg (p + c.stride * col + o) = p + c.stride * c.ncpu + o) := by
  obtain ⟨r, hr, k, hk, rfl⟩ := hp
  have := h.inside r hr col (k * c.itemLen + o) hc (by omega)
  rw [show r.base + c.stride * col + (k * c.itemLen + o) = r.base + k * c.itemLen + c.stride * col + o by omega,
    show r.base + c.stride * c.ncpu + (k * c.itemLen + o) = r.base + k * c.itemLen + c.stride * c.ncpu + o by omega] at this
  exact this

/-- Stores keep the shape. -/
theorem Shape.frame {c : Config} {l : List Range} {m m' : Mem} {W : Nat → Prop} (h : Shape c l m)
    (hf : Frame c.pg W m m') : Shape c l m' := by
  refine ⟨fun r hr col off hc ho => ?_, fun x hx r hr => ?_⟩
  · rcases hf.res (r.base + c.stride * col + off) with e | e
    · rw [e]; exact h.inside r hr col off hc ho
    · exact Or.inl e
  · rcases hf.res x with e | e
    · rw [e]; exact h.outside x hx r hr
    · rw [e]; exact hx r hr

/-- The bytes of item `p` in all columns. -/
def ItemBytes (c : Config) (p : Nat) (x : Nat) : Prop :=
  ∃ col o, col < c.nCols ∧ o < c.itemLen ∧ x = p + c.stride * col + o

/-- Stores inside item `p` leave every other item untouched in every column. -/
theorem keepOther {c : Config} {l : List Range} (hi : RangesInv c l) {m m' : Mem}
    (hwf : m.WF) (hsh : Shape c l m) {p q : Nat} (hp : Slot c l p) (hq : Slot c l q) (hne : q ≠ p)
    (hf : Frame c.pg (ItemBytes c p) m m') {col o : Nat} (hc : col < c.nCols) (ho : o < c.itemLen) :
    m'.read c.pg (q + c.stride * col + o) = m.read c.pg (q + c.stride * col + o) := by
  apply hf.rd hwf
  · rintro ⟨col', o', hc', ho', e⟩
    exact slot_disj hi hq hp hne hc hc' ho ho' e
  · rintro ⟨col', o', hc', ho', e⟩
    rcases hsh.slot hq hc ho with h | ⟨hcow, _, h⟩
    · rw [h] at e; exact slot_disj hi hq hp hne hc hc' ho ho' e
    · rw [h] at e; exact slot_disj hi hq hp hne (initCol_lt hcow) hc' ho ho' e

/-! ### Free list chain -/

/-- The free list threaded through memory visits exactly the items `F`, in order. -/
def Chain (c : Config) (m : Mem) : Nat → List Nat → Prop
  | h, [] => h = 0
  | h, p :: F => h = p + c.stride * c.flCol ∧ Chain c m (m.readWord c.pg h).toNat F

theorem Chain.congr {c : Config} {m m' : Mem} {h : Nat} {F : List Nat}
    (hr : ∀ q ∈ F, ∀ j, j < wb →
      m'.read c.pg (q + c.stride * c.flCol + j) = m.read c.pg (q + c.stride * c.flCol + j))
    (hc : Chain c m h F) : Chain c m' h F := by
  induction F generalizing h with
  | nil => exact hc
  | cons p F ih =>
    obtain ⟨e, hc⟩ := hc
    refine ⟨e, ?_⟩
    have : m'.readWord c.pg h = m.readWord c.pg h := by
      rw [e]; exact readWord_congr (hr p List.mem_cons_self)
    rw [this]
    exact ih (fun q hq => hr q (List.mem_cons_of_mem _ hq)) hc

/-! ### The invariant -/

/-- Which bytes of a freed item must hold the poison value: all of them, except the free list node
stored in the item itself by non-robust pools (in CPU 0 for COW_ZERO, in the init area - hence visible
through uncopied private pages - for COW_INIT). -/
def PoisonByte (c : Config) (col o : Nat) : Prop :=
  col < c.ncpu + (if c.cow then 1 else 0) ∧ o < c.itemLen ∧
  (c.robust = true ∨ wb ≤ o ∨ (c.cow = false ∧ col ≠ 0))

/-- In robust pools the bitmap marks exactly the items `B`. -/
def Bits (c : Config) (l : List Range) (B : List Nat) : Prop :=
  ∀ r ∈ l, ∀ bm, r.bitmap = some bm → ∀ k,
    bitTest bm k = true ↔ (k * c.itemLen < r.nextUnused ∧ r.base + k * c.itemLen ∈ B)

/-- Allocator invariant without the bitmap: `L` live items, `F` free list. -/
structure Inv0 (c : Config) (uaf : Bool) (s : State) (L F : List Nat) : Prop where
  wf : s.mem.WF
  ranges : RangesInv c s.pool.ranges
  shape : Shape c s.pool.ranges s.mem
  mapped : s.itemsMapped = true
  nr : s.pool.nrRanges = s.pool.ranges.length
  maxr : c.maxRanges ≠ 0 → s.pool.ranges.length ≤ c.maxRanges
  full : ∀ r ∈ s.pool.ranges.tail, r.nextUnused = c.stride
  chain : Chain c s.mem s.pool.head F
  nodup : (L ++ F).Nodup
  used : ∀ p, Used c s.pool.ranges p ↔ p ∈ L ∨ p ∈ F
  poison : uaf = false → ∀ v, c.poison = some v → ∀ p ∈ F, ∀ col o, PoisonByte c col o →
    s.mem.read c.pg (p + c.stride * col + o) = pat v o

/-- Allocator invariant: `L` live items, `F` free list. -/
structure Inv (c : Config) (uaf : Bool) (s : State) (L F : List Nat) : Prop extends Inv0 c uaf s L F where
  bits : Bits c s.pool.ranges L

theorem Inv0.slotL {c : Config} {uaf : Bool} {s : State} {L F : List Nat} (h : Inv0 c uaf s L F) {p : Nat}
    (hp : p ∈ L) : Slot c s.pool.ranges p := ((h.used p).2 (Or.inl hp)).slot h.ranges

theorem Inv0.slotF {c : Config} {uaf : Bool} {s : State} {L F : List Nat} (h : Inv0 c uaf s L F) {p : Nat}
    (hp : p ∈ F) : Slot c s.pool.ranges p := ((h.used p).2 (Or.inr hp)).slot h.ranges

theorem PoisonByte.col_lt {c : Config} {col o : Nat} (h : PoisonByte c col o) : col < c.nCols := by
  have := h.1; unfold Config.nCols; omega

/-- Replacing memory by one that agrees on everything the invariant reads. -/
theorem Inv.mem {c : Config} {uaf : Bool} {s : State} {L F : List Nat} (h : Inv c uaf s L F) {m' : Mem}
    (hwf : m'.WF) (hsh : Shape c s.pool.ranges m')
    (hnode : ∀ q ∈ F, ∀ j, j < wb →
      m'.read c.pg (q + c.stride * c.flCol + j) = s.mem.read c.pg (q + c.stride * c.flCol + j))
    (hpo : uaf = false → ∀ q ∈ F, ∀ col o, col < c.nCols → o < c.itemLen →
      m'.read c.pg (q + c.stride * col + o) = s.mem.read c.pg (q + c.stride * col + o)) :
    Inv c uaf { s with mem := m' } L F :=
  { wf := hwf, ranges := h.ranges, shape := hsh, mapped := h.mapped, nr := h.nr, maxr := h.maxr
    full := h.full, chain := h.chain.congr hnode, nodup := h.nodup, used := h.used, bits := h.bits
    poison := fun hu v hpv p hp col o hb => by
      rw [← h.poison hu v hpv p hp col o hb]
      exact hpo hu p hp col o hb.col_lt hb.2.1 }

/-- Stores inside a live item keep the invariant. -/
theorem Inv.frameLive {c : Config} (hv : Valid c) {uaf : Bool} {s : State} {L F : List Nat}
    (h : Inv c uaf s L F) {p : Nat} (hp : p ∈ L) {m' : Mem} (hf : Frame c.pg (ItemBytes c p) s.mem m') :
    Inv c uaf { s with mem := m' } L F := by
  have key : ∀ q ∈ F, ∀ col o, col < c.nCols → o < c.itemLen →
      m'.read c.pg (q + c.stride * col + o) = s.mem.read c.pg (q + c.stride * col + o) := by
    intro q hq col o hc ho
    refine keepOther h.ranges h.wf h.shape (h.slotL hp) (h.slotF hq) ?_ hf hc ho
    rintro rfl
    exact (List.nodup_append.1 h.nodup).2.2 q hp q hq rfl
  have := hv.item_ge
  exact h.mem (hf.wf h.wf) (h.shape.frame hf)
    (fun q hq j hj => key q hq _ _ hv.flCol_lt (by omega)) (fun _ => key)

end Verif.Mempool
