import Verif.MempoolReach
/-
Counting items, and the checks made by destroy. Helper lemmas only.
-/
namespace Verif.Mempool
open Verif Verif.Mem

variable [Abi]

theorem RangesInv.tail {c : Config} {r : Range} {l : List Range} (h : RangesInv c (r :: l)) : RangesInv c l := by
  have hn := h.nodup
  rw [List.map_cons, List.nodup_cons] at hn
  exact ⟨fun x hx => h.each x (List.mem_cons_of_mem _ hx), hn.2,
    fun x hx y hy => h.apart x (List.mem_cons_of_mem _ hx) y (List.mem_cons_of_mem _ hy)⟩

/-- All used slots, as a list. -/
def usedList (c : Config) (l : List Range) : List Nat :=
  l.flatMap fun r => (List.range (r.nextUnused / c.itemLen)).map fun k => r.base + k * c.itemLen

theorem lt_div_iff {c : Config} (hv : Valid c) {n k : Nat} (hd : c.itemLen ∣ n) :
    k < n / c.itemLen ↔ k * c.itemLen < n := by
  obtain ⟨w, rfl⟩ := hd
  rw [Nat.mul_div_cancel_left _ hv.item_pos, Nat.mul_comm c.itemLen w, Nat.mul_lt_mul_right hv.item_pos]

theorem mem_usedList {c : Config} (hv : Valid c) {l : List Range} (hi : RangesInv c l) {p : Nat} :
    p ∈ usedList c l ↔ Used c l p := by
  unfold usedList Used
  rw [List.mem_flatMap]
  constructor
  · rintro ⟨r, hr, hp⟩
    obtain ⟨k, hk, e⟩ := List.mem_map.1 hp
    exact ⟨r, hr, k, (lt_div_iff hv (hi.each r hr).nud).1 (List.mem_range.1 hk), e.symm⟩
  · rintro ⟨r, hr, k, hk, e⟩
    exact ⟨r, hr, List.mem_map.2 ⟨k, List.mem_range.2 ((lt_div_iff hv (hi.each r hr).nud).2 hk), e.symm⟩⟩

omit [Abi] in
theorem nodup_map_of_inj {α β : Type} {f : α → β} (hf : ∀ a b, f a = f b → a = b) {l : List α} (h : l.Nodup) :
    (l.map f).Nodup := by
  induction l with
  | nil => exact List.nodup_nil
  | cons a l ih =>
    rw [List.nodup_cons] at h
    rw [List.map_cons, List.nodup_cons]
    refine ⟨?_, ih h.2⟩
    intro hm
    obtain ⟨b, hb, e⟩ := List.mem_map.1 hm
    rw [hf _ _ e] at hb
    exact h.1 hb

theorem nodup_usedList {c : Config} (hv : Valid c) {l : List Range} (hi : RangesInv c l) :
    (usedList c l).Nodup := by
  induction l with
  | nil => exact List.nodup_nil
  | cons r l ih =>
    have heq : usedList c (r :: l) =
        ((List.range (r.nextUnused / c.itemLen)).map fun k => r.base + k * c.itemLen) ++ usedList c l := by
      unfold usedList; rw [List.flatMap_cons]
    rw [heq, List.nodup_append]
    refine ⟨nodup_map_of_inj (fun a b e => base_add_item_inj hv e) List.nodup_range, ih hi.tail, ?_⟩
    rintro a ha b hb rfl
    obtain ⟨k, hk, e⟩ := List.mem_map.1 ha
    obtain ⟨r', hr', k', hk', e'⟩ := (mem_usedList hv hi.tail).1 hb
    have hk := (lt_div_iff hv (hi.each r List.mem_cons_self).nud).1 (List.mem_range.1 hk)
    have := item_same_range hv hi List.mem_cons_self (List.mem_cons_of_mem _ hr') hk hk' (by rw [e, e'])
    have hn := hi.nodup
    rw [List.map_cons, List.nodup_cons] at hn
    apply hn.1
    rw [this.1]
    exact List.mem_map_of_mem hr'

/-- Live and free items together are exactly the used slots, counted. -/
theorem count_used {c : Config} (hv : Valid c) {uaf : Bool} {s : State} {L F : List Nat} (h : Inv0 c uaf s L F) :
    L.length + F.length = (s.pool.ranges.map fun r => r.nextUnused / c.itemLen).sum := by
  have hp : (L ++ F).Perm (usedList c s.pool.ranges) := by
    rw [List.perm_ext_iff_of_nodup h.nodup (nodup_usedList hv h.ranges)]
    intro a
    rw [mem_usedList hv h.ranges, h.used, List.mem_append]
  have := hp.length_eq
  rw [List.length_append] at this
  rw [this]
  unfold usedList
  rw [List.length_flatMap]
  simp only [List.length_map, List.length_range]

/-! ### check_free_list -/

theorem addrInPool_of_used {c : Config} {pool : Pool} {p : Nat} (h : Used c pool.ranges p) : addrInPool pool p = true := by
  obtain ⟨r, hr, k, hk, e⟩ := h
  unfold addrInPool
  rw [List.any_eq_true]
  refine ⟨r, hr, ?_⟩
  simp only [Bool.and_eq_true, decide_eq_true_eq]
  omega

theorem traverse_chain {c : Config} (hv : Valid c) {pool : Pool} {m : Mem} (hi : RangesInv c pool.ranges) {F : List Nat}
    {left node : Nat} (hc : Chain c m node F) (hu : ∀ p ∈ F, Used c pool.ranges p) (hl : F.length ≤ left) :
    traverse c pool m left node = .ok F.length := by
  induction F generalizing left node with
  | nil =>
    have : node = 0 := hc
    unfold traverse
    rw [if_pos this]; rfl
  | cons p F ih =>
    obtain ⟨e, hc⟩ := hc
    obtain ⟨r, hr, k, hk, hp⟩ := hu p List.mem_cons_self
    have := (hi.each r hr).pos
    have := hv.pg_pos
    have hne : node ≠ 0 := by rw [e, hp]; omega
    unfold traverse
    rw [if_neg hne]
    cases left with
    | zero => rw [List.length_cons] at hl; omega
    | succ left =>
      dsimp only
      have hperc : freeListToPercpu c node = p := by rw [e]; exact toPercpu_toFreeList c p
      rw [hperc, if_pos (addrInPool_of_used (hu p List.mem_cons_self)),
        ih hc (fun q hq => hu q (List.mem_cons_of_mem _ hq)) (by rw [List.length_cons] at hl; omega)]
      rfl

theorem sum_split {c : Config} (hv : Valid c) {l : List Range} (hi : ∀ r ∈ l, RangeInv c r) :
    (l.map fun _ => c.stride >>> c.order).sum =
      (l.map fun r => (c.stride - r.nextUnused) >>> c.order).sum + (l.map fun r => r.nextUnused / c.itemLen).sum := by
  induction l with
  | nil => rfl
  | cons r l ih =>
    simp only [List.map_cons, List.sum_cons]
    rw [ih fun r hr => hi r (List.mem_cons_of_mem _ hr)]
    have hR := hi r List.mem_cons_self
    have h1 : c.stride >>> c.order = (c.stride - r.nextUnused) >>> c.order + r.nextUnused / c.itemLen := by
      rw [Nat.shiftRight_eq_div_pow, Nat.shiftRight_eq_div_pow]
      show c.stride / c.itemLen = (c.stride - r.nextUnused) / c.itemLen + r.nextUnused / c.itemLen
      obtain ⟨w, hw⟩ := hR.nud
      obtain ⟨z, hz⟩ := hv.item_dvd
      have hle := hR.nu
      have hI := hv.item_pos
      rw [hw, hz] at hle ⊢
      have hwz : w ≤ z := Nat.le_of_mul_le_mul_left hle hI
      rw [← Nat.mul_sub, Nat.mul_div_cancel_left _ hI, Nat.mul_div_cancel_left _ hI, Nat.mul_div_cancel_left _ hI]
      omega
    omega

/-- `check_free_list` passes exactly when nothing is live. -/
theorem checkFreeList_spec {c : Config} (hv : Valid c) {uaf : Bool} {s : State} {L F : List Nat} (h : Inv c uaf s L F) :
    checkFreeList c s = if L = [] then .ok () else .aborted .freeListCount := by
  have hcount := count_used hv h.toInv0
  have hsplit := sum_split hv h.ranges.each
  have htr := traverse_chain hv h.ranges h.chain (fun p hp => (h.used p).2 (Or.inr hp))
    (left := (s.pool.ranges.map fun _ => c.stride >>> c.order).sum -
      (s.pool.ranges.map fun r => (c.stride - r.nextUnused) >>> c.order).sum) (by omega)
  unfold checkFreeList
  dsimp only
  rw [htr]
  dsimp only
  cases L with
  | nil =>
    rw [List.length_nil] at hcount
    rw [if_neg (by omega), if_pos rfl]
  | cons p L =>
    rw [List.length_cons] at hcount
    rw [if_pos (by omega), if_neg (by simp)]

/-! ### check_pool_poison -/

theorem checkRangePoison_iff {c : Config} {r : Range} {m : Mem} {n off : Nat} :
    checkRangePoison c r m n off = true ↔ ∀ k, k < n → checkPoisonItem c r (off + k * c.itemLen) m = true := by
  induction n generalizing off with
  | zero => simp [checkRangePoison]
  | succ n ih =>
    unfold checkRangePoison
    rw [Bool.and_eq_true, ih]
    constructor
    · rintro ⟨h0, h⟩ k hk
      cases k with
      | zero => simpa using h0
      | succ k =>
        have := h k (by omega)
        rw [show off + c.itemLen + k * c.itemLen = off + (k + 1) * c.itemLen by rw [Nat.add_mul]; omega] at this
        exact this
    · intro h
      refine ⟨by simpa using h 0 (by omega), fun k hk => ?_⟩
      have := h (k + 1) (by omega)
      rw [show off + (k + 1) * c.itemLen = off + c.itemLen + k * c.itemLen by rw [Nat.add_mul]; omega] at this
      exact this

theorem ceil_div {c : Config} (hv : Valid c) {n : Nat} (hd : c.itemLen ∣ n) :
    (n + c.itemLen - 1) / c.itemLen = n / c.itemLen := by
  obtain ⟨w, rfl⟩ := hd
  have := hv.item_pos
  rw [Nat.mul_div_cancel_left _ this, show c.itemLen * w + c.itemLen - 1 = c.itemLen * w + (c.itemLen - 1) by omega,
    Nat.mul_add_div this, Nat.div_eq_of_lt (by omega), Nat.add_zero]

/-- `check_pool_poison` passes exactly when every byte of every handed-out slot holds poison. -/
theorem checkPoolPoison_iff {c : Config} (hv : Valid c) {uaf : Bool} {s : State} {L F : List Nat} (h : Inv c uaf s L F)
    (hrob : c.robust = true) {v : Word} (hpv : c.poison = some v) :
    checkPoolPoison c s = true ↔ ∀ p, p ∈ L ∨ p ∈ F → ∀ col o, PoisonByte c col o →
      s.mem.read c.pg (p + c.stride * col + o) = pat v o := by
  unfold checkPoolPoison
  rw [List.all_eq_true]
  constructor
  · intro hall p hp col o hb
    obtain ⟨r, hr, k, hk, e⟩ := (h.used p).2 hp
    have hR := h.ranges.each r hr
    have := checkRangePoison_iff.1 (hall r hr) k (by rw [ceil_div hv hR.nud, lt_div_iff hv hR.nud]; exact hk)
    rw [Nat.zero_add, checkPoisonItem_iff hv hrob hpv hR.init_eq] at this
    rw [e]
    exact this col o hb
  · intro hall r hr
    have hR := h.ranges.each r hr
    rw [checkRangePoison_iff]
    intro k hk
    rw [ceil_div hv hR.nud, lt_div_iff hv hR.nud] at hk
    rw [Nat.zero_add, checkPoisonItem_iff hv hrob hpv hR.init_eq]
    exact hall _ ((h.used _).1 ⟨r, hr, k, hk, rfl⟩)

/-! ### bitmap leaks and unmapping -/

theorem hweight_zero : Bits.hweight 0#(8 * wb) = 0 := by
  unfold Bits.hweight
  simp

omit [Abi] in
theorem filter_length_pos {α : Type} {f : α → Bool} {l : List α} {a : α} (ha : a ∈ l) (h : f a = true) :
    0 < (l.filter f).length := List.length_pos_of_mem (List.mem_filter.2 ⟨ha, h⟩)

theorem totalLeaks_eq_zero_iff {c : Config} {bm : Nat → Word} :
    totalLeaks c bm = 0 ↔ ∀ k, k < 8 * wb * bitmapCount c → bitTest bm k = false := by
  unfold totalLeaks
  constructor
  · intro h k hk
    cases hb : bitTest bm k with
    | false => rfl
    | true =>
      exfalso
      rw [bitTest_eq] at hb
      have hpos : 0 < Bits.hweight (bm (k / (8 * wb))) := by
        unfold Bits.hweight
        exact filter_length_pos (a := k % (8 * wb)) (List.mem_range.2 (mod_bits k)) hb
      have hmem : Bits.hweight (bm (k / (8 * wb))) ∈ (List.range (bitmapCount c)).map fun k => Bits.hweight (bm k) :=
        List.mem_map.2 ⟨k / (8 * wb), List.mem_range.2 (Nat.div_lt_of_lt_mul hk), rfl⟩
      have := List.sum_eq_zero_iff_forall_eq_nat.1 h _ hmem
      omega
  · intro h
    apply List.sum_eq_zero_iff_forall_eq_nat.2
    intro x hx
    obtain ⟨k, hk, rfl⟩ := List.mem_map.1 hx
    have hk := List.mem_range.1 hk
    have : bm k = 0#(8 * wb) := by
      apply BitVec.eq_of_getLsbD_eq
      intro i hi
      have hlt : 8 * wb * k + i < 8 * wb * bitmapCount c := by
        calc 8 * wb * k + i < 8 * wb * (k + 1) := by rw [Nat.mul_succ (8 * wb) k]; omega
          _ ≤ _ := Nat.mul_le_mul_left _ hk
      have := h (8 * wb * k + i) hlt
      rw [bitTest_eq, Nat.mul_add_div (by omega), Nat.div_eq_of_lt hi, Nat.add_zero, Nat.mul_add_mod,
        Nat.mod_eq_of_lt hi] at this
      rw [this]; simp
    rw [this]; exact hweight_zero

theorem not_leaked {c : Config} {uaf : Bool} {s : State} {F : List Nat} (h : Inv c uaf s [] F) :
    ∀ r ∈ s.pool.ranges, leaked c r = false := by
  intro r hr
  unfold leaked
  cases hb : r.bitmap with
  | none => rfl
  | some bm =>
    have : totalLeaks c bm = 0 := by
      rw [totalLeaks_eq_zero_iff]
      intro k _
      cases hk : bitTest bm k with
      | false => rfl
      | true => cases ((h.bits r hr bm hb k).1 hk).2
    simp [this]

theorem not_leaked_nonrobust {c : Config} {uaf : Bool} {s : State} {L F : List Nat} (h : Inv c uaf s L F)
    (hr : c.robust = false) : ∀ r ∈ s.pool.ranges, leaked c r = false := by
  intro r hr'
  have := (h.ranges.each r hr').bm
  unfold leaked
  cases hb : r.bitmap with
  | none => rfl
  | some bm => rw [hb, hr] at this; cases this

theorem destroyLoop_ok {c : Config} {acc : Bool} {ok : Nat → Bool} (hok : ∀ k, ok k = true) {l : List Range}
    (hl : ∀ r ∈ l, leaked c r = false) {k : Nat} {done : List (Nat × Nat)} :
    destroyLoop c acc ok l k done = .ok ⟨0, done ++ l.map (rangeUnmapArgs c acc), [], true⟩ := by
  induction l generalizing k done with
  | nil => unfold destroyLoop; simp
  | cons r l ih =>
    unfold destroyLoop
    rw [hl r List.mem_cons_self, hok k]
    simp only [Bool.false_eq_true, if_false, if_true]
    rw [ih fun r hr => hl r (List.mem_cons_of_mem _ hr)]
    simp

theorem mappings_ok {c : Config} {uaf : Bool} {s : State} {L F : List Nat} (h : Inv c uaf s L F) :
    mappingsAccessible c s.pool = true := by
  unfold mappingsAccessible
  cases hc : c.cow with
  | false => simp
  | true =>
    simp only [Bool.not_true, Bool.false_eq_true, if_false]
    cases hl : s.pool.ranges with
    | nil => rfl
    | cons r l =>
      have := (h.ranges.each r (by rw [hl]; exact List.mem_cons_self)).can hc
      simp [this]

/-- Outcome of destroy on an accessible pool. -/
theorem destroy_spec {c : Config} (hv : Valid c) {uaf : Bool} {s : State} {L F : List Nat} (h : Inv c uaf s L F)
    (ok : Nat → Bool) :
    destroy c ok s =
      if c.robust = true ∧ L ≠ [] then .aborted .freeListCount
      else if c.robust = true ∧ checkPoolPoison c s = false then .aborted .poison
      else destroyLoop c true ok s.pool.ranges 0 [] := by
  unfold destroy
  dsimp only
  rw [mappings_ok h, h.mapped, checkFreeList_spec hv h]
  cases hr : c.robust with
  | false => simp
  | true =>
    by_cases hL : L = []
    · subst hL
      cases hp : checkPoolPoison c s <;> simp
    · simp [hL]

end Verif.Mempool
