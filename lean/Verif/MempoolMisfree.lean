import Verif.MempoolRetry
/-
C74: freeing an address of a robust pool that is not the start of a live item.
-/
namespace Verif.Mempool
open Verif Verif.Mem

variable [Abi]

theorem slot_mod {c : Config} (hv : Valid c) {l : List Range} (hi : RangesInv c l) {r : Range} (hr : r ∈ l) {k o : Nat}
    (hk : k * c.itemLen + c.itemLen ≤ c.stride) (ho : o < c.itemLen) :
    (r.base + k * c.itemLen + o) % c.stride = k * c.itemLen + o := by
  obtain ⟨w, hw⟩ := (hi.each r hr).al
  rw [hw, Nat.add_assoc, Nat.mul_add_mod]
  exact Nat.mod_eq_of_lt (by omega)

theorem slot_shr {c : Config} {k o : Nat} (ho : o < c.itemLen) : (k * c.itemLen + o) >>> c.order = k := by
  unfold Config.itemLen at *
  rw [Nat.shiftRight_eq_div_pow, Nat.mul_comm, Nat.mul_add_div (Nat.two_pow_pos _), Nat.div_eq_of_lt ho, Nat.add_zero]

/-- What `librseq_mempool_percpu_free` does with any address inside a range of a robust pool. -/
theorem robust_free_eq {c : Config} {uaf : Bool} {g : Ghost} (h : Hist c uaf g) (hrob : c.robust = true) {r : Range}
    (hr : r ∈ g.s.pool.ranges) {k o : Nat} (hk : k * c.itemLen + c.itemLen ≤ c.stride) (ho : o < c.itemLen) :
    ∃ bm, r.bitmap = some bm ∧ (bitTest bm k = true ↔ r.base + k * c.itemLen ∈ g.live) ∧
    free c (r.base + k * c.itemLen + o) g.s =
      if bitTest bm k then
        .ok { g.s with
          mem := (match c.poison with
              | some v => poisonItem c r (k * c.itemLen + o) v g.s.mem
              | none => g.s.mem).writeWord c.pg (percpuToFreeList c (r.base + k * c.itemLen + o)) (BitVec.ofNat (8 * wb) g.s.pool.head)
          pool := { g.s.pool with
            ranges := putRange g.s.pool.ranges { r with bitmap := some (bitClear bm k) }
            head := percpuToFreeList c (r.base + k * c.itemLen + o) } }
      else .aborted .doubleFree := by
  have hi := h.inv
  have hv := h.valid
  have hR := hi.ranges.each r hr
  have hb : r.bitmap.isSome = true := by rw [hR.bm, hrob]
  obtain ⟨bm, hbm⟩ := Option.isSome_iff_exists.1 hb
  refine ⟨bm, hbm, ?_, ?_⟩
  · rw [hi.bits r hr bm hbm k]
    refine ⟨And.right, fun hl => ⟨?_, hl⟩⟩
    obtain ⟨r2, hr2, k2, hk2, e⟩ := (hi.used _).2 (Or.inl hl)
    have hk2S : k2 * c.itemLen + c.itemLen ≤ c.stride :=
      Nat.le_trans (lt_item_of_lt (hi.ranges.each r2 hr2).nud hk2) (hi.ranges.each r2 hr2).nu
    have m1 := slot_mod hv hi.ranges hr hk hv.item_pos
    have m2 := slot_mod hv hi.ranges hr2 hk2S hv.item_pos
    simp only [Nat.add_zero] at m1 m2
    rw [← e, m1] at m2
    rw [← m2] at hk2 e
    have := eq_of_base hi.ranges.nodup hr hr2 (by omega)
    rw [this]
    exact hk2
  · have hmod := slot_mod hv hi.ranges hr hk ho
    have hbase : r.base + k * c.itemLen + o - (r.base + k * c.itemLen + o) % c.stride = r.base := by rw [hmod]; omega
    unfold free
    dsimp only
    rw [hbase, findRange_eq hi.ranges.nodup hr]
    dsimp only
    rw [hmod]
    unfold clearAllocSlot
    rw [hbm]
    dsimp only
    rw [slot_shr ho]
    by_cases ht : bitTest bm k = true
    · rw [if_pos ht, if_pos ht]
      rfl
    · rw [if_neg ht, if_neg ht]

/-- C74: freeing any address of a range is reported exactly if the item it lies in is not live. Missing for the full
property: an address inside a live item, but not its start, is accepted, see `interior_free_corrupts`. -/
theorem robust_free_detects_partial {c : Config} {uaf : Bool} {g : Ghost} (h : Hist c uaf g) (hrob : c.robust = true)
    (r : Range) (hr : r ∈ g.s.pool.ranges) (a : Nat) (ha : r.base ≤ a) (ha2 : a < r.base + c.stride) :
    (free c a g.s = .aborted .doubleFree ↔ a - a % c.itemLen ∉ g.live) ∧ free c a g.s ≠ .ub := by
  have hv := h.valid
  have hpos := hv.item_pos
  have hR := h.inv.ranges.each r hr
  -- a = base + k * itemLen + o
  obtain ⟨w, hw⟩ : c.itemLen ∣ r.base := Nat.dvd_trans hv.item_dvd hR.al
  obtain ⟨n, hn⟩ := hv.item_dvd
  have hdm := Nat.div_add_mod (a - r.base) c.itemLen
  have ho := Nat.mod_lt (a - r.base) hpos
  generalize hk : (a - r.base) / c.itemLen = k at hdm
  generalize hoo : (a - r.base) % c.itemLen = o at hdm ho
  have hkn : k < n := by
    rw [← hk]
    exact Nat.div_lt_of_lt_mul (by rw [← hn]; omega)
  have hkS : k * c.itemLen + c.itemLen ≤ c.stride := by
    have := Nat.mul_le_mul_left c.itemLen (show k + 1 ≤ n from hkn)
    rw [Nat.mul_add, Nat.mul_one, ← hn] at this
    rw [Nat.mul_comm k]
    exact this
  have hak : a = r.base + k * c.itemLen + o := by rw [Nat.mul_comm k]; omega
  have hmod : a % c.itemLen = o := by
    rw [hak, hw, Nat.add_assoc, Nat.mul_add_mod, Nat.mul_comm k, Nat.mul_add_mod, Nat.mod_eq_of_lt ho]
  have hstart : a - a % c.itemLen = r.base + k * c.itemLen := by rw [hmod, hak]; omega
  obtain ⟨bm, _, hb, e⟩ := robust_free_eq h hrob hr hkS ho
  rw [hstart, ← hb, hak, e]
  by_cases ht : bitTest bm k = true
  · rw [if_pos ht]
    exact ⟨⟨(fun hx => by cases hx), (fun hx => absurd ht hx)⟩, (fun hx => by cases hx)⟩
  · rw [if_neg ht]
    exact ⟨⟨(fun _ => ht), (fun _ => rfl)⟩, (fun hx => by cases hx)⟩

/-- C74, negative side (F15): freeing an address inside a live item of a robust pool, but not its start, is accepted,
overwrites the first bytes of the item that follows on every CPU, and makes the next allocation return that address:
a block that overlaps the live item that follows. -/
theorem interior_free_corrupts {c : Config} {g : Ghost} (h : Hist c false g) (hrob : c.robust = true) (hcow : c.cow = false)
    (p o : Nat) (hp : p ∈ g.live) (hq : p + c.itemLen ∈ g.live) (ho : o < c.itemLen) :
    ∃ s' v, free c (p + o) g.s = .ok s' ∧ c.poison = some v ∧
      (∀ cpu j, cpu < c.ncpu → j < o → s'.mem.read c.pg (cpuAddr c (p + c.itemLen) cpu + j) = pat v (c.itemLen - o + j)) ∧
      ∀ env, ∃ s'', malloc c (.plain 0) env s' = .ok (.ptr (p + o), s'') := by
  have hi := h.inv
  have hv := h.valid
  have hpos := hv.item_pos
  obtain ⟨r, hr, k, hk, e⟩ := (hi.used p).2 (Or.inl hp)
  have hR := hi.ranges.each r hr
  have hkS : k * c.itemLen + c.itemLen ≤ c.stride := Nat.le_trans (lt_item_of_lt hR.nud hk) hR.nu
  -- the item that follows is in the same range
  have hkS2 : k * c.itemLen + 2 * c.itemLen ≤ c.stride := by
    obtain ⟨r2, hr2, k2, hk2, e2⟩ := hi.slotL hq
    by_cases hb : r2.base = r.base
    · rw [hb, e] at e2
      have : k2 * c.itemLen = k * c.itemLen + c.itemLen := by omega
      omega
    · have hap := hi.ranges.apart r2 hr2 r hr hb
      unfold Apart at hap
      have h1 : c.stride ≤ rangeLen c := by
        rw [rangeLen_eq]
        have := Nat.mul_le_mul_left c.stride (show 1 ≤ c.nCols by have := hv.ncpu_pos; have := ncpu_le_nCols c; omega)
        omega
      have := hv.pg_pos
      omega
  obtain ⟨v, hpv⟩ := Option.isSome_iff_exists.1 (hv.robust_poison hrob)
  obtain ⟨bm, hbm, hb, efree⟩ := robust_free_eq h hrob hr hkS ho
  rw [if_pos (hb.2 (by rw [← e]; exact hp)), hpv, ← e] at efree
  dsimp only at efree
  -- the poison
  let m1 := poisonItem c r (k * c.itemLen + o) v g.s.mem
  let node := percpuToFreeList c (p + o)
  let m2 := m1.writeWord c.pg node (BitVec.ofNat (8 * wb) g.s.pool.head)
  have hinit : r.init = none := by rw [hR.init_eq, hcow]; rfl
  have hres : ∀ col off, col < c.nCols → off < c.stride →
      g.s.mem.resolve c.pg (r.base + c.stride * col + off) = r.base + c.stride * col + off := by
    intro col off h1 h2
    rcases hi.shape.inside r hr col off h1 h2 with x | ⟨x, _⟩
    · exact x
    · rw [hcow] at x; cases x
  have hle := ncpu_le_nCols c
  have hm1 : m1 = forCpus (fun i m =>
      let p := percpuPtr c r i (k * c.itemLen + o)
      if cmpItem c.pg m p c.itemLen v = 0#_ then m else poisonBlock c.pg m p c.itemLen v) c.ncpu g.s.mem := by
    show poisonItem c r (k * c.itemLen + o) v g.s.mem = _
    unfold poisonItem initPtr
    rw [hinit]
    rfl
  have hbody := poisonBody hv.pg_pos hv.item_wb r (k * c.itemLen + o) v
  have hsep : ∀ i k' j j', i ≠ k' → j < c.stride → j' < c.stride → c.stride * i + j ≠ c.stride * k' + j' := by
    intro i k' j j' hne hj hj' heq
    have h1 : (c.stride * i + j) / c.stride = i := by
      rw [Nat.mul_add_div hv.stride_pos, Nat.div_eq_of_lt hj, Nat.add_zero]
    have h2 : (c.stride * k' + j') / c.stride = k' := by
      rw [Nat.mul_add_div hv.stride_pos, Nat.div_eq_of_lt hj', Nat.add_zero]
    rw [heq, h2] at h1
    exact hne h1.symm
  have hholds : ∀ i, i < c.ncpu → Holds c.pg m1 (p + o + c.stride * i) (pat v) c.itemLen := by
    intro i hi'
    have := forCpus_holds hbody (N := c.ncpu) (m := g.s.mem) hi.wf ?_ i hi'
    · rw [percpuPtr_eq, show r.base + (k * c.itemLen + o) = p + o by omega, ← hm1] at this
      exact this
    · intro i k' hi hk' hne j hj
      rw [percpuPtr_eq, percpuPtr_eq]
      have key : ¬ (r.base + (k * c.itemLen + o) + c.stride * k' ≤ r.base + (k * c.itemLen + o) + c.stride * i + j ∧
          r.base + (k * c.itemLen + o) + c.stride * i + j < r.base + (k * c.itemLen + o) + c.stride * k' + c.itemLen) := by
        rintro ⟨h1, h2⟩
        exact hsep i k' (k * c.itemLen + o + j) (k * c.itemLen + o + (r.base + (k * c.itemLen + o) + c.stride * i + j -
          (r.base + (k * c.itemLen + o) + c.stride * k'))) hne (by omega) (by omega) (by omega)
      refine ⟨key, ?_⟩
      have := hres i (k * c.itemLen + o + j) (by omega) (by omega)
      rw [show r.base + c.stride * i + (k * c.itemLen + o + j) = r.base + (k * c.itemLen + o) + c.stride * i + j by omega] at this
      rw [this]
      exact key
  have hf1 : Mem.Frame c.pg (fun x => ∃ i, i < c.ncpu ∧ percpuPtr c r i (k * c.itemLen + o) ≤ x ∧
      x < percpuPtr c r i (k * c.itemLen + o) + c.itemLen) g.s.mem m1 := by
    rw [hm1]; exact forCpus_frame hbody c.ncpu g.s.mem
  have hwf1 := hf1.wf hi.wf
  have hfl : c.flCol = c.ncpu := by unfold Config.flCol; simp [hcow, hrob]
  have hnode : node = p + o + c.stride * c.ncpu := by
    show percpuToFreeList c (p + o) = _
    rw [toFreeList_eq, hfl]
  have hf2 : Mem.Frame c.pg (fun x => node ≤ x ∧ x < node + wb) m1 m2 := Frame.writeWord hv.pg_pos
  have h8 := hv.item_ge
  have hholds2 : ∀ i, i < c.ncpu → Holds c.pg m2 (p + o + c.stride * i) (pat v) c.itemLen := by
    intro i hi'
    refine (hholds i hi').frame hf2 hwf1 ?_
    intro j hj
    have key : ¬ (node ≤ p + o + c.stride * i + j ∧ p + o + c.stride * i + j < node + wb) := by
      rw [hnode]
      rintro ⟨h1, h2⟩
      exact hsep i c.ncpu (k * c.itemLen + o + j) (k * c.itemLen + o + (p + o + c.stride * i + j - (p + o + c.stride * c.ncpu)))
        (by omega) (by omega) (by omega) (by omega)
    refine ⟨key, ?_⟩
    have hr1 := hres i (k * c.itemLen + o + j) (by omega) (by omega)
    rw [show r.base + c.stride * i + (k * c.itemLen + o + j) = p + o + c.stride * i + j by omega] at hr1
    rcases hf1.res (p + o + c.stride * i + j) with x | x
    · rw [x, hr1]; exact key
    · rw [x]; exact key
  refine ⟨_, v, efree, hpv, ?_, ?_⟩
  · intro cpu j hcpu hj
    have := hholds2 cpu hcpu (c.itemLen - o + j) (by omega)
    rw [show p + o + c.stride * cpu + (c.itemLen - o + j) = cpuAddr c (p + c.itemLen) cpu + j by unfold cpuAddr; omega] at this
    exact this
  · intro env
    let r' : Range := { r with bitmap := some (bitClear bm k) }
    have hmod : (p + o) % c.stride = k * c.itemLen + o := by rw [e]; exact slot_mod hv hi.ranges hr hkS ho
    have hbase : p + o - (p + o) % c.stride = r.base := by rw [hmod]; omega
    have hfind : findRange (putRange g.s.pool.ranges r') r.base = some r' := by
      refine findRange_eq (r := r') ?_ ((mem_putRange (r' := r') (x := r') ⟨r, hr, rfl⟩).2 (Or.inl rfl))
      rw [map_base_putRange]; exact hi.ranges.nodup
    have hne : node ≠ 0 := by
      rw [hnode]
      have := hR.pos
      have := hv.pg_pos
      omega
    have hto : freeListToPercpu c node = p + o := by
      show freeListToPercpu c (percpuToFreeList c (p + o)) = _
      rw [toFreeList_eq, toPercpu_toFreeList]
    have hchk : checkPoisonItem c r' (k * c.itemLen + o) m2 = true := by
      rw [checkPoisonItem_iff hv hrob hpv (r := r') hR.init_eq]
      intro col o' hb'
      have hcol := hb'.1
      rw [hcow] at hcol
      have := hholds2 col (by simpa using hcol) o' hb'.2.1
      rw [show p + o + c.stride * col + o' = r'.base + (k * c.itemLen + o) + c.stride * col + o' by
        show _ = r.base + _ + _ + _; omega] at this
      exact this
    have hclr : ¬ bitTest (bitClear bm k) k = true := by
      rw [bitTest_bitClear]
      exact fun hx => hx.1 rfl
    unfold malloc
    rw [if_neg (by show ¬ (0 > c.itemLen); omega)]
    unfold lockedAlloc
    dsimp only
    rw [if_pos hne, hto, hbase, hfind]
    dsimp only
    rw [show p + o - r.base = k * c.itemLen + o by omega, hchk]
    unfold takeSlot setAllocSlot
    dsimp only [Bool.not_true]
    rw [slot_shr ho, show r'.bitmap = some (bitClear bm k) from rfl]
    dsimp only
    rw [if_neg hclr]
    exact ⟨_, rfl⟩

end Verif.Mempool

namespace Verif.Mempool
open Verif
attribute [local instance] le64

/-- A robust pool with items of 1024 bytes. -/
def exFour : Config :=
  { pg := 4096, order := 10, stride := 4096, ncpu := 2, cow := false, robust := true, poison := some 7#64
    maxRanges := 0, initSet := false, global := false }

theorem exFour_valid : Valid exFour :=
  ⟨by decide, by decide, ⟨12, by decide⟩, ⟨12, by decide⟩, by decide, by decide, fun _ => rfl, fun h => (by cases h)⟩

/-- A full pool of four items in a row: the hypotheses of `interior_free_corrupts` and `robust_free_detects_partial`. -/
theorem ex_four : ∃ g p r, Hist exFour false g ∧ r ∈ g.s.pool.ranges ∧ p = r.base ∧ p ∈ g.live ∧ p + exFour.itemLen ∈ g.live := by
  obtain ⟨g, hg, hl, hf, ht, hle, hi⟩ := fill_reach exFour_valid false (n := 1) (by decide) (Or.inl rfl) (by decide) 4 (by decide)
  have hcount := count_used exFour_valid hi.toInv0
  rw [hl, hf] at hcount
  match hr : g.s.pool.ranges with
  | [] => rw [hr] at hcount; simp at hcount
  | a :: b :: l => rw [hr] at hle; simp at hle
  | [r] =>
    have hrm : r ∈ g.s.pool.ranges := by rw [hr]; exact List.mem_singleton.2 rfl
    have hnu := (hi.ranges.each r hrm).nu
    rw [hr] at hcount
    simp at hcount
    have h4 : r.nextUnused = 4096 := by
      have h1 : (4 : Nat) = r.nextUnused / 1024 := hcount
      have h2 : r.nextUnused ≤ 4096 := hnu
      omega
    have hin : ∀ k, k < 4 → r.base + k * 1024 ∈ g.live := by
      intro k hk
      have : Used exFour g.s.pool.ranges (r.base + k * 1024) := ⟨r, hrm, k, by rw [h4]; show k * 1024 < 4096; omega, rfl⟩
      rcases (hi.used _).1 this with h | h
      · exact h
      · rw [hf] at h; cases h
    refine ⟨g, r.base, r, ⟨exFour_valid, hg, fun h => by cases h⟩, List.mem_singleton.2 rfl |> fun h => by rw [hr]; exact h, rfl, ?_, ?_⟩
    · exact hin 0 (by decide)
    · exact hin 1 (by decide)

end Verif.Mempool
