import Verif.MempoolAlloc
/-
malloc and free preserve the invariant, with the detailed outcome of each call. Helper lemmas only.
-/
namespace Verif.Mempool
open Verif Verif.Mem

variable [Abi]

/-- Replacing a range structure by one that only differs in its bitmap. -/
theorem Inv0.setBitmap {c : Config} {uaf : Bool} {s : State} {L F : List Nat} (h : Inv0 c uaf s L F)
    {r r' : Range} (hr : r ∈ s.pool.ranges) (hb : r'.base = r.base) (hnu : r'.nextUnused = r.nextUnused)
    (hi : RangeInv c r') :
    Inv0 c uaf { s with pool := { s.pool with ranges := putRange s.pool.ranges r' } } L F := by
  have hm := fun x => mem_putRange (x := x) ⟨r, hr, hb.symm⟩
  refine { wf := h.wf, ranges := h.ranges.put hr hb.symm hi, shape := ?_, mapped := h.mapped
           nr := by dsimp only; rw [length_putRange]; exact h.nr
           maxr := fun h0 => by dsimp only; rw [length_putRange]; exact h.maxr h0
           full := ?_, chain := h.chain, nodup := h.nodup, used := ?_, poison := h.poison }
  · refine ⟨fun x hx => ?_, fun y hy x hx => ?_⟩
    · rcases (hm x).1 hx with e | ⟨hx, _⟩
      · rw [e, hb]; exact h.shape.inside r hr
      · exact h.shape.inside x hx
    · have hall : ∀ r'' ∈ s.pool.ranges, ¬ InRegion c r''.base y := by
        intro r'' hr''
        by_cases e : r''.base = r'.base
        · rw [e]; exact hy r' ((hm r').2 (Or.inl rfl))
        · exact hy r'' ((hm r'').2 (Or.inr ⟨hr'', e⟩))
      rcases (hm x).1 hx with e | ⟨hx, _⟩
      · rw [e, hb]; exact h.shape.outside y hall r hr
      · exact h.shape.outside y hall x hx
  · intro x hx
    have : putRange s.pool.ranges r' = s.pool.ranges.map fun r => if r.base = r'.base then r' else r := rfl
    dsimp only at hx
    rw [this, ← List.map_tail] at hx
    obtain ⟨a, ha, e⟩ := List.mem_map.1 hx
    split at e
    · rename_i hab
      have : a = r := eq_of_base h.ranges.nodup (List.mem_of_mem_tail ha) hr (by rw [hab, hb])
      rw [← e, hnu, ← this]; exact h.full a ha
    · rw [← e]; exact h.full a ha
  · intro p
    rw [← h.used p]
    constructor
    · rintro ⟨x, hx, k, hk, e⟩
      rcases (hm x).1 hx with e' | ⟨hx, _⟩
      · exact ⟨r, hr, k, by rw [e', hnu] at hk; exact hk, by rw [e', hb] at e; exact e⟩
      · exact ⟨x, hx, k, hk, e⟩
    · rintro ⟨x, hx, k, hk, e⟩
      by_cases hxb : x.base = r'.base
      · have : x = r := eq_of_base h.ranges.nodup hx hr (by rw [hxb, hb])
        exact ⟨r', (hm r').2 (Or.inl rfl), k, by rw [hnu, ← this]; exact hk, by rw [hb, ← this]; exact e⟩
      · exact ⟨x, (hm x).2 (Or.inr ⟨hx, hxb⟩), k, hk, e⟩

theorem base_add_item_inj {c : Config} (hv : Valid c) {b k k' : Nat} (h : b + k * c.itemLen = b + k' * c.itemLen) :
    k = k' := Nat.eq_of_mul_eq_mul_right hv.item_pos (by omega)

/-- An item address inside one range is not an item address of another. -/
theorem item_same_range {c : Config} (hv : Valid c) {l : List Range} (hi : RangesInv c l) {r1 r2 : Range} (h1 : r1 ∈ l)
    (h2 : r2 ∈ l) {k1 k2 : Nat} (hk1 : k1 * c.itemLen < r1.nextUnused) (hk2 : k2 * c.itemLen < r2.nextUnused)
    (e : r1.base + k1 * c.itemLen = r2.base + k2 * c.itemLen) : r1 = r2 ∧ k1 = k2 := by
  have hpos : 0 < c.nCols := by
    have := hv.ncpu_pos; have := ncpu_le_nCols c; omega
  have n1 := (hi.each r1 h1).nu
  have n2 := (hi.each r2 h2).nu
  have x1 := col_in (c := c) (base := r1.base) (i := 0) (a := k1 * c.itemLen) hpos (by omega)
  have x2 := col_in (c := c) (base := r2.base) (i := 0) (a := k2 * c.itemLen) hpos (by omega)
  rw [Nat.mul_zero, Nat.add_zero] at x1 x2
  rw [e] at x1
  have hb := region_unique hi h1 h2 x1 x2
  exact ⟨eq_of_base hi.nodup h1 h2 hb, base_add_item_inj hv (by rw [hb] at e; exact e)⟩

/-- `set_alloc_slot` on a slot that is not marked yet. -/
theorem takeSlot_spec {c : Config} (hv : Valid c) {uaf : Bool} {s : State} {L F : List Nat} {r : Range} {k p : Nat}
    (h : Inv0 c uaf s (p :: L) F) (hbits : Bits c s.pool.ranges L) (hr : r ∈ s.pool.ranges)
    (hk : k * c.itemLen < r.nextUnused) (hp : p = r.base + k * c.itemLen) :
    ∃ r' s', takeSlot c s r (k * c.itemLen) p = .ok (.item r' (k * c.itemLen) p, s') ∧
      Inv c uaf s' (p :: L) F ∧ r' ∈ s'.pool.ranges ∧ r'.base = r.base ∧ s'.mem = s.mem ∧
      s'.pool.head = s.pool.head ∧ r'.nextUnused = r.nextUnused ∧
      s'.pool.ranges.map (·.base) = s.pool.ranges.map (·.base) := by
  have hpL : p ∉ L := by
    have := h.nodup
    rw [List.cons_append, List.nodup_cons] at this
    exact fun hh => this.1 (List.mem_append.2 (Or.inl hh))
  unfold takeSlot setAllocSlot
  cases hbm : r.bitmap with
  | none =>
    refine ⟨r, _, rfl, ?_, ?_, rfl, rfl, rfl, rfl, map_base_putRange _ _⟩
    · refine { h.setBitmap hr rfl rfl (h.ranges.each r hr) with bits := ?_ }
      intro x hx bm hb
      dsimp only at hx
      have hrob : c.robust = false := by rw [← (h.ranges.each r hr).bm, hbm]; rfl
      have : RangeInv c x := (h.ranges.put hr rfl (h.ranges.each r hr)).each x hx
      have := this.bm
      rw [hb, hrob] at this
      cases this
    · exact (mem_putRange ⟨r, hr, rfl⟩).2 (Or.inl rfl)
  | some bm =>
    have hnot : bitTest bm k ≠ true := by
      intro hb
      have := ((hbits r hr bm hbm k).1 hb).2
      rw [← hp] at this
      exact hpL this
    dsimp only
    rw [hv.shr, if_neg hnot]
    have hRI : RangeInv c { r with bitmap := some (bitSet bm k) } := by
      have := h.ranges.each r hr
      exact { this with bm := by rw [← this.bm, hbm]; rfl }
    refine ⟨_, _, rfl, ?_, ?_, rfl, rfl, rfl, rfl, map_base_putRange _ _⟩
    · refine { h.setBitmap (r' := { r with bitmap := some (bitSet bm k) }) hr rfl rfl hRI with bits := ?_ }
      intro x hx bm' hb k'
      dsimp only at hx
      rcases (mem_putRange (by exact ⟨r, hr, rfl⟩)).1 hx with rfl | ⟨hx, hne⟩
      · dsimp only at hb ⊢
        cases hb
        rw [bitTest_bitSet, hbits r hr bm hbm k', List.mem_cons]
        constructor
        · rintro (rfl | ⟨a, b⟩)
          · exact ⟨hk, Or.inl hp.symm⟩
          · exact ⟨a, Or.inr b⟩
        · rintro ⟨a, b | b⟩
          · rw [hp] at b
            exact Or.inl (base_add_item_inj hv b)
          · exact Or.inr ⟨a, b⟩
      · rw [hbits x hx bm' hb k', List.mem_cons]
        constructor
        · rintro ⟨a, b⟩; exact ⟨a, Or.inr b⟩
        · rintro ⟨a, b | b⟩
          · exfalso
            have := item_same_range hv h.ranges hx hr a hk (by rw [b, hp])
            exact hne (by rw [this.1])
          · exact ⟨a, b⟩
    · exact (mem_putRange (by exact ⟨r, hr, rfl⟩)).2 (Or.inl rfl)

theorem putRange_head {r r' : Range} {rest : List Range} (hn : ((r :: rest).map (·.base)).Nodup)
    (hb : r'.base = r.base) : putRange (r :: rest) r' = r' :: rest := by
  unfold putRange
  rw [List.map_cons, if_pos hb.symm]
  congr 1
  rw [List.map_cons, List.nodup_cons] at hn
  conv => rhs; rw [← List.map_id rest]
  apply List.map_congr_left
  intro a ha
  rw [if_neg]
  · rfl
  · intro e
    exact hn.1 (by rw [← hb, ← e]; exact List.mem_map_of_mem ha)

/-- Handing out the next never-used slot of the first range. -/
theorem Inv.bump {c : Config} (hv : Valid c) {uaf : Bool} {s : State} {L F : List Nat} (h : Inv c uaf s L F)
    {r : Range} {rest : List Range} (hl : s.pool.ranges = r :: rest) (hroom : r.nextUnused + c.itemLen ≤ c.stride) :
    let r' := { r with nextUnused := r.nextUnused + c.itemLen }
    let s' := { s with pool := { s.pool with ranges := r' :: rest } }
    Inv0 c uaf s' ((r.base + r.nextUnused) :: L) F ∧ Bits c (r' :: rest) L := by
  intro r' s'
  have hr : r ∈ s.pool.ranges := by rw [hl]; exact List.mem_cons_self
  have hput : putRange s.pool.ranges r' = r' :: rest := by
    rw [hl]; exact putRange_head (by rw [← hl]; exact h.ranges.nodup) rfl
  have hm : ∀ x, x ∈ r' :: rest ↔ x = r' ∨ (x ∈ s.pool.ranges ∧ x.base ≠ r'.base) := by
    intro x; rw [← hput]; exact mem_putRange (r' := r') ⟨r, hr, rfl⟩
  have hRr := h.ranges.each r hr
  have hR' : RangeInv c r' := { hRr with nu := hroom, nud := Nat.dvd_add hRr.nud (Nat.dvd_refl _) }
  have hri : RangesInv c (r' :: rest) := by rw [← hput]; exact h.ranges.put hr rfl hR'
  obtain ⟨k, hk⟩ := hRr.nud
  have hk' : r.nextUnused = k * c.itemLen := by rw [hk, Nat.mul_comm]
  have hI := hv.item_pos
  have hp : ∀ q, Used c (r' :: rest) q ↔ q = r.base + r.nextUnused ∨ Used c s.pool.ranges q := by
    intro q
    constructor
    · rintro ⟨x, hx, j, hj, e⟩
      rcases (hm x).1 hx with rfl | ⟨hx, _⟩
      · have hj' : j * c.itemLen < r.nextUnused + c.itemLen := hj
        by_cases hjk : j * c.itemLen < r.nextUnused
        · exact Or.inr ⟨r, hr, j, hjk, e⟩
        · left
          have : j = k := by
            rw [hk'] at hj' hjk
            have h1 : k ≤ j := by
              apply Nat.le_of_mul_le_mul_right (c := c.itemLen) _ hI; omega
            have h2 : j < k + 1 := by
              apply Nat.lt_of_mul_lt_mul_right (a := c.itemLen)
              rw [Nat.add_mul, Nat.one_mul]; exact hj'
            omega
          rw [e, this, hk']
      · exact Or.inr ⟨x, hx, j, hj, e⟩
    · rintro (rfl | ⟨x, hx, j, hj, e⟩)
      · exact ⟨r', List.mem_cons_self, k, by show k * c.itemLen < r.nextUnused + c.itemLen; omega, by rw [hk']⟩
      · by_cases hxb : x.base = r'.base
        · have : x = r := eq_of_base h.ranges.nodup hx hr hxb
          subst this
          exact ⟨r', List.mem_cons_self, j, by show j * c.itemLen < x.nextUnused + c.itemLen; omega, e⟩
        · exact ⟨x, (hm x).2 (Or.inr ⟨hx, hxb⟩), j, hj, e⟩
  have hnew : ¬ Used c s.pool.ranges (r.base + r.nextUnused) := by
    rintro ⟨x, hx, j, hj, e⟩
    have hri' := hri
    by_cases hxb : x.base = r.base
    · have : x = r := eq_of_base h.ranges.nodup hx hr hxb
      subst this
      omega
    · have hx' : x ∈ r' :: rest := (hm x).2 (Or.inr ⟨hx, hxb⟩)
      have := item_same_range hv hri List.mem_cons_self hx' (k1 := k) (k2 := j)
        (by show k * c.itemLen < r.nextUnused + c.itemLen; omega) hj
        (by show r.base + k * c.itemLen = _; rw [← hk', e])
      exact hxb (by rw [← this.1])
  refine ⟨?_, ?_⟩
  · refine { wf := h.wf, ranges := hri, shape := ?_, mapped := h.mapped
             nr := ?_, maxr := ?_, full := ?_, chain := h.chain, nodup := ?_, used := ?_, poison := h.poison }
    · refine ⟨fun x hx => ?_, fun y hy x hx => ?_⟩
      · rcases (hm x).1 hx with rfl | ⟨hx, _⟩
        · exact h.shape.inside r hr
        · exact h.shape.inside x hx
      · have hall : ∀ r'' ∈ s.pool.ranges, ¬ InRegion c r''.base y := by
          intro r'' hr''
          rw [hl] at hr''
          rcases List.mem_cons.1 hr'' with rfl | hr''
          · exact hy r' List.mem_cons_self
          · exact hy r'' (List.mem_cons_of_mem _ hr'')
        rcases (hm x).1 hx with rfl | ⟨hx, _⟩
        · exact h.shape.outside y hall r hr
        · exact h.shape.outside y hall x hx
    · have := h.nr; rw [hl] at this; exact this
    · have := h.maxr; rw [hl] at this; exact this
    · have := h.full; rw [hl] at this; exact this
    · rw [List.cons_append, List.nodup_cons]
      refine ⟨?_, h.nodup⟩
      intro hmem
      exact hnew ((h.used _).2 (List.mem_append.1 hmem))
    · intro q
      show Used c (r' :: rest) q ↔ _
      rw [hp, h.used, List.mem_cons]
      constructor
      · rintro (a | a | a)
        · exact Or.inl (Or.inl a)
        · exact Or.inl (Or.inr a)
        · exact Or.inr a
      · rintro ((a | a) | a)
        · exact Or.inl a
        · exact Or.inr (Or.inl a)
        · exact Or.inr (Or.inr a)
  · intro x hx bm hbm j
    rcases (hm x).1 hx with rfl | ⟨hx, _⟩
    · rw [h.bits r hr bm hbm j]
      constructor
      · rintro ⟨a, b⟩; exact ⟨by show _ < r.nextUnused + c.itemLen; omega, b⟩
      · rintro ⟨a, b⟩
        refine ⟨?_, b⟩
        obtain ⟨y, hy, j', hj', e'⟩ := (h.used _).2 (Or.inl b)
        by_cases hyb : y.base = r.base
        · have : y = r := eq_of_base h.ranges.nodup hy hr hyb
          subst this
          have : j = j' := base_add_item_inj hv e'
          rw [this]; exact hj'
        · exfalso
          have hy' : y ∈ r' :: rest := (hm y).2 (Or.inr ⟨hy, hyb⟩)
          have := item_same_range hv hri List.mem_cons_self hy' (k1 := j) (k2 := j') a hj' e'
          exact hyb (by rw [← this.1])
    · exact h.bits x hx bm hbm j

/-! ### The locked part of malloc -/

/-- Nothing can be handed out without a new range. -/
def NoRoom (c : Config) (l : List Range) : Prop := ∀ r ∈ l, r.nextUnused = c.stride

/-- Detailed outcome of the locked part of malloc. -/
theorem lockedAlloc_spec {c : Config} (hv : Valid c) {uaf : Bool} {s : State} {L F : List Nat}
    (h : Inv c uaf s L F) {env : RangeEnv} (henv : EnvOK c s.pool.ranges s.mem env) :
    (∃ r k s' F', lockedAlloc c env s = .ok (.item r (k * c.itemLen) (r.base + k * c.itemLen), s') ∧
      Inv c uaf s' ((r.base + k * c.itemLen) :: L) F' ∧ r ∈ s'.pool.ranges ∧
      (k * c.itemLen + c.itemLen ≤ c.stride) ∧
      (∀ r' ∈ s.pool.ranges, ∀ x, InRegion c r'.base x → s'.mem.read c.pg x = s.mem.read c.pg x) ∧
      (∀ r' ∈ s.pool.ranges, ∃ r'' ∈ s'.pool.ranges, r''.base = r'.base) ∧
      ((F = (r.base + k * c.itemLen) :: F' ∧ s'.mem = s.mem ∧
          ∃ r0 ∈ s.pool.ranges, r0.base = r.base ∧ checkPoisonItem c r0 (k * c.itemLen) s.mem = true) ∨ F = [] ∧ F' = [])) ∨
    (lockedAlloc c env s = .ok (.null .ENOMEM, s) ∧ F = [] ∧ NoRoom c s.pool.ranges ∧
      (rangeCreate c s.pool s.mem env).2 = none) ∨
    (lockedAlloc c env s = .aborted .poison ∧ uaf = true ∧ c.robust = true ∧
      ∃ r k F', r ∈ s.pool.ranges ∧ F = (r.base + k * c.itemLen) :: F' ∧
        checkPoisonItem c r (k * c.itemLen) s.mem = false) := by
  have hI := hv.item_pos
  cases F with
  | cons p F' =>
    obtain ⟨hhead, hchain⟩ := h.chain
    obtain ⟨r, hr, k, hk, hp⟩ := (h.used p).2 (Or.inr List.mem_cons_self)
    have hR := h.ranges.each r hr
    have hkS : k * c.itemLen + c.itemLen ≤ c.stride := Nat.le_trans (lt_item_of_lt hR.nud hk) hR.nu
    have hpg := hv.pg_pos
    have hpos := hR.pos
    have hne : s.pool.head ≠ 0 := by rw [hhead, hp]; omega
    have hperc : freeListToPercpu c s.pool.head = p := by rw [hhead]; exact toPercpu_toFreeList c p
    have hmod : p % c.stride = k * c.itemLen := by rw [hp]; exact slot_base hv h.ranges hr hkS
    have hbase : p - p % c.stride = r.base := by rw [hmod, hp]; omega
    have hfind : findRange s.pool.ranges r.base = some r := findRange_eq h.ranges.nodup hr
    have hoff : p - r.base = k * c.itemLen := by omega
    have hun : lockedAlloc c env s =
        if !checkPoisonItem c r (k * c.itemLen) s.mem then .aborted .poison
        else takeSlot c { s with pool := { s.pool with head := (s.mem.readWord c.pg s.pool.head).toNat } } r (k * c.itemLen) p := by
      unfold lockedAlloc
      rw [if_pos hne]
      dsimp only
      rw [hperc, hbase, hfind, hoff]
    by_cases hchk : checkPoisonItem c r (k * c.itemLen) s.mem = true
    · left
      rw [hun, hchk]
      have hnd := h.nodup
      have h0 : Inv0 c uaf { s with pool := { s.pool with head := (s.mem.readWord c.pg s.pool.head).toNat } } (p :: L) F' := by
        refine { wf := h.wf, ranges := h.ranges, shape := h.shape, mapped := h.mapped, nr := h.nr, maxr := h.maxr
                 full := h.full, chain := hchain, nodup := ?_, used := ?_, poison := ?_ }
        · exact (List.perm_middle.nodup_iff).1 hnd
        · intro q
          show Used c s.pool.ranges q ↔ _
          rw [h.used q, List.mem_cons, List.mem_cons]
          constructor
          · rintro (a | a | a)
            · exact Or.inl (Or.inr a)
            · exact Or.inl (Or.inl a)
            · exact Or.inr a
          · rintro ((a | a) | a)
            · exact Or.inr (Or.inl a)
            · exact Or.inl a
            · exact Or.inr (Or.inr a)
        · intro hu v hpv q hq; exact h.poison hu v hpv q (List.mem_cons_of_mem _ hq)
      obtain ⟨r', s', e, hinv, hmem, hb', hm', _, _, hbases⟩ := takeSlot_spec hv h0 h.bits hr hk hp
      refine ⟨r', k, s', F', ?_, ?_, hmem, hkS, ?_, ?_, ?_⟩
      · rw [hb', ← hp]; exact e
      · rw [hb', ← hp]; exact hinv
      · intro r'' _ x _; rw [hm']
      · intro r'' hr''
        have : r''.base ∈ s'.pool.ranges.map (·.base) := by
          rw [hbases]; exact List.mem_map_of_mem hr''
        obtain ⟨z, hz, e⟩ := List.mem_map.1 this
        exact ⟨z, hz, e⟩
      · left
        exact ⟨by rw [hb', ← hp], hm', r, hr, hb'.symm, hchk⟩
    · right; right
      have hf : checkPoisonItem c r (k * c.itemLen) s.mem = false := by simpa using hchk
      have hrob : c.robust = true := by
        cases hr' : c.robust with
        | true => rfl
        | false => unfold checkPoisonItem at hf; rw [hr'] at hf; simp at hf
      refine ⟨by rw [hun, hf]; rfl, ?_, hrob, r, k, F', hr, by rw [hp], hf⟩
      cases hu : uaf with
      | true => rfl
      | false =>
        exfalso
        obtain ⟨v, hpv⟩ := Option.isSome_iff_exists.1 (hv.robust_poison hrob)
        apply hchk
        rw [checkPoisonItem_iff hv hrob hpv hR.init_eq]
        intro col o hb
        rw [← hp]
        exact h.poison hu v hpv p List.mem_cons_self col o hb
  | nil =>
    have hhead : s.pool.head = 0 := h.chain
    have hcreate : NoRoom c s.pool.ranges → (lockedAlloc c env s =
        match (rangeCreate c s.pool s.mem env).2 with
        | none => .ok (.null .ENOMEM, s)
        | some (r, m) =>
          let off := r.nextUnused
          let r' := { r with nextUnused := r.nextUnused + c.itemLen }
          takeSlot c { s with mem := m
                              pool := { s.pool with ranges := r' :: s.pool.ranges
                                                    nrRanges := s.pool.nrRanges + 1 } } r' off (r.base + off)) := by
      intro hfull
      unfold lockedAlloc
      rw [if_neg (by rw [hhead]; simp)]
      cases hl : s.pool.ranges with
      | nil => rfl
      | cons r rest =>
        have : r.nextUnused = c.stride := hfull r (by rw [hl]; exact List.mem_cons_self)
        dsimp only
        rw [if_pos (by omega)]
        rfl
    have hroomless : NoRoom c s.pool.ranges ∨
        ∃ r rest, s.pool.ranges = r :: rest ∧ r.nextUnused + c.itemLen ≤ c.stride := by
      cases hl : s.pool.ranges with
      | nil => left; intro r hr; cases hr
      | cons r rest =>
        by_cases hroom : r.nextUnused + c.itemLen ≤ c.stride
        · exact Or.inr ⟨r, rest, rfl, hroom⟩
        · left
          have hR := h.ranges.each r (by rw [hl]; exact List.mem_cons_self)
          have hfull := h.full
          rw [hl] at hfull
          intro x hx
          rcases List.mem_cons.1 hx with rfl | hx
          · by_cases hlt : x.nextUnused < c.stride
            · exfalso
              obtain ⟨w, hw⟩ := hR.nud
              have := lt_item_of_lt hv.item_dvd (k := w) (by rw [Nat.mul_comm, ← hw]; exact hlt)
              rw [Nat.mul_comm, ← hw] at this
              exact hroom this
            · have := hR.nu; omega
          · exact hfull x hx
    rcases hroomless with hfull | ⟨r, rest, hl, hroom⟩
    · rw [hcreate hfull]
      cases hrc : (rangeCreate c s.pool s.mem env).2 with
      | none => right; left; exact ⟨rfl, rfl, hfull, rfl⟩
      | some rm =>
        obtain ⟨r, m⟩ := rm
        left
        obtain ⟨hnew, hmax⟩ := rangeCreate_spec hv h.wf h.shape henv hrc
        have hadd := h.addRange hv hnew hmax hfull
        have hroom : r.nextUnused + c.itemLen ≤ c.stride := by rw [hnew.nu]; have := hv.item_le; omega
        obtain ⟨h0, hbits⟩ := hadd.bump hv rfl hroom
        dsimp only at h0
        obtain ⟨r', s', e, hinv, hmem, hb', hm', _, _, hbases⟩ :=
          takeSlot_spec hv (k := 0) (r := { r with nextUnused := r.nextUnused + c.itemLen }) h0 hbits
            List.mem_cons_self (by dsimp only; omega) (by rw [hnew.nu, Nat.zero_mul])
        rw [hnew.nu, Nat.zero_mul] at e
        have hb'' : r'.base = r.base := hb'
        refine ⟨r', 0, s', [], ?_, ?_, hmem, by have := hv.item_le; omega, ?_, ?_, Or.inr ⟨rfl, rfl⟩⟩
        · dsimp only
          rw [hnew.nu, hb'', Nat.zero_mul]; exact e
        · rw [hb'', Nat.zero_mul]
          rw [hnew.nu] at hinv; exact hinv
        · intro r'' hr'' x hx
          rw [hm']
          exact hnew.keep r'' hr'' x hx
        · intro r'' hr''
          have : r''.base ∈ s'.pool.ranges.map (·.base) := by
            rw [hbases]; exact List.mem_map_of_mem (List.mem_cons_of_mem _ hr'')
          obtain ⟨z, hz, e⟩ := List.mem_map.1 this
          exact ⟨z, hz, e⟩
    · left
      have hr : r ∈ s.pool.ranges := by rw [hl]; exact List.mem_cons_self
      obtain ⟨k, hk⟩ := (h.ranges.each r hr).nud
      rw [Nat.mul_comm] at hk
      obtain ⟨h0, hbits⟩ := h.bump hv hl hroom
      dsimp only at h0
      obtain ⟨r', s', e, hinv, hmem, hb', hm', _, _, hbases⟩ :=
        takeSlot_spec hv (k := k) (r := { r with nextUnused := r.nextUnused + c.itemLen }) h0 hbits
          List.mem_cons_self (by dsimp only; omega) (by rw [hk])
      have hb'' : r'.base = r.base := hb'
      have hput : putRange s.pool.ranges { r with nextUnused := r.nextUnused + c.itemLen } =
          { r with nextUnused := r.nextUnused + c.itemLen } :: rest := by
        rw [hl]; exact putRange_head (by rw [← hl]; exact h.ranges.nodup) rfl
      refine ⟨r', k, s', [], ?_, ?_, hmem, by omega, ?_, ?_, Or.inr ⟨rfl, rfl⟩⟩
      · unfold lockedAlloc
        rw [if_neg (by rw [hhead]; simp), hl]
        dsimp only
        rw [if_neg (by omega)]
        dsimp only
        rw [← hl, hput, hb'', ← hk]
        rw [← hk] at e; exact e
      · rw [hb'', ← hk]; exact hinv
      · intro r'' _ x _; rw [hm']
      · intro r'' hr''
        have : r''.base ∈ s'.pool.ranges.map (·.base) := by
          rw [hbases, List.map_cons]
          rw [hl] at hr''
          rcases List.mem_cons.1 hr'' with rfl | hr''
          · exact List.mem_cons_self
          · exact List.mem_cons_of_mem _ (List.mem_map_of_mem hr'')
        obtain ⟨z, hz, e⟩ := List.mem_map.1 this
        exact ⟨z, hz, e⟩

end Verif.Mempool
