import Verif.MempoolCapacity
/-
Property theorems for the pool allocator (C01-C16, C18-C21). Specification vocabulary: MempoolSpec.
-/
namespace Verif.Mempool
open Verif Verif.Mem

variable [Abi]

/-- `g` is reachable by API calls on a pool with a validated configuration. With `uaf = true` clients may also
store into freed items; this is considered for pools whose free list is not inside per-CPU item memory
(robust or COW_INIT). -/
structure Hist (c : Config) (uaf : Bool) (g : Ghost) : Prop where
  valid : Valid c
  reach : Reach c uaf g
  mode : uaf = true → c.robust = true ∨ c.cow = true

theorem Hist.inv {c : Config} {uaf : Bool} {g : Ghost} (h : Hist c uaf g) : Inv c uaf g.s g.live g.freed :=
  reach_inv h.valid h.mode h.reach

/-! ### C01, C02, C19: addresses -/

/-- C01: live items never overlap, on any pair of CPUs; nor do two CPUs' instances of one item. -/
theorem live_disjoint {c : Config} {uaf : Bool} {g : Ghost} (h : Hist c uaf g) :
    g.live.Nodup ∧
    ∀ p ∈ g.live, ∀ q ∈ g.live, ∀ i j, i < c.ncpu → j < c.ncpu → (p, i) ≠ (q, j) →
      ∀ o o', o < c.itemLen → o' < c.itemLen → cpuAddr c p i + o ≠ cpuAddr c q j + o' := by
  have hi := h.inv
  refine ⟨(List.nodup_append.1 hi.nodup).1, ?_⟩
  intro p hp q hq i j hi' hj hne o o' ho ho'
  have hn := ncpu_le_nCols c
  unfold cpuAddr
  by_cases hpq : p = q
  · subst hpq
    exact slot_col_disj (hi.slotL hp) (fun e => hne (by rw [e])) ho ho'
  · exact slot_disj hi.ranges (hi.slotL hp) (hi.slotL hq) hpq (by omega) (by omega) ho ho'

/-- C02: a live item is aligned and lies, on every CPU, inside the memory the pool mapped for that CPU:
above the header, below the init area. -/
theorem live_inside {c : Config} {uaf : Bool} {g : Ghost} (h : Hist c uaf g) (p : Nat) (hp : p ∈ g.live) :
    c.itemLen ∣ p ∧
    ∃ r ∈ g.s.pool.ranges, r.header + 2 * c.pg = r.base ∧ (∀ i, r.init = some i → i = r.base + c.stride * c.ncpu) ∧
      r.mmapAddr + r.mmapLen = r.base + rangeLen c ∧
      ∀ cpu, cpu < c.ncpu →
        r.base + c.stride * cpu ≤ cpuAddr c p cpu ∧ cpuAddr c p cpu + c.itemLen ≤ r.base + c.stride * (cpu + 1) ∧
        r.base + c.stride * (cpu + 1) ≤ r.base + c.stride * c.ncpu ∧
        r.base + c.stride * (cpu + 1) ≤ r.mmapAddr + r.mmapLen := by
  have hi := h.inv
  obtain ⟨r, hr, k, hk, e⟩ := hi.slotL hp
  have hR := hi.ranges.each r hr
  refine ⟨?_, r, hr, ?_, ?_, ?_, ?_⟩
  · rw [e]
    exact Nat.dvd_add (Nat.dvd_trans h.valid.item_dvd hR.al) (Nat.dvd_mul_left _ _)
  · rw [hR.hdr]; have := hR.pos; omega
  · intro i hi
    rw [hR.init_eq] at hi
    split at hi
    · cases hi; rfl
    · cases hi
  · rw [hR.maddr, hR.mlen]; have := hR.pos; omega
  · intro cpu hcpu
    have h1 := Nat.mul_le_mul_left c.stride (show cpu + 1 ≤ c.ncpu from hcpu)
    have h2 := Nat.mul_le_mul_left c.stride (ncpu_le_nCols c)
    have h3 := rangeLen_eq c
    have h4 := hR.pos
    rw [hR.maddr, hR.mlen]
    unfold cpuAddr
    rw [Nat.mul_add, Nat.mul_one] at *
    omega

/-- C19: distinct (item, CPU, byte) triples have distinct addresses (also for freed items); every address stays
inside the range; item address and free-list node address determine each other, and the node does not leave
the range either. -/
theorem addressing_injective {c : Config} {uaf : Bool} {g : Ghost} (h : Hist c uaf g)
    (p q : Nat) (hp : p ∈ g.live ∨ p ∈ g.freed) (hq : q ∈ g.live ∨ q ∈ g.freed) :
    (∀ i j o o', i < c.ncpu → j < c.ncpu → o < c.itemLen → o' < c.itemLen →
      cpuAddr c p i + o = cpuAddr c q j + o' → p = q ∧ i = j ∧ o = o') ∧
    (∃ r ∈ g.s.pool.ranges, (∀ i o, i < c.ncpu → o < c.itemLen → InRegion c r.base (cpuAddr c p i + o)) ∧
      ∀ o, o < wb → InRegion c r.base (percpuToFreeList c p + o)) ∧
    freeListToPercpu c (percpuToFreeList c p) = p ∧
    (percpuToFreeList c p = percpuToFreeList c q → p = q) := by
  have hi := h.inv
  have hn := ncpu_le_nCols c
  have h8 := h.valid.item_ge
  have sp : Slot c g.s.pool.ranges p := hp.elim hi.slotL hi.slotF
  have sq : Slot c g.s.pool.ranges q := hq.elim hi.slotL hi.slotF
  refine ⟨?_, ?_, by rw [toFreeList_eq, toPercpu_toFreeList], ?_⟩
  · intro i j o o' hi' hj ho ho' e
    unfold cpuAddr at e
    by_cases hpq : p = q
    · subst hpq
      by_cases hij : i = j
      · subst hij; exact ⟨rfl, rfl, by omega⟩
      · exact absurd e (slot_col_disj sp hij ho ho')
    · exact absurd e (slot_disj hi.ranges sp sq hpq (by omega) (by omega) ho ho')
  · obtain ⟨r, hr, k, hk, e⟩ := sp
    refine ⟨r, hr, ?_, ?_⟩
    · intro i o hi' ho
      have := col_in (c := c) (base := r.base) (i := i) (a := k * c.itemLen + o) (by omega) (by omega)
      unfold cpuAddr
      rw [e, show r.base + k * c.itemLen + c.stride * i + o = r.base + c.stride * i + (k * c.itemLen + o) by omega]
      exact this
    · intro o ho
      have := col_in (c := c) (base := r.base) (a := k * c.itemLen + o) h.valid.flCol_lt (by omega)
      rw [toFreeList_eq, e,
        show r.base + k * c.itemLen + c.stride * c.flCol + o = r.base + c.stride * c.flCol + (k * c.itemLen + o) by omega]
      exact this
  · intro e
    rw [toFreeList_eq, toFreeList_eq] at e
    omega

/-! ### C03, C04: content of new items -/

/-- C03: zmalloc returns an item that reads zero on every CPU. -/
theorem zmalloc_zero {c : Config} {uaf : Bool} {g : Ghost} (h : Hist c uaf g) (env : RangeEnv)
    (henv : EnvOK c g.s.pool.ranges g.s.mem env) (p : Nat) (s' : State)
    (hm : malloc c .zero env g.s = .ok (.ptr p, s')) (cpu o : Nat) (hcpu : cpu < c.ncpu) (ho : o < c.itemLen) :
    s'.mem.read c.pg (cpuAddr c p cpu + o) = 0#8 := by
  rcases malloc_spec h.valid h.inv henv .zero with ⟨_, e⟩ | ⟨_, ⟨r, k, s1, F', _, e, hi, _, hr, _, _, _, _⟩ | ⟨e, _⟩ | ⟨e, _⟩⟩
  · rw [e] at hm; cases hm
  · rw [e] at hm
    cases hm
    have hslot := hi.slotL (p := r.base + k * c.itemLen) List.mem_cons_self
    exact (zeroItem_spec h.valid hi.wf hi.shape hslot (hi.ranges.each r hr).init_eq).2 cpu hcpu o ho
  · rw [e] at hm; cases hm
  · rw [e] at hm; cases hm

/-- C04: malloc_init returns an item whose first `len` bytes read as the given bytes on every CPU. -/
theorem malloc_init_content {c : Config} {uaf : Bool} {g : Ghost} (h : Hist c uaf g) (env : RangeEnv)
    (henv : EnvOK c g.s.pool.ranges g.s.mem env) (f : Nat → Byte) (len p : Nat) (s' : State)
    (hm : malloc c (.init f len) env g.s = .ok (.ptr p, s')) (cpu o : Nat) (hcpu : cpu < c.ncpu) (ho : o < len) :
    s'.mem.read c.pg (cpuAddr c p cpu + o) = f o := by
  rcases malloc_spec h.valid h.inv henv (.init f len) with ⟨_, e⟩ | ⟨hlen, ⟨r, k, s1, F', _, e, hi, _, hr, _, _, _, _⟩ | ⟨e, _⟩ | ⟨e, _⟩⟩
  · rw [e] at hm; cases hm
  · rw [e] at hm
    cases hm
    have hslot := hi.slotL (p := r.base + k * c.itemLen) List.mem_cons_self
    exact (initItem_spec h.valid hi.wf hi.shape hslot (hi.ranges.each r hr).init_eq hlen).2 cpu hcpu o ho
  · rw [e] at hm; cases hm
  · rw [e] at hm; cases hm

/-! ### C05, C06: frame -/

/-- C05: no allocation (successful or not, any fill) changes any live item. -/
theorem malloc_keeps_live {c : Config} {uaf : Bool} {g : Ghost} (h : Hist c uaf g) (env : RangeEnv)
    (henv : EnvOK c g.s.pool.ranges g.s.mem env) (fill : Fill) (ret : Ret) (s' : State)
    (hm : malloc c fill env g.s = .ok (ret, s')) (q : Nat) (hq : q ∈ g.live)
    (cpu o : Nat) (hcpu : cpu < c.ncpu) (ho : o < c.itemLen) :
    s'.mem.read c.pg (cpuAddr c q cpu + o) = g.s.mem.read c.pg (cpuAddr c q cpu + o) := by
  have hn := ncpu_le_nCols c
  rcases malloc_spec h.valid h.inv henv fill with ⟨_, e⟩ | ⟨_, ⟨r, k, s1, F', _, e, hi, _, hr, hf, hkeep, _, _⟩ | ⟨e, _⟩ | ⟨e, _⟩⟩
  · rw [e] at hm; cases hm; rfl
  · rw [e] at hm
    cases hm
    have hne : q ≠ r.base + k * c.itemLen := by
      rintro rfl
      have := hi.nodup
      rw [List.cons_append, List.nodup_cons] at this
      exact this.1 (List.mem_append_left _ hq)
    have h1 := keepOther hi.ranges hi.wf hi.shape (hi.slotL List.mem_cons_self) (hi.slotL (List.mem_cons_of_mem _ hq)) hne hf
      (col := cpu) (o := o) (by omega) ho
    obtain ⟨r', hr', k', hk', eq⟩ := h.inv.slotL hq
    have h2 := hkeep r' hr' (cpuAddr c q cpu + o) (by
      have := col_in (c := c) (base := r'.base) (i := cpu) (a := k' * c.itemLen + o) (by omega) (by omega)
      unfold cpuAddr
      rw [eq, show r'.base + k' * c.itemLen + c.stride * cpu + o = r'.base + c.stride * cpu + (k' * c.itemLen + o) by omega]
      exact this)
    rw [← h2]
    exact h1
  · rw [e] at hm; cases hm; rfl
  · rw [e] at hm; cases hm

/-- C05: freeing one item changes no other live item. -/
theorem free_keeps_live {c : Config} {uaf : Bool} {g : Ghost} (h : Hist c uaf g) (p : Nat) (hp : p ∈ g.live) :
    ∃ s', free c p g.s = .ok s' ∧ ∀ q ∈ g.live, q ≠ p → ∀ cpu o, cpu < c.ncpu → o < c.itemLen →
      s'.mem.read c.pg (cpuAddr c q cpu + o) = g.s.mem.read c.pg (cpuAddr c q cpu + o) := by
  have hn := ncpu_le_nCols c
  obtain ⟨s', e, _, hf, _⟩ := free_spec h.valid h.inv hp
  refine ⟨s', e, fun q hq hne cpu o hcpu ho => ?_⟩
  exact keepOther h.inv.ranges h.inv.wf h.inv.shape (h.inv.slotL hp) (h.inv.slotL hq) hne hf (by omega) ho

/-- C06: a store to a live item on one CPU is visible there and changes no other byte of pool memory: no other
CPU's instance, no other item, not the init values. -/
theorem store_isolated {c : Config} {uaf : Bool} {g : Ghost} (h : Hist c uaf g) (p cpu o : Nat) (hp : p ∈ g.live)
    (hcpu : cpu < c.ncpu) (ho : o < c.itemLen) (b : Byte) :
    (store c (cpuAddr c p cpu + o) b g.s).mem.read c.pg (cpuAddr c p cpu + o) = b ∧
    ∀ r ∈ g.s.pool.ranges, ∀ x, InRegion c r.base x → x ≠ cpuAddr c p cpu + o →
      (store c (cpuAddr c p cpu + o) b g.s).mem.read c.pg x = g.s.mem.read c.pg x := by
  have hi := h.inv
  have hn := ncpu_le_nCols c
  refine ⟨read_write_self _ _ _ _, ?_⟩
  intro r hr x hx hne
  refine read_write_frame h.valid.pg_pos hi.wf hne ?_
  obtain ⟨col, off, hc, hoff, rfl⟩ := region_col h.valid hx
  rcases hi.shape.inside r hr col off hc hoff with e | ⟨hcow, _, e⟩
  · rw [e]; exact hne
  · rw [e]
    intro heq
    obtain ⟨r', hr', k, hk, e'⟩ := hi.slotL hp
    unfold cpuAddr at heq
    have h1 := col_in (c := c) (base := r.base) (i := c.ncpu) (a := off) (initCol_lt hcow) hoff
    have h2 := col_in (c := c) (base := r'.base) (i := cpu) (a := k * c.itemLen + o) (by omega) (by omega)
    rw [heq, e', show r'.base + k * c.itemLen + c.stride * cpu + o = r'.base + c.stride * cpu + (k * c.itemLen + o) by omega] at h1
    have hb := region_unique hi.ranges hr hr' h1 h2
    rw [e', ← hb] at heq
    have := mul_add_inj (S := c.stride) (i := c.ncpu) (j := cpu) (a := off) (b := k * c.itemLen + o) hoff (by omega) (by omega)
    omega

/-! ### C07-C09: failure and capacity -/

/-- C07: an allocation with an acceptable length fails exactly when no freed item is left, every slot of every
range is live, and no range can be added; then errno is ENOMEM and nothing changed. -/
theorem malloc_fails_iff {c : Config} {g : Ghost} (h : Hist c false g) (env : RangeEnv)
    (henv : EnvOK c g.s.pool.ranges g.s.mem env) (fill : Fill) (hlen : fill.len ≤ c.itemLen) :
    ((∃ e s', malloc c fill env g.s = .ok (.null e, s')) ↔
      g.freed = [] ∧ g.live.length = g.s.pool.ranges.length * itemsPerRange c ∧
      ((c.maxRanges ≠ 0 ∧ c.maxRanges ≤ g.s.pool.ranges.length) ∨ Refused c env)) ∧
    (∀ e s', malloc c fill env g.s = .ok (.null e, s') → e = .ENOMEM ∧ s' = g.s) := by
  have hi := h.inv
  rcases malloc_spec h.valid hi henv fill with ⟨hl, e⟩ | ⟨_, ⟨r, k, s1, F', hla, e, hi1, _, hr, _, _, _, hF⟩ | ⟨e, hF, hnr, hrc⟩ | ⟨e, hu, _⟩⟩
  · omega
  · rw [e]
    refine ⟨⟨(fun ⟨e, s', hh⟩ => by cases hh), ?_⟩, fun e s' hh => by cases hh⟩
    rintro ⟨hfr, hcnt, hno⟩
    exfalso
    -- a new slot was handed out of a full pool
    rcases hF with ⟨hF, _⟩ | ⟨_, hF'⟩
    · rw [hfr] at hF; cases hF
    · have hle := count_le h.valid hi1.toInv0
      rw [List.length_cons] at hle
      rcases lockedAlloc_shape hla with ⟨_, e2⟩ | ⟨r1, m1, hrc, _, _⟩
      · have := congrArg List.length e2
        simp at this
        rw [this] at hle
        omega
      · rw [← hi.nr] at hno
        have := (rangeCreate_none_iff (c := c) (pool := g.s.pool) (m := g.s.mem) (env := env)).2 hno
        rw [this] at hrc
        cases hrc
  · rw [e]
    refine ⟨⟨fun _ => ⟨hF, ?_, ?_⟩, fun _ => ⟨_, _, rfl⟩⟩, fun e s' hh => by cases hh; exact ⟨rfl, rfl⟩⟩
    · rw [hF] at hi
      exact noRoom_count h.valid hi.toInv0 hnr
    · rw [rangeCreate_none_iff, hi.nr] at hrc
      exact hrc
  · cases hu

/-- C07, second part: while a freed item exists the most recently freed one is returned. -/
theorem malloc_reuses_freed {c : Config} {g : Ghost} (h : Hist c false g) (env : RangeEnv)
    (henv : EnvOK c g.s.pool.ranges g.s.mem env) (fill : Fill) (hlen : fill.len ≤ c.itemLen) (p : Nat) (rest : List Nat)
    (hf : g.freed = p :: rest) : ∃ s', malloc c fill env g.s = .ok (.ptr p, s') := by
  rcases malloc_spec h.valid h.inv henv fill with ⟨hl, e⟩ | ⟨_, ⟨r, k, s1, F', _, e, _, _, _, _, _, _, hF⟩ | ⟨e, hF, _⟩ | ⟨e, hu, _⟩⟩
  · omega
  · rcases hF with ⟨hF, _⟩ | ⟨hF, _⟩
    · rw [hf] at hF
      have := List.head_eq_of_cons_eq hF
      rw [this]
      exact ⟨_, e⟩
    · rw [hf] at hF; cases hF
  · rw [hf] at hF; cases hF
  · cases hu

/-- C08: max_nr_ranges bounds ranges and live items. -/
theorem capacity_bound {c : Config} {uaf : Bool} {g : Ghost} (h : Hist c uaf g) (hmax : c.maxRanges ≠ 0) :
    g.s.pool.ranges.length ≤ c.maxRanges ∧ g.live.length ≤ c.maxRanges * itemsPerRange c := by
  have hr := h.inv.maxr hmax
  have hc := count_le h.valid h.inv.toInv0
  have := Nat.mul_le_mul_right (itemsPerRange c) hr
  exact ⟨hr, by omega⟩

/-- C08: the bound is reached when the system never refuses memory (and the address space is large enough). -/
theorem capacity_reached {c : Config} (hv : Valid c) (hmax : c.maxRanges ≠ 0)
    (hspace : 2 * c.stride + c.maxRanges * (rangeLen c + 2 * c.stride) ≤ 2 ^ (8 * wb)) :
    ∃ g, Hist c false g ∧ g.live.length = c.maxRanges * itemsPerRange c := by
  obtain ⟨g, hg, hl, _⟩ := fill_reach hv false (n := c.maxRanges) (by omega) (Or.inr (Nat.le_refl _)) hspace
    (c.maxRanges * itemsPerRange c) (Nat.le_refl _)
  exact ⟨g, ⟨hv, hg, fun h => by cases h⟩, hl⟩

/-- C08: without a limit any number of items can be live, as far as the address space allows. -/
theorem capacity_unlimited {c : Config} (hv : Valid c) (hmax : c.maxRanges = 0) (n : Nat) (hn : 1 ≤ n)
    (hspace : 2 * c.stride + n * (rangeLen c + 2 * c.stride) ≤ 2 ^ (8 * wb)) :
    ∃ g, Hist c false g ∧ g.live.length = n * itemsPerRange c := by
  obtain ⟨g, hg, hl, _⟩ := fill_reach hv false hn (Or.inl hmax) hspace (n * itemsPerRange c) (Nat.le_refl _)
  exact ⟨g, ⟨hv, hg, fun h => by cases h⟩, hl⟩

/-- C09: EINVAL exactly for an oversized init length, and then nothing changed. -/
theorem einval_iff {c : Config} {uaf : Bool} {g : Ghost} (h : Hist c uaf g) (env : RangeEnv)
    (henv : EnvOK c g.s.pool.ranges g.s.mem env) (fill : Fill) :
    ((∃ s', malloc c fill env g.s = .ok (.null .EINVAL, s')) ↔ c.itemLen < fill.len) ∧
    (∀ s', malloc c fill env g.s = .ok (.null .EINVAL, s') → s' = g.s) := by
  rcases malloc_spec h.valid h.inv henv fill with ⟨hl, e⟩ | ⟨hl, ⟨r, k, s1, F', _, e, _⟩ | ⟨e, _⟩ | ⟨e, _⟩⟩
  · rw [e]
    exact ⟨⟨fun _ => hl, fun _ => ⟨_, rfl⟩⟩, fun s' hh => by cases hh; rfl⟩
  all_goals
    rw [e]
    exact ⟨⟨(fun ⟨s', hh⟩ => by cases hh), fun hh => by omega⟩, fun s' hh => by cases hh⟩

/-! ### C10-C14: robust pools -/

/-- C10: freeing an item that is not allocated aborts. -/
theorem double_free_aborts {c : Config} {uaf : Bool} {g : Ghost} (h : Hist c uaf g) (hrob : c.robust = true)
    (p : Nat) (hp : p ∈ g.freed) : free c p g.s = .aborted .doubleFree := by
  have hi := h.inv
  obtain ⟨r, hr, k, hk, e⟩ := (hi.used p).2 (Or.inr hp)
  have hR := hi.ranges.each r hr
  have hkS : k * c.itemLen + c.itemLen ≤ c.stride := Nat.le_trans (lt_item_of_lt hR.nud hk) hR.nu
  have hmod : p % c.stride = k * c.itemLen := by rw [e]; exact slot_base h.valid hi.ranges hr hkS
  have hbase : p - p % c.stride = r.base := by rw [hmod, e]; omega
  have hfind : findRange g.s.pool.ranges r.base = some r := findRange_eq hi.ranges.nodup hr
  have hbm := hR.bm
  rw [hrob] at hbm
  obtain ⟨bm, hbm⟩ := Option.isSome_iff_exists.1 hbm
  have hbit : bitTest bm k = false := by
    cases hb : bitTest bm k with
    | false => rfl
    | true =>
      have := ((hi.bits r hr bm hbm k).1 hb).2
      rw [← e] at this
      exact absurd rfl ((List.nodup_append.1 hi.nodup).2.2 p this p hp)
  unfold free
  dsimp only
  rw [hbase, hfind]
  dsimp only
  unfold clearAllocSlot
  rw [hbm, hmod, h.valid.shr]
  simp [hbit]

/-- C11: destroying a robust pool with live items aborts. -/
theorem destroy_leak_aborts {c : Config} {uaf : Bool} {g : Ghost} (h : Hist c uaf g) (hrob : c.robust = true)
    (hlive : g.live ≠ []) (ok : Nat → Bool) : ∃ w, destroy c ok g.s = .aborted w := by
  rw [destroy_spec h.valid h.inv, if_pos ⟨hrob, hlive⟩]
  exact ⟨_, rfl⟩

/-- C12: a corrupted freed item is never returned; the allocation that would return it aborts; so does destroy. -/
theorem use_after_free_detected {c : Config} {uaf : Bool} {g : Ghost} (h : Hist c uaf g) (hrob : c.robust = true)
    (v : Word) (hpv : c.poison = some v) (p : Nat) (hp : p ∈ g.freed)
    (cpu o : Nat) (hcpu : cpu < c.ncpu) (ho : o < c.itemLen)
    (hbad : g.s.mem.read c.pg (cpuAddr c p cpu + o) ≠ wordByte v (o % wb)) :
    (∀ fill env s', EnvOK c g.s.pool.ranges g.s.mem env → malloc c fill env g.s ≠ .ok (.ptr p, s')) ∧
    (∀ fill env rest, EnvOK c g.s.pool.ranges g.s.mem env → fill.len ≤ c.itemLen → g.freed = p :: rest →
      malloc c fill env g.s = .aborted .poison) ∧
    (∀ ok, ∃ w, destroy c ok g.s = .aborted w) := by
  have hi := h.inv
  have hpb : PoisonByte c cpu o := ⟨by omega, ho, Or.inl hrob⟩
  have hmal : ∀ fill env s', EnvOK c g.s.pool.ranges g.s.mem env → malloc c fill env g.s ≠ .ok (.ptr p, s') := by
    intro fill env s' henv hm
    rcases malloc_spec h.valid hi henv fill with ⟨_, e⟩ | ⟨_, ⟨r, k, s1, F', _, e, hi1, _, _, _, _, _, hF⟩ | ⟨e, _⟩ | ⟨e, _⟩⟩
    · rw [e] at hm; cases hm
    · rw [e] at hm
      cases hm
      rcases hF with ⟨_, _, r0, hr0, hb, hchk⟩ | ⟨hF, _⟩
      · rw [checkPoisonItem_iff h.valid hrob hpv (hi.ranges.each r0 hr0).init_eq] at hchk
        apply hbad
        have := hchk cpu o hpb
        rw [hb] at this
        exact this
      · rw [hF] at hp; cases hp
    · rw [e] at hm; cases hm
    · rw [e] at hm; cases hm
  refine ⟨hmal, ?_, ?_⟩
  · intro fill env rest henv hlen hfr
    rcases malloc_spec h.valid hi henv fill with ⟨hl, _⟩ | ⟨_, ⟨r, k, s1, F', _, e, _, _, _, _, _, _, hF⟩ | ⟨_, hF, _⟩ | ⟨e, _⟩⟩
    · omega
    · rcases hF with ⟨hF, _⟩ | ⟨hF, _⟩
      · rw [hfr] at hF
        have := List.head_eq_of_cons_eq hF
        rw [← this] at e
        exact absurd e (hmal fill env _ henv)
      · rw [hF] at hp; cases hp
    · rw [hF] at hp; cases hp
    · exact e
  · intro ok
    rw [destroy_spec h.valid hi]
    by_cases hl : g.live = []
    · rw [if_neg (fun hh => hh.2 hl), if_pos]
      · exact ⟨_, rfl⟩
      · refine ⟨hrob, ?_⟩
        cases hc : checkPoolPoison c g.s with
        | false => rfl
        | true => exact absurd ((checkPoolPoison_iff h.valid hi hrob hpv).1 hc p (Or.inr hp) cpu o hpb) hbad
    · rw [if_pos ⟨hrob, hl⟩]
      exact ⟨_, rfl⟩

/-- C13: a correct client never makes the pool abort: every malloc returns, every free of a live item succeeds,
and destroy succeeds when nothing is live. (Holds for non-robust pools too.) -/
theorem no_false_alarm {c : Config} {g : Ghost} (h : Hist c false g) :
    (∀ fill env, EnvOK c g.s.pool.ranges g.s.mem env → ∃ ret s', malloc c fill env g.s = .ok (ret, s')) ∧
    (∀ p ∈ g.live, ∃ s', free c p g.s = .ok s') ∧
    (g.live = [] → ∀ ok, ∃ res, destroy c ok g.s = .ok res) := by
  have hi := h.inv
  refine ⟨?_, ?_, ?_⟩
  · intro fill env henv
    rcases malloc_spec h.valid hi henv fill with ⟨_, e⟩ | ⟨_, ⟨r, k, s1, F', _, e, _⟩ | ⟨e, _⟩ | ⟨e, hu, _⟩⟩
    · exact ⟨_, _, e⟩
    · exact ⟨_, _, e⟩
    · exact ⟨_, _, e⟩
    · cases hu
  · intro p hp
    obtain ⟨s', e, _⟩ := free_spec h.valid hi hp
    exact ⟨s', e⟩
  · intro hl ok
    rw [destroy_spec h.valid hi, if_neg (fun hh => hh.2 hl), if_neg]
    · rw [hl] at hi
      have hnl := not_leaked hi
      generalize g.s.pool.ranges = l at hnl
      have : ∀ l : List Range, (∀ r ∈ l, leaked c r = false) → ∀ k done, ∃ res, destroyLoop c true ok l k done = .ok res := by
        intro l
        induction l with
        | nil => intro _ k done; exact ⟨_, rfl⟩
        | cons r l ih =>
          intro hl k done
          unfold destroyLoop
          rw [hl r List.mem_cons_self]
          simp only [Bool.false_eq_true, if_false]
          split
          · exact ih (fun x hx => hl x (List.mem_cons_of_mem _ hx)) _ _
          · exact ⟨_, rfl⟩
      exact this l hnl 0 []
    · rintro ⟨hrob, hp⟩
      obtain ⟨v, hpv⟩ := Option.isSome_iff_exists.1 (h.valid.robust_poison hrob)
      have : checkPoolPoison c g.s = true := by
        rw [checkPoolPoison_iff h.valid hi hrob hpv]
        rintro p (hp | hp)
        · rw [hl] at hp; cases hp
        · exact hi.poison rfl v hpv p hp
      rw [this] at hp; cases hp

/-- C14: in a robust pool, whatever was stored into freed items, an allocation aborts or returns an item disjoint
from all live ones; nothing undefined happens. (Later histories stay inside `Hist c true`, so this holds for
every later allocation, and `live_disjoint` holds too.) -/
theorem uaf_coherent {c : Config} {g : Ghost} (h : Hist c true g) (fill : Fill) (env : RangeEnv)
    (henv : EnvOK c g.s.pool.ranges g.s.mem env) :
    malloc c fill env g.s = .aborted .poison ∨
    (∃ e, malloc c fill env g.s = .ok (.null e, g.s)) ∨
    ∃ p s', malloc c fill env g.s = .ok (.ptr p, s') ∧ p ∉ g.live ∧
      ∀ q ∈ g.live, ∀ i j o o', i < c.ncpu → j < c.ncpu → o < c.itemLen → o' < c.itemLen →
        cpuAddr c p i + o ≠ cpuAddr c q j + o' := by
  rcases malloc_spec h.valid h.inv henv fill with ⟨_, e⟩ | ⟨_, ⟨r, k, s1, F', _, e, hi1, _⟩ | ⟨e, _⟩ | ⟨e, _⟩⟩
  · exact Or.inr (Or.inl ⟨_, e⟩)
  · right; right
    have hnot : r.base + k * c.itemLen ∉ g.live := by
      have := hi1.nodup
      rw [List.cons_append, List.nodup_cons] at this
      exact fun hh => this.1 (List.mem_append_left _ hh)
    refine ⟨_, _, e, hnot, ?_⟩
    intro q hq i j o o' hi' hj ho ho'
    have hn := ncpu_le_nCols c
    exact slot_disj hi1.ranges (hi1.slotL List.mem_cons_self) (hi1.slotL (List.mem_cons_of_mem _ hq))
      (fun hh => hnot (by rw [hh]; exact hq)) (by omega) (by omega) ho ho'
  · exact Or.inr (Or.inl ⟨_, e⟩)
  · exact Or.inl e

/-! ### C15: poison -/

/-- C15: after free, every byte of the item on every CPU is poison; in non-robust pools the first word is
excepted on CPU 0 (COW_ZERO), or on the CPUs still sharing the init page (COW_INIT). -/
theorem freed_is_poisoned {c : Config} {uaf : Bool} {g : Ghost} (h : Hist c uaf g) (v : Word) (hpv : c.poison = some v)
    (p : Nat) (hp : p ∈ g.live) :
    ∃ s', free c p g.s = .ok s' ∧ ∀ cpu o, cpu < c.ncpu → o < c.itemLen →
      (c.robust = true ∨ wb ≤ o ∨ (c.cow = false ∧ cpu ≠ 0) ∨
        (c.cow = true ∧ s'.mem.resolve c.pg (cpuAddr c p cpu + o) = cpuAddr c p cpu + o)) →
      s'.mem.read c.pg (cpuAddr c p cpu + o) = wordByte v (o % wb) := by
  have hi := h.inv
  obtain ⟨s', e, hi', hf, _, hpo⟩ := free_spec h.valid hi hp
  refine ⟨s', e, ?_⟩
  intro cpu o hcpu ho hor
  by_cases hcase : c.robust = true ∨ wb ≤ o ∨ (c.cow = false ∧ cpu ≠ 0)
  · exact hpo v hpv cpu o ⟨by omega, ho, hcase⟩
  · have hrob : c.robust = false := by
      cases hr : c.robust with
      | false => rfl
      | true => exact absurd (Or.inl hr) hcase
    have hpriv : c.cow = true ∧ s'.mem.resolve c.pg (cpuAddr c p cpu + o) = cpuAddr c p cpu + o := by
      rcases hor with a | a | a | a
      · exact absurd (Or.inl a) hcase
      · exact absurd (Or.inr (Or.inl a)) hcase
      · exact absurd (Or.inr (Or.inr a)) hcase
      · exact a
    obtain ⟨hcow, hres⟩ := hpriv
    obtain ⟨r, hr, k, hk, ep⟩ := (hi.used p).2 (Or.inl hp)
    have hR := hi.ranges.each r hr
    have hkS : k * c.itemLen + c.itemLen ≤ c.stride := Nat.le_trans (lt_item_of_lt hR.nud hk) hR.nu
    have hslot : Slot c g.s.pool.ranges (r.base + k * c.itemLen) := ⟨r, hr, k, hkS, rfl⟩
    have hmod : p % c.stride = k * c.itemLen := by rw [ep]; exact slot_base h.valid hi.ranges hr hkS
    have hbase : p - p % c.stride = r.base := by rw [hmod, ep]; omega
    have hfind : findRange g.s.pool.ranges r.base = some r := findRange_eq hi.ranges.nodup hr
    -- unfold free once more to reach the memory between poisoning and the free list store
    unfold free at e
    dsimp only at e
    rw [hbase, hfind, hmod, hpv] at e
    dsimp only at e
    split at e
    · cases e
    · cases e
      obtain ⟨hf1, hh, _⟩ := poisonItem_spec h.valid hi.wf hi.shape hslot hR.init_eq (v := v)
      dsimp only at hres ⊢
      have h8 := h.valid.item_ge
      have hnode : percpuToFreeList c p = p + c.stride * c.ncpu := by rw [toFreeList_eq, flCol_cow hrob hcow]
      rw [hnode] at hres ⊢
      have hS := Nat.mul_le_mul_left c.stride (show cpu + 1 ≤ c.ncpu from hcpu)
      rw [Nat.mul_add, Nat.mul_one] at hS
      have hpgS := h.valid.pg_dvd
      have hpage : ∀ j, j < wb → (cpuAddr c p cpu + o) / c.pg ≠ (p + c.stride * c.ncpu + j) / c.pg := by
        intro j hj heq
        have hd : c.pg ∣ r.base + c.stride * c.ncpu :=
          Nat.dvd_add (Nat.dvd_trans hpgS hR.al) (Nat.dvd_trans hpgS (Nat.dvd_mul_right _ _))
        have a1 := (page_lt_iff (x := cpuAddr c p cpu + o) h.valid.pg_pos hd).2 (by unfold cpuAddr; omega)
        have a2 := (le_page_iff (x := p + c.stride * c.ncpu + j) h.valid.pg_pos hd).2 (by omega)
        rw [heq] at a1
        omega
      rw [resolve_writeWord_other hpage] at hres
      have hne : ¬ (p + c.stride * c.ncpu ≤ cpuAddr c p cpu + o ∧ cpuAddr c p cpu + o < p + c.stride * c.ncpu + wb) := by
        unfold cpuAddr; omega
      have hwf1 := hf1.wf hi.wf
      unfold writeWord
      rw [read_writeBlock_frame h.valid.pg_pos hwf1 hne (by rw [hres]; exact hne)]
      unfold cpuAddr
      rw [ep]
      exact hh cpu hcpu o ho

/-! ### C16: init callback -/

/-- C16: on success the callback ran exactly once per CPU in order with that CPU's memory (once with cpu -1 for a
global pool, never without a callback) and always returned zero; on a non-zero return it was called up to and
including that CPU, and no range is added. -/
theorem callback_once {c : Config} (pool : Pool) (m : Mem) (env : RangeEnv) (base : Nat) (hb : env.base = some base)
    (hroom : c.maxRanges = 0 ∨ pool.nrRanges < c.maxRanges) (hsetup : c.cow = true → env.setupOk = true)
    (hbm : c.robust = true → env.bitmapOk = true) (n : Nat)
    (hn : n = if c.initSet then (if c.global then 1 else c.ncpu) else 0) :
    let call (i : Nat) : Call := ⟨base + c.stride * i, c.stride, if c.global then -1 else (i : Int)⟩
    ((∀ i, i < n → (env.cb i).1 = true) →
      (rangeCreate c pool m env).2.isSome = true ∧ (rangeCreate c pool m env).1.length = n ∧
      ∀ i, i < n → (rangeCreate c pool m env).1[i]? = some (call i)) ∧
    (∀ k, k < n → (env.cb k).1 = false → (∀ i, i < k → (env.cb i).1 = true) →
      (rangeCreate c pool m env).2 = none ∧ (rangeCreate c pool m env).1.length = k + 1 ∧
      ∀ i, i < k + 1 → (rangeCreate c pool m env).1[i]? = some (call i)) := by
  intro call
  have hget : ∀ i, i < n → (initCalls c base)[i]? = some (call i) := by
    intro i hi
    unfold initCalls
    rw [hn] at hi
    cases hs : c.initSet with
    | false => simp [hs] at hi
    | true =>
      cases hg : c.global with
      | true =>
        simp [hs, hg] at hi
        subst hi
        simp [call, hg]
      | false =>
        simp [hs, hg] at hi
        simp [call, hg, hi]
  have hlen : (initCalls c base).length = n := by rw [initCalls_length, hn]
  have hrc1 : (rangeCreate c pool m env).1 = (runCalls c env (initCalls c base) 0 (mapRange c base m)).1 ∧
      ((rangeCreate c pool m env).2.isSome = (runCalls c env (initCalls c base) 0 (mapRange c base m)).2.isSome) := by
    unfold rangeCreate
    rw [if_neg (by omega), hb]
    dsimp only
    rw [if_neg, if_neg]
    · split
      · rename_i hh; rw [hh]; exact ⟨rfl, rfl⟩
      · rename_i hh; rw [hh]; exact ⟨rfl, rfl⟩
    · cases hr : c.robust
      · simp
      · simp [hbm hr]
    · cases hr : c.cow
      · simp
      · simp [hsetup hr]
  rw [hrc1.1]
  constructor
  · intro hall
    rcases runCalls_log (c := c) (env := env) (calls := initCalls c base) (k := 0) (m := mapRange c base m) with
      ⟨a, b, _⟩ | ⟨_, j, hj, hf, _⟩
    · rw [hrc1.2, b]
      exact ⟨a, hlen, hget⟩
    · rw [hlen] at hj
      rw [Nat.zero_add, hall j hj] at hf
      cases hf
  · intro k hk hf hbefore
    rcases runCalls_log (c := c) (env := env) (calls := initCalls c base) (k := 0) (m := mapRange c base m) with
      ⟨_, _, d⟩ | ⟨a, j, hj, hf', hb', e⟩
    · have := d k (by rw [hlen]; exact hk)
      rw [Nat.zero_add, hf] at this
      cases this
    · have hjk : j = k := by
        rcases Nat.lt_trichotomy j k with hlt | heq | hgt
        · have := hbefore j hlt; rw [Nat.zero_add] at hf'; rw [this] at hf'; cases hf'
        · exact heq
        · have := hb' k hgt; rw [Nat.zero_add, hf] at this; cases this
      subst hjk
      refine ⟨?_, ?_, ?_⟩
      · have := hrc1.2
        rw [a] at this
        exact Option.not_isSome_iff_eq_none.1 (by rw [this]; simp)
      · rw [e, List.length_take, hlen]; omega
      · intro i hi
        rw [e, List.getElem?_take, if_pos hi]
        exact hget i (by omega)

/-! ### C20, C21: destroy -/

/-- C20: destroy unmaps ranges exactly once each, whole, in order, up to the first one the kernel refuses to unmap
(`k` ranges); the pool is freed iff all were unmapped; if the kernel never refuses, all are. Missing for the full
property: the return value is 0 also in the failing case, see `destroy_hides_failure`. -/
theorem destroy_unmaps_once_partial {c : Config} {g : Ghost} (h : Hist c false g) (hlive : c.robust = true → g.live = [])
    (ok : Nat → Bool) :
    let args := g.s.pool.ranges.map (fun r => (r.base - 2 * c.pg, 2 * c.pg + rangeLen c))
    args.Nodup ∧
    ∃ k left, k ≤ args.length ∧ (∀ i, i < k → ok i = true) ∧ (k < args.length → ok k = false) ∧
      left.length = args.length - k ∧
      destroy c ok g.s = .ok ⟨0, args.take k, left, decide (k = args.length)⟩ := by
  intro args
  have hi := h.inv
  have hmap : g.s.pool.ranges.map (rangeUnmapArgs c true) = args := by
    apply List.map_congr_left
    intro r hr
    have hR := hi.ranges.each r hr
    simp [rangeUnmapArgs, hR.maddr, hR.mlen]
  constructor
  · have hnd := hi.ranges.nodup
    have hpos : ∀ r ∈ g.s.pool.ranges, 2 * c.pg ≤ r.base := fun r hr => (hi.ranges.each r hr).pos
    show (g.s.pool.ranges.map (fun r => (r.base - 2 * c.pg, 2 * c.pg + rangeLen c))).Nodup
    generalize g.s.pool.ranges = l at hnd hpos
    induction l with
    | nil => exact List.nodup_nil
    | cons r l ih =>
      rw [List.map_cons, List.nodup_cons] at hnd ⊢
      refine ⟨?_, ih hnd.2 (fun x hx => hpos x (List.mem_cons_of_mem _ hx))⟩
      intro hmem
      obtain ⟨r', hr', e⟩ := List.mem_map.1 hmem
      have e1 := congrArg Prod.fst e
      dsimp only at e1
      have h1 := hpos r List.mem_cons_self
      have h2 := hpos r' (List.mem_cons_of_mem _ hr')
      exact hnd.1 (List.mem_map.2 ⟨r', hr', by omega⟩)
  · have hnl : ∀ r ∈ g.s.pool.ranges, leaked c r = false := by
      cases hr : c.robust with
      | false => exact not_leaked_nonrobust hi hr
      | true =>
        have hl := hlive hr
        rw [hl] at hi
        exact not_leaked hi
    obtain ⟨k, left, hk, h1, h2, h3, e⟩ := destroyLoop_prefix (acc := true) (ok := ok) hnl 0 []
    rw [List.nil_append, hmap] at e
    have hlen : args.length = g.s.pool.ranges.length := List.length_map ..
    refine ⟨k, left, by omega, fun i hi => ?_, fun hlt => ?_, by omega, ?_⟩
    · have := h1 i hi; rwa [Nat.zero_add] at this
    · have := h2 (by omega); rwa [Nat.zero_add] at this
    · rw [destroy_spec h.valid hi, if_neg, if_neg, e, hlen]
      · rintro ⟨hrob, hp⟩
        obtain ⟨v, hpv⟩ := Option.isSome_iff_exists.1 (h.valid.robust_poison hrob)
        have : checkPoolPoison c g.s = true := by
          rw [checkPoolPoison_iff h.valid hi hrob hpv]
          rintro p (hp | hp)
          · rw [hlive hrob] at hp; cases hp
          · exact hi.poison rfl v hpv p hp
        rw [this] at hp; cases hp
      · rintro ⟨hrob, hl⟩
        exact hl (hlive hrob)

/-- C20, negative side (DESIGN F2): on any pool whose destroy would otherwise succeed, a failing first munmap
makes destroy return 0 although nothing was unmapped. -/
theorem destroy_hides_failure {c : Config} {g : Ghost} (h : Hist c false g) (hlive : c.robust = true → g.live = []) :
    ∃ left, destroy c (fun _ => false) g.s = .ok ⟨0, [], left, false⟩ ∧ left.length = g.s.pool.ranges.length ∧
      left ≠ [] := by
  have hi := h.inv
  have hne : g.s.pool.ranges ≠ [] := ranges_ne_nil h.valid h.mode h.reach
  rw [destroy_spec h.valid hi, if_neg, if_neg]
  · cases hl : g.s.pool.ranges with
    | nil => exact absurd hl hne
    | cons r l =>
      have hnl : leaked c r = false := by
        cases hr : c.robust with
        | false => exact not_leaked_nonrobust hi hr r (by rw [hl]; exact List.mem_cons_self)
        | true =>
          have hl' := hlive hr
          rw [hl'] at hi
          exact not_leaked hi r (by rw [hl]; exact List.mem_cons_self)
      unfold destroyLoop
      rw [hnl]
      exact ⟨_, rfl, by simp, by simp⟩
  · rintro ⟨hrob, hp⟩
    obtain ⟨v, hpv⟩ := Option.isSome_iff_exists.1 (h.valid.robust_poison hrob)
    have : checkPoolPoison c g.s = true := by
      rw [checkPoolPoison_iff h.valid hi hrob hpv]
      rintro p (hp | hp)
      · rw [hlive hrob] at hp; cases hp
      · exact hi.poison rfl v hpv p hp
    rw [this] at hp; cases hp
  · rintro ⟨hrob, hl⟩
    exact hl (hlive hrob)

/-- C21: in a forked child of the owner of a COW_INIT pool (non-robust, or robust without live items) destroy reads
no item memory, removes exactly the header pages of every range and succeeds. (False for robust pools with live
items, see `destroy_in_child_aborts`.) -/
theorem destroy_in_child_partial {c : Config} {uaf : Bool} {g : Ghost} (h : Hist c uaf g) (hcow : c.cow = true)
    (hlive : c.robust = true → g.live = []) (ok : Nat → Bool) (hok : ∀ k, ok k = true) :
    (forkChild c g.s).itemsMapped = false ∧
    destroy c ok (forkChild c g.s) = .ok ⟨0, g.s.pool.ranges.map (fun r => (r.base - 2 * c.pg, 2 * c.pg)), [], true⟩ := by
  have hi := h.inv
  refine ⟨by simp [forkChild, hcow], ?_⟩
  have hnl : ∀ r ∈ g.s.pool.ranges, leaked c r = false := by
    cases hr : c.robust with
    | false => exact not_leaked_nonrobust hi hr
    | true =>
      have hl := hlive hr
      rw [hl] at hi
      exact not_leaked hi
  have hnl' : ∀ r ∈ g.s.pool.ranges.map (fun r => { r with canary := 0#8 }), leaked c r = false := by
    intro r hr
    obtain ⟨r', hr', e⟩ := List.mem_map.1 hr
    rw [← e]
    exact hnl r' hr'
  have hmap : (g.s.pool.ranges.map (fun r => { r with canary := 0#8 })).map (rangeUnmapArgs c false) =
      g.s.pool.ranges.map (fun r => (r.base - 2 * c.pg, 2 * c.pg)) := by
    rw [List.map_map]
    apply List.map_congr_left
    intro r hr
    have hR := hi.ranges.each r hr
    simp [rangeUnmapArgs, hR.hdr]
  unfold destroy forkChild
  rw [if_pos hcow]
  cases hl : g.s.pool.ranges with
  | nil => exact absurd hl (ranges_ne_nil h.valid h.mode h.reach)
  | cons r l =>
    rw [hl] at hnl' hmap
    have hacc : mappingsAccessible c { g.s.pool with ranges := (r :: l).map (fun r => { r with canary := 0#8 }) } = false := by
      simp [mappingsAccessible, hcow]
    dsimp only
    rw [hacc]
    simp only [Bool.and_false, Bool.false_eq_true, if_false]
    rw [destroyLoop_ok hok hnl', hmap]
    rfl

/-- C21, negative side (DESIGN F10): a forked child that destroys a robust COW_INIT pool with a live item aborts
(also when no munmap fails). -/
theorem destroy_in_child_aborts {c : Config} {uaf : Bool} {g : Ghost} (h : Hist c uaf g) (hcow : c.cow = true)
    (hrob : c.robust = true) (p : Nat) (hp : p ∈ g.live) :
    destroy c (fun _ => true) (forkChild c g.s) = .aborted .leak := by
  have hi := h.inv
  obtain ⟨r, hr, hleak⟩ := leaked_of_live h.valid hi hrob hp
  have hl' : ∃ r' ∈ g.s.pool.ranges.map (fun r => { r with canary := 0#8 }), leaked c r' = true :=
    ⟨_, List.mem_map.2 ⟨r, hr, rfl⟩, hleak⟩
  have hacc : mappingsAccessible c (forkChild c g.s).pool = false := by
    unfold forkChild
    rw [if_pos hcow]
    cases hl : g.s.pool.ranges with
    | nil => exact absurd hl (ranges_ne_nil h.valid h.mode h.reach)
    | cons a l => simp [mappingsAccessible, hcow]
  unfold destroy
  dsimp only
  rw [hacc]
  simp only [Bool.and_false, Bool.false_eq_true, if_false]
  unfold forkChild
  rw [if_pos hcow]
  exact destroyLoop_leak hl' 0 []

/-- Allocate three items, free one. -/
theorem ex_hist {c : Config} (hv : Valid c) {uaf : Bool} (hm : uaf = true → c.robust = true ∨ c.cow = true)
    (hmax : c.maxRanges = 0 ∨ 1 ≤ c.maxRanges) (h3 : 3 ≤ itemsPerRange c)
    (hsp : 2 * c.stride + 1 * (rangeLen c + 2 * c.stride) ≤ 2 ^ (8 * wb)) :
    ∃ g p, Hist c uaf g ∧ g.live.length = 2 ∧ g.freed = [p] := by
  obtain ⟨g, hg, hl, hf, _, _, hi⟩ := fill_reach hv uaf (n := 1) (Nat.le_refl _) hmax hsp 3 (by omega)
  cases hlive : g.live with
  | nil => rw [hlive] at hl; cases hl
  | cons p L =>
    have hp : p ∈ g.live := by rw [hlive]; exact List.mem_cons_self
    obtain ⟨s', e, _⟩ := free_spec hv hi hp
    refine ⟨_, p, ⟨hv, Reach.step g _ hg (Step.free g p s' hp e), hm⟩, ?_, ?_⟩
    · show (g.live.erase p).length = 2
      rw [hlive, List.erase_cons_head]
      rw [hlive] at hl
      simpa using hl
    · show p :: g.freed = [p]
      rw [hf]

/-- A system refusing memory is always a legal environment; so is one granting fresh memory (`Tidy.env`). -/
theorem ex_env (c : Config) (l : List Range) (m : Mem) : EnvOK c l m { base := none } :=
  ⟨fun _ h => (by cases h), fun _ _ _ h => by cases h⟩

end Verif.Mempool

/-! ### Examples: the hypotheses above are met by concrete, non-trivial histories -/

namespace Verif.Mempool
open Verif Verif.Mem

section
attribute [local instance] be32

/-- Two live items and a freed one on a 32-bit big-endian machine, for a COW_INIT pool of 4-byte items. -/
example : ∃ c g p, Hist c true g ∧ g.live.length = 2 ∧ g.freed = [p] ∧
    c.itemLen = 4 ∧ c.poison = some 0x01020304#32 :=
  let c : Config := { pg := 4096, order := 2, stride := 4096, ncpu := 2, cow := true, robust := false
                      poison := some 0x01020304#32, maxRanges := 2, initSet := false, global := false }
  have hv : Valid c :=
    ⟨by decide, by decide, ⟨12, by decide⟩, ⟨12, by decide⟩, by decide, by decide, fun h => (by cases h), fun h => by cases h⟩
  let ⟨g, p, h, hl, hf⟩ := ex_hist hv (uaf := true) (fun _ => Or.inr rfl) (Or.inr (by decide)) (by decide) (by decide)
  ⟨c, g, p, h, hl, hf, rfl, rfl⟩

end

attribute [local instance] le64

/-- A robust COW_INIT pool: 2 CPUs, 16-byte items, 4 KiB stride, at most 2 ranges. -/
def exRobust : Config :=
  { pg := 4096, order := 4, stride := 4096, ncpu := 2, cow := true, robust := true, poison := some 0x5555555555555555#64
    maxRanges := 2, initSet := false, global := false }

/-- A plain COW_ZERO pool with poison, 3 CPUs and an init callback. -/
def exPlain : Config :=
  { pg := 4096, order := 3, stride := 65536, ncpu := 3, cow := false, robust := false, poison := some 0x1122334455667788#64
    maxRanges := 0, initSet := true, global := false }

theorem exRobust_valid : Valid exRobust :=
  ⟨by decide, by decide, ⟨12, by decide⟩, ⟨12, by decide⟩, by decide, by decide, fun _ => rfl, fun h => by cases h⟩

theorem exPlain_valid : Valid exPlain :=
  ⟨by decide, by decide, ⟨16, by decide⟩, ⟨12, by decide⟩, by decide, by decide, fun h => (by cases h), fun h => by cases h⟩

/-- C01, C02, C05-C11, C13-C15, C18-C21: two live items and a freed one, robust COW_INIT pool. -/
example : ∃ g p, Hist exRobust false g ∧ g.live.length = 2 ∧ g.freed = [p] :=
  ex_hist exRobust_valid (fun h => by cases h) (Or.inr (by decide)) (by decide) (by decide)
/-- The same for a client that may store into freed items. -/
example : ∃ g p, Hist exRobust true g ∧ g.live.length = 2 ∧ g.freed = [p] :=
  ex_hist exRobust_valid (fun _ => Or.inl rfl) (Or.inr (by decide)) (by decide) (by decide)
/-- The same for the plain pool. -/
example : ∃ g p, Hist exPlain false g ∧ g.live.length = 2 ∧ g.freed = [p] :=
  ex_hist exPlain_valid (fun h => by cases h) (Or.inl rfl) (by decide) (by decide)

/-- C03, C04, C07: zmalloc and malloc_init succeed on such histories (they reuse the freed item). -/
example : ∃ g p s' s'', Hist exRobust false g ∧ malloc exRobust .zero { base := none } g.s = .ok (.ptr p, s') ∧
    malloc exRobust (.init (fun i => BitVec.ofNat 8 i) 16) { base := none } g.s = .ok (.ptr p, s'') := by
  obtain ⟨g, p, h, _, hf⟩ := ex_hist (uaf := false) exRobust_valid (fun h => by cases h) (Or.inr (by decide)) (by decide) (by decide)
  obtain ⟨s', e⟩ := malloc_reuses_freed h _ (ex_env ..) .zero (by decide) p [] hf
  obtain ⟨s'', e'⟩ := malloc_reuses_freed h _ (ex_env ..) (.init (fun i => BitVec.ofNat 8 i) 16) (by decide) p [] hf
  exact ⟨g, p, s', s'', h, e, e'⟩

/-- C07, C08: a full pool exists, and malloc fails there. -/
example : ∃ g, Hist exRobust false g ∧ g.live.length = 512 ∧
    ∃ s', malloc exRobust .zero { base := none } g.s = .ok (.null .ENOMEM, s') := by
  obtain ⟨g, hg, hl, hf, _, hr, _⟩ := fill_reach exRobust_valid false (n := 2) (by decide) (Or.inr (by decide)) (by decide) 512 (by decide)
  have h : Hist exRobust false g := ⟨exRobust_valid, hg, fun h => by cases h⟩
  refine ⟨g, h, hl, ?_⟩
  have hcap : g.live.length = g.s.pool.ranges.length * itemsPerRange exRobust := by
    have h1 := count_le h.valid h.inv.toInv0
    have h2 : itemsPerRange exRobust = 256 := by decide
    rw [h2] at h1 ⊢
    omega
  obtain ⟨e, s', hm⟩ := ((malloc_fails_iff h _ (ex_env ..) .zero (by decide)).1).2 ⟨hf, hcap, Or.inr (Or.inl rfl)⟩
  have := (malloc_fails_iff h _ (ex_env ..) .zero (by decide)).2 e s' hm
  exact ⟨s', by rw [hm, this.1]⟩

/-- C12: a freed item corrupted on CPU 1. -/
example : ∃ g p, Hist exRobust true g ∧ p ∈ g.freed ∧
    g.s.mem.read exRobust.pg (cpuAddr exRobust p 1 + 3) ≠ wordByte 0x5555555555555555#64 (3 % 8) := by
  obtain ⟨g, p, h, _, hf⟩ := ex_hist (uaf := true) exRobust_valid (fun _ => Or.inl rfl) (Or.inr (by decide)) (by decide) (by decide)
  have hp : p ∈ g.freed := by rw [hf]; exact List.mem_cons_self
  refine ⟨_, p, ⟨h.valid, Reach.step g _ h.reach (Step.store g p 1 3 0#8 (Or.inr ⟨rfl, hp⟩) (by decide) (by decide)), h.mode⟩, hp, ?_⟩
  show Mem.read exRobust.pg (Mem.write exRobust.pg _ _ _) _ ≠ _
  rw [read_write_self]
  decide

/-- C16: a callback that fails for CPU 2. -/
example : (rangeCreate exPlain ⟨[], 0, 0⟩ ⟨fun _ => 0#8, fun _ => none⟩
      { base := some 131072, cb := fun k => (k != 2, [(0, 7#8)]) }).1 =
    [⟨131072, 65536, 0⟩, ⟨196608, 65536, 1⟩, ⟨262144, 65536, 2⟩] := by decide +kernel

end Verif.Mempool
