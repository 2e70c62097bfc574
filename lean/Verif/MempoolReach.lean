import Verif.MempoolOps
/-
free, user stores, external changes; every reachable state satisfies the invariant. Helper lemmas only.
-/
namespace Verif.Mempool
open Verif Verif.Mem

variable [Abi]

/-- Detailed outcome of a malloc call. -/
theorem malloc_spec {c : Config} (hv : Valid c) {uaf : Bool} {s : State} {L F : List Nat}
    (h : Inv c uaf s L F) {env : RangeEnv} (henv : EnvOK c s.pool.ranges s.mem env) (fill : Fill) :
    (fill.len > c.itemLen ∧ malloc c fill env s = .ok (.null .EINVAL, s)) ∨
    (fill.len ≤ c.itemLen ∧ (
    (∃ r k s1 F', lockedAlloc c env s = .ok (.item r (k * c.itemLen) (r.base + k * c.itemLen), s1) ∧
      malloc c fill env s = .ok (.ptr (r.base + k * c.itemLen), { s1 with mem := fillItem c r (k * c.itemLen) fill s1.mem }) ∧
      Inv c uaf s1 ((r.base + k * c.itemLen) :: L) F' ∧
      Inv c uaf { s1 with mem := fillItem c r (k * c.itemLen) fill s1.mem } ((r.base + k * c.itemLen) :: L) F' ∧
      r ∈ s1.pool.ranges ∧
      Frame c.pg (ItemBytes c (r.base + k * c.itemLen)) s1.mem (fillItem c r (k * c.itemLen) fill s1.mem) ∧
      (∀ r' ∈ s.pool.ranges, ∀ x, InRegion c r'.base x → s1.mem.read c.pg x = s.mem.read c.pg x) ∧
      (∀ r' ∈ s.pool.ranges, ∃ r'' ∈ s1.pool.ranges, r''.base = r'.base) ∧
      ((F = (r.base + k * c.itemLen) :: F' ∧ s1.mem = s.mem ∧
          ∃ r0 ∈ s.pool.ranges, r0.base = r.base ∧ checkPoisonItem c r0 (k * c.itemLen) s.mem = true) ∨ F = [] ∧ F' = [])) ∨
    (malloc c fill env s = .ok (.null .ENOMEM, s) ∧ F = [] ∧ NoRoom c s.pool.ranges ∧
      (rangeCreate c s.pool s.mem env).2 = none) ∨
    (malloc c fill env s = .aborted .poison ∧ uaf = true ∧ c.robust = true ∧
      ∃ r k F', r ∈ s.pool.ranges ∧ F = (r.base + k * c.itemLen) :: F' ∧
        checkPoisonItem c r (k * c.itemLen) s.mem = false))) := by
  by_cases hlen : fill.len > c.itemLen
  · left
    refine ⟨hlen, ?_⟩
    unfold malloc
    rw [if_pos hlen]
  · right
    refine ⟨by omega, ?_⟩
    unfold malloc
    rw [if_neg hlen]
    rcases lockedAlloc_spec hv h henv with ⟨r, k, s', F', e, hinv, hr, hk, hkeep, hb, hF⟩ | ⟨e, h1, h2, h3⟩ | ⟨e, h1, h2, h3⟩
    · left
      rw [e]
      have hslot : Slot c s'.pool.ranges (r.base + k * c.itemLen) := ⟨r, hr, k, hk, rfl⟩
      have hf := fillItem_frame hv hinv.wf hinv.shape hslot (hinv.ranges.each r hr).init_eq (fill := fill) (by omega)
      exact ⟨r, k, s', F', rfl, rfl, hinv, hinv.frameLive hv List.mem_cons_self hf, hr, hf, hkeep, hb, hF⟩
    · right; left
      rw [e]
      exact ⟨rfl, h1, h2, h3⟩
    · right; right
      rw [e]
      exact ⟨rfl, h1, h2, h3⟩

theorem head_lt {c : Config} (hv : Valid c) {uaf : Bool} {s : State} {L F : List Nat} (h : Inv0 c uaf s L F) :
    s.pool.head < 2 ^ (8 * wb) := by
  cases F with
  | nil => have : s.pool.head = 0 := h.chain; rw [this]; exact Nat.two_pow_pos _
  | cons p F =>
    obtain ⟨e, _⟩ := h.chain
    obtain ⟨r, hr, k, hk, hp⟩ := h.slotF (p := p) List.mem_cons_self
    have := hv.item_pos
    have hin := col_in (c := c) (base := r.base) (a := k * c.itemLen) hv.flCol_lt (by omega)
    have := (h.ranges.each r hr).top
    unfold InRegion at hin
    rw [e, hp]
    omega

/-- Freeing a live item succeeds, keeps the invariant and only stores inside the item. -/
theorem free_spec {c : Config} (hv : Valid c) {uaf : Bool} {s : State} {L F : List Nat} (h : Inv c uaf s L F)
    {p : Nat} (hp : p ∈ L) :
    ∃ s', free c p s = .ok s' ∧ Inv c uaf s' (L.erase p) (p :: F) ∧
      Frame c.pg (ItemBytes c p) s.mem s'.mem ∧
      s'.pool.ranges.map (·.base) = s.pool.ranges.map (·.base) ∧
      (∀ v, c.poison = some v → ∀ col o, PoisonByte c col o →
        s'.mem.read c.pg (p + c.stride * col + o) = pat v o) := by
  obtain ⟨r, hr, k, hk, e⟩ := (h.used p).2 (Or.inl hp)
  have hR := h.ranges.each r hr
  have hkS : k * c.itemLen + c.itemLen ≤ c.stride := Nat.le_trans (lt_item_of_lt hR.nud hk) hR.nu
  have hslot : Slot c s.pool.ranges (r.base + k * c.itemLen) := ⟨r, hr, k, hkS, rfl⟩
  have hmod : p % c.stride = k * c.itemLen := by rw [e]; exact slot_base hv h.ranges hr hkS
  have hbase : p - p % c.stride = r.base := by rw [hmod, e]; omega
  have hfind : findRange s.pool.ranges r.base = some r := findRange_eq h.ranges.nodup hr
  have h8 := hv.item_ge
  -- the slot is cleared
  have hclear : ∃ r', clearAllocSlot c r (k * c.itemLen) = some r' ∧ r'.base = r.base ∧
      r'.nextUnused = r.nextUnused ∧ RangeInv c r' ∧
      (∀ bm', r'.bitmap = some bm' → ∃ bm, r.bitmap = some bm ∧ bm' = bitClear bm k) := by
    unfold clearAllocSlot
    cases hbm : r.bitmap with
    | none =>
      refine ⟨r, rfl, rfl, rfl, hR, ?_⟩
      intro bm' hb'; rw [hbm] at hb'; cases hb'
    | some bm =>
      have : bitTest bm k = true := (h.bits r hr bm hbm k).2 ⟨hk, by rw [← e]; exact hp⟩
      dsimp only
      rw [hv.shr, if_pos this]
      refine ⟨_, rfl, rfl, rfl, ?_, ?_⟩
      · exact { hR with bm := by rw [← hR.bm, hbm]; rfl }
      · intro bm' hb'; cases hb'; exact ⟨bm, rfl, rfl⟩
  obtain ⟨r', hcl, hb', hnu', hR', hbm'⟩ := hclear
  -- memory
  let m1 := match c.poison with
    | some v => poisonItem c r (k * c.itemLen) v s.mem
    | none => s.mem
  have hf1 : Frame c.pg (ItemBytes c p) s.mem m1 := by
    show Frame _ _ _ (match c.poison with | some v => poisonItem c r (k * c.itemLen) v s.mem | none => s.mem)
    rw [e]
    cases c.poison with
    | none => exact Frame.refl
    | some v => exact (poisonItem_spec hv h.wf h.shape hslot hR.init_eq).1
  let m2 := m1.writeWord c.pg (p + c.stride * c.flCol) (BitVec.ofNat (8 * wb) s.pool.head)
  have hf2' : Frame c.pg (fun x => p + c.stride * c.flCol ≤ x ∧ x < p + c.stride * c.flCol + wb) m1 m2 :=
    Frame.writeWord hv.pg_pos
  have hf2 : Frame c.pg (ItemBytes c p) m1 m2 := by
    refine hf2'.mono ?_
    intro x hx
    refine ⟨c.flCol, x - (p + c.stride * c.flCol), hv.flCol_lt, ?_, ?_⟩ <;> omega
  have hf : Frame c.pg (ItemBytes c p) s.mem m2 := hf1.trans hf2
  have hwf1 := hf1.wf h.wf
  have hsh1 := h.shape.frame hf1
  have hfree : free c p s = .ok { s with mem := m2, pool := { s.pool with ranges := putRange s.pool.ranges r', head := p + c.stride * c.flCol } } := by
    unfold free
    dsimp only
    rw [hbase, hfind]
    dsimp only
    rw [hmod, hcl, toFreeList_eq]
    rfl
  have hpF : p ∉ F := fun hh => (List.nodup_append.1 h.nodup).2.2 p hp p hh rfl
  have hkeep : ∀ q, Slot c s.pool.ranges q → q ≠ p → ∀ col o, col < c.nCols → o < c.itemLen →
      m2.read c.pg (q + c.stride * col + o) = s.mem.read c.pg (q + c.stride * col + o) :=
    fun q hq hne col o hc ho => keepOther h.ranges h.wf h.shape (h.slotL hp) hq hne hf hc ho
  have hpois : ∀ v, c.poison = some v → ∀ col o, PoisonByte c col o →
      m2.read c.pg (p + c.stride * col + o) = pat v o := by
    intro v hpv col o hb
    have hm1 : m1 = poisonItem c r (k * c.itemLen) v s.mem := by
      show (match c.poison with | some v => poisonItem c r (k * c.itemLen) v s.mem | none => s.mem) = _
      rw [hpv]
    obtain ⟨_, hcpu, hini⟩ := poisonItem_spec hv h.wf h.shape hslot hR.init_eq (v := v)
    have h1 : m1.read c.pg (p + c.stride * col + o) = pat v o := by
      rw [hm1, e]
      have hcol := hb.1
      by_cases hlt : col < c.ncpu
      · exact hcpu col hlt o hb.2.1
      · cases hc : c.cow with
        | false => rw [hc] at hcol; simp at hcol; omega
        | true =>
          rw [hc] at hcol
          simp at hcol
          have : col = c.ncpu := by omega
          rw [this]
          exact hini hc o hb.2.1
    rw [← h1]
    have hslot' : Slot c s.pool.ranges p := h.slotL hp
    have hgen : ∀ col', (col' = col ∨ (c.cow = true ∧ col < c.ncpu ∧ col' = c.ncpu)) →
        ¬ (p + c.stride * c.flCol ≤ p + c.stride * col' + o ∧ p + c.stride * col' + o < p + c.stride * c.flCol + wb) := by
      rintro col' hcol' ⟨a1, a2⟩
      have hcolne : col' ≠ c.flCol → False := by
        intro hne
        exact slot_col_disj hslot' hne (o := o) (o' := p + c.stride * col' + o - (p + c.stride * c.flCol)) hb.2.1
          (by omega) (by omega)
      by_cases hcf : col' = c.flCol
      · subst hcf
        have ho8 : o < wb := by omega
        rcases hb.2.2 with hrob | h8o | ⟨hcz, hc0⟩
        · have hfl := flCol_robust hrob
          have := hb.1
          rcases hcol' with e' | ⟨hcw, hlt, e'⟩
          · omega
          · rw [hcw] at hfl; simp at hfl; omega
        · omega
        · rcases hcol' with e' | ⟨hcw, _, _⟩
          · cases hrob : c.robust with
            | true =>
              have hfl := flCol_robust hrob
              have := hb.1
              omega
            | false => rw [flCol_zero hrob hcz] at e'; omega
          · rw [hcz] at hcw; cases hcw
      · exact hcolne hcf
    apply hf2'.rd hwf1
    · exact hgen col (Or.inl rfl)
    · rcases hsh1.slot hslot' hb.col_lt hb.2.1 with e' | ⟨hcw, hlt, e'⟩
      · rw [e']; exact hgen col (Or.inl rfl)
      · rw [e']; exact hgen c.ncpu (Or.inr ⟨hcw, hlt, rfl⟩)
  have hnode : (m2.readWord c.pg (p + c.stride * c.flCol)).toNat = s.pool.head := by
    rw [readWord_writeWord_self hv.pg_pos hwf1, BitVec.toNat_ofNat]
    exact Nat.mod_eq_of_lt (head_lt hv h.toInv0)
  have hb0 := h.toInv0.setBitmap hr hb' hnu' hR'
  have hLn : L.Nodup := (List.nodup_append.1 h.nodup).1
  have hmemL : ∀ q, q ∈ L.erase p ↔ q ∈ L ∧ q ≠ p := by
    intro q
    rw [hLn.mem_erase_iff]
    exact And.comm
  refine ⟨_, hfree, ?_, hf, map_base_putRange _ _, hpois⟩
  refine { wf := hf.wf h.wf, ranges := hb0.ranges, shape := hb0.shape.frame hf, mapped := h.mapped, nr := hb0.nr
           maxr := hb0.maxr, full := hb0.full, chain := ⟨rfl, ?_⟩, nodup := ?_, used := ?_, poison := ?_, bits := ?_ }
  · dsimp only
    rw [hnode]
    refine h.chain.congr fun q hq j hj => hkeep q (h.slotF hq) ?_ _ _ hv.flCol_lt (by omega)
    rintro rfl; exact hpF hq
  · rw [List.perm_middle.nodup_iff, List.nodup_cons]
    refine ⟨?_, ?_⟩
    · intro hm
      rcases List.mem_append.1 hm with a | a
      · exact ((hmemL p).1 a).2 rfl
      · exact hpF a
    · have := List.nodup_append.1 h.nodup
      rw [List.nodup_append]
      exact ⟨hLn.erase p, this.2.1, fun a ha b hb => this.2.2 a ((hmemL a).1 ha).1 b hb⟩
  · intro q
    rw [show Used c (putRange s.pool.ranges r') q ↔ _ from hb0.used q, hmemL, List.mem_cons]
    by_cases hqp : q = p
    · subst hqp
      constructor
      · intro _; exact Or.inr (Or.inl rfl)
      · intro _; exact Or.inl hp
    · constructor
      · rintro (a | a)
        · exact Or.inl ⟨a, hqp⟩
        · exact Or.inr (Or.inr a)
      · rintro (a | a | a)
        · exact Or.inl a.1
        · exact absurd a hqp
        · exact Or.inr a
  · intro hu v hpv q hq col o hb
    rcases List.mem_cons.1 hq with rfl | hq'
    · exact hpois v hpv col o hb
    · have hq := hq'
      rw [hkeep q (h.slotF hq') (by intro hh; rw [hh] at hq'; exact hpF hq') col o hb.col_lt hb.2.1]
      exact h.poison hu v hpv q hq col o hb
  · intro x hx bm hbm j
    rw [hmemL]
    rcases (mem_putRange ⟨r, hr, hb'.symm⟩).1 hx with rfl | ⟨hx, hne⟩
    · obtain ⟨bm0, hbm0, rfl⟩ := hbm' bm hbm
      rw [bitTest_bitClear, h.bits r hr bm0 hbm0 j, hb', hnu', e]
      constructor
      · rintro ⟨a, b, d⟩; exact ⟨b, d, fun hh => a (base_add_item_inj hv hh)⟩
      · rintro ⟨a, b, d⟩; exact ⟨fun hh => d (by rw [hh]), a, b⟩
    · rw [h.bits x hx bm hbm j]
      constructor
      · rintro ⟨a, b⟩
        refine ⟨a, b, ?_⟩
        intro hh
        have := item_same_range hv h.ranges hx hr a hk (by rw [hh, e])
        exact hne (by rw [this.1, hb'])
      · rintro ⟨a, b, _⟩; exact ⟨a, b⟩

/-- A user store to a live item keeps the invariant. -/
theorem store_live {c : Config} (hv : Valid c) {uaf : Bool} {s : State} {L F : List Nat} (h : Inv c uaf s L F)
    {p cpu o : Nat} {b : Byte} (hp : p ∈ L) (hcpu : cpu < c.ncpu) (ho : o < c.itemLen) :
    Inv c uaf (store c (cpuAddr c p cpu + o) b s) L F := by
  refine h.frameLive hv hp ((Frame.write hv.pg_pos).mono ?_)
  rintro x rfl
  have := ncpu_le_nCols c
  exact ⟨cpu, o, by omega, ho, rfl⟩

/-- A user store to a freed item keeps the structural invariant when the free list is out of reach. -/
theorem store_freed {c : Config} (hv : Valid c) {s : State} {L F : List Nat} (h : Inv c true s L F)
    (hrc : c.robust = true ∨ c.cow = true) {p cpu o : Nat} {b : Byte} (hp : p ∈ F) (hcpu : cpu < c.ncpu)
    (ho : o < c.itemLen) : Inv c true (store c (cpuAddr c p cpu + o) b s) L F := by
  have hf : Frame c.pg (fun x => x = cpuAddr c p cpu + o) s.mem (s.mem.write c.pg (cpuAddr c p cpu + o) b) :=
    Frame.write hv.pg_pos
  refine h.mem (hf.wf h.wf) (h.shape.frame hf) ?_ (fun hu => by cases hu)
  intro q hq j hj
  have h8 := hv.item_ge
  have hle := ncpu_le_flCol hrc
  have hlt := hv.flCol_lt
  have hne : q + c.stride * c.flCol + j ≠ cpuAddr c p cpu + o := by
    unfold cpuAddr
    by_cases hqp : q = p
    · subst hqp
      exact slot_col_disj (h.slotF hq) (by omega) (by omega) ho
    · exact slot_disj h.ranges (h.slotF hq) (h.slotF hp) hqp hlt (by omega) (by omega) ho
  apply hf.rd h.wf _ hne
  rcases h.shape.slot (h.slotF hq) hlt (show j < c.itemLen by omega) with e | ⟨_, hh, _⟩
  · rw [e]; exact hne
  · omega

theorem ext_inv {c : Config} (hv : Valid c) {uaf : Bool} {s : State} {L F : List Nat} (h : Inv c uaf s L F)
    {m' : Mem} (hx : ExtOK c s.pool.ranges s.mem m') : Inv c uaf { s with mem := m' } L F := by
  have h8 := hv.item_ge
  have hread : ∀ q, Slot c s.pool.ranges q → ∀ col o, col < c.nCols → o < c.itemLen →
      m'.read c.pg (q + c.stride * col + o) = s.mem.read c.pg (q + c.stride * col + o) := by
    rintro q ⟨r, hr, k, hk, rfl⟩ col o hc ho
    rw [show r.base + k * c.itemLen + c.stride * col + o = r.base + c.stride * col + (k * c.itemLen + o) by omega]
    exact (hx.inside r hr _ (col_in hc (by omega))).2
  refine h.mem hx.wf ⟨fun r hr col off hc ho => ?_, hx.outside⟩
    (fun q hq j hj => hread q (h.slotF hq) _ _ hv.flCol_lt (by omega)) (fun _ q hq => hread q (h.slotF hq))
  rcases (hx.inside r hr _ (col_in hc ho)).1 with e | e
  · rw [e]; exact h.shape.inside r hr col off hc ho
  · exact Or.inl e

/-- The state right after create satisfies the invariant. -/
theorem create_inv {c : Config} (hv : Valid c) {uaf : Bool} {m0 : Mem} {env : RangeEnv} {r : Range} {m : Mem}
    (hwf : m0.WF) (henv : EnvOK c [] m0 env) (h : (rangeCreate c ⟨[], 0, 0⟩ m0 env).2 = some (r, m)) :
    Inv c uaf { pool := ⟨[r], 0, 1⟩, mem := m } [] [] := by
  have hsh : Shape c [] m0 := ⟨fun r hr => (by cases hr), fun x _ r hr => (by cases hr)⟩
  obtain ⟨hn, hmax⟩ := rangeCreate_spec hv (pool := ⟨[], 0, 0⟩) hwf hsh henv h
  have h0 : Inv c uaf { pool := ⟨[], 0, 0⟩, mem := m0 } [] [] :=
    { wf := hwf, ranges := ⟨fun r hr => (by cases hr), List.nodup_nil, fun r hr => by cases hr⟩, shape := hsh
      mapped := rfl, nr := rfl, maxr := fun _ => Nat.zero_le _, full := fun r hr => (by cases hr), chain := rfl
      nodup := List.nodup_nil
      used := fun p => ⟨fun ⟨r, hr, _⟩ => (by cases hr), fun hh => by rcases hh with a | a <;> cases a⟩
      poison := fun _ _ _ p hp => (by cases hp), bits := fun r hr => by cases hr }
  exact h0.addRange hv hn hmax (fun r hr => by cases hr)

/-- Every reachable state satisfies the invariant. -/
theorem reach_inv {c : Config} (hv : Valid c) {uaf : Bool} (hrc : uaf = true → c.robust = true ∨ c.cow = true)
    {g : Ghost} (hg : Reach c uaf g) : Inv c uaf g.s g.live g.freed := by
  induction hg with
  | create m0 env r m hwf henv h => exact create_inv hv hwf henv h
  | step g g' _ hs hinv =>
    cases hs with
    | mallocPtr fill env p s' henv h =>
      rcases malloc_spec hv hinv henv fill with ⟨_, e⟩ | ⟨_, ⟨r, k, s1, F', _, e, _, hi, _, _, _, _, hF⟩ | ⟨e, _⟩ | ⟨e, _⟩⟩
      · rw [e] at h; cases h
      · rw [e] at h
        cases h
        rcases hF with ⟨e1, _⟩ | ⟨e1, e2⟩
        · rw [e1, List.erase_cons_head]; exact hi
        · rw [e1]; rw [e2] at hi; exact hi
      · rw [e] at h; cases h
      · rw [e] at h; cases h
    | mallocNull fill env e' s' henv h =>
      rcases malloc_spec hv hinv henv fill with ⟨_, e⟩ | ⟨_, ⟨r, k, s1, F', _, e, _, hi, _, _, _, _, hF⟩ | ⟨e, _⟩ | ⟨e, _⟩⟩
      · rw [e] at h; cases h; exact hinv
      · rw [e] at h; cases h
      · rw [e] at h; cases h; exact hinv
      · rw [e] at h; cases h
    | free p s' hp h =>
      obtain ⟨s'', e, hi, _, _⟩ := free_spec hv hinv hp
      rw [e] at h
      cases h
      exact hi
    | store p cpu o b hp hcpu ho =>
      rcases hp with hp | ⟨hu, hp⟩
      · exact store_live hv hinv hp hcpu ho
      · subst hu
        exact store_freed hv hinv (hrc rfl) hp hcpu ho
    | ext m' h => exact ext_inv hv hinv h

end Verif.Mempool
