import Verif.MempoolTests
/-
C75: the project's own pool tests pass, on every pool of the kind they create, with every stride, CPU count, number of
ranges and poison value.
-/
namespace Verif.Mempool
open Verif Verif.Mem

variable [Abi]

/-! ### Helpers -/

theorem Reach.relax {c : Config} {g : Ghost} (h : Reach c false g) : Reach c true g := by
  induction h with
  | create m0 env r m hwf henv h => exact .create m0 env r m hwf henv h
  | step g g' _ hs ih =>
    refine .step g g' ih ?_
    cases hs with
    | mallocPtr fill env p s' henv h => exact .mallocPtr g fill env p s' henv h
    | mallocNull fill env e s' henv h => exact .mallocNull g fill env e s' henv h
    | free p s' hp h => exact .free g p s' hp h
    | store p cpu o b hp hcpu ho =>
      refine .store g p cpu o b ?_ hcpu ho
      rcases hp with hp | ⟨hp, _⟩
      · exact Or.inl hp
      · cases hp
    | ext m' hx => exact .ext g m' hx

theorem Hist.relax {c : Config} {g : Ghost} (h : Hist c false g) (hrob : c.robust = true) : Hist c true g :=
  ⟨h.valid, h.reach.relax, fun _ => Or.inl hrob⟩

/-- A pool without live items can always allocate. -/
theorem malloc_when_empty {c : Config} {g : Ghost} (h : Hist c false g) (hl : g.live = []) (env : RangeEnv)
    (henv : EnvOK c g.s.pool.ranges g.s.mem env) (fill : Fill) (hlen : fill.len ≤ c.itemLen) :
    ∃ p s', malloc c fill env g.s = .ok (.ptr p, s') ∧ Hist c false ⟨s', [p], g.freed.erase p⟩ := by
  obtain ⟨ret, s', e⟩ := (no_false_alarm h).1 fill env henv
  cases ret with
  | ptr p =>
    refine ⟨p, s', e, h.valid, ?_, h.mode⟩
    have := Reach.step _ _ h.reach (.mallocPtr g fill env p s' henv e)
    rw [hl] at this
    exact this
  | null er =>
    exfalso
    have := ((malloc_fails_iff h env henv fill hlen).1.1 ⟨er, s', e⟩).2.1
    rw [hl, List.length_nil] at this
    have h1 := List.length_pos_iff.2 (ranges_ne_nil h.valid h.mode h.reach)
    have h2 : 0 < itemsPerRange c := Nat.div_pos h.valid.item_le h.valid.item_pos
    have := Nat.mul_pos h1 h2
    omega

theorem free_one {c : Config} {s : State} {p : Nat} {F : List Nat} (h : Hist c false ⟨s, [p], F⟩) :
    ∃ s', free c p s = .ok s' ∧ Hist c false ⟨s', [], p :: F⟩ ∧
      s'.pool.ranges.map (·.base) = s.pool.ranges.map (·.base) := by
  obtain ⟨s', e, _, _, hb, _⟩ := free_spec h.valid h.inv (p := p) List.mem_cons_self
  refine ⟨s', e, ⟨h.valid, ?_, h.mode⟩, hb⟩
  have := Reach.step _ _ h.reach (.free _ p s' List.mem_cons_self e)
  simpa using this

/-- The range environment only matters when the free list is empty. -/
theorem malloc_env {c : Config} {s : State} (hne : s.pool.head ≠ 0) (fill : Fill) (env env' : RangeEnv) :
    malloc c fill env s = malloc c fill env' s := by
  have : lockedAlloc c env s = lockedAlloc c env' s := by
    unfold lockedAlloc
    dsimp only
    rw [if_pos hne, if_pos hne]
  unfold malloc
  rw [this]

theorem head_ne {c : Config} {uaf : Bool} {s : State} {L F : List Nat} (hv : Valid c) (hi : Inv c uaf s L F) {p : Nat} {F' : List Nat}
    (hF : F = p :: F') : s.pool.head = p + c.stride * c.flCol ∧ s.pool.head ≠ 0 := by
  have hc := hi.chain
  rw [hF] at hc
  refine ⟨hc.1, ?_⟩
  rw [hc.1]
  obtain ⟨r, hr, k, _, e⟩ := hi.slotF (p := p) (by rw [hF]; exact List.mem_cons_self)
  have := (hi.ranges.each r hr).pos
  have := hv.pg_pos
  omega

/-- An environment that refuses everything. -/
def refuseEnv : RangeEnv := { base := none, setupOk := false, bitmapOk := false, cb := fun _ => (false, []) }

theorem refuseEnv_ok (c : Config) (l : List Range) (m : Mem) : EnvOK c l m refuseEnv :=
  ⟨(fun b h => by cases h), (fun _ _ _ h => by cases h)⟩

theorem hist_storeWord {c : Config} {uaf : Bool} {s : State} {L F : List Nat} (h : Hist c uaf ⟨s, L, F⟩) {p cpu o : Nat}
    (hp : p ∈ L ∨ (uaf = true ∧ p ∈ F)) (hcpu : cpu < c.ncpu) (ho : o + wb ≤ c.itemLen) (w : Word) :
    Hist c uaf ⟨storeWord c (cpuAddr c p cpu + o) w s, L, F⟩ := by
  have : ∀ n, n ≤ wb → Reach c uaf ⟨{ s with mem := s.mem.writeBlock c.pg (cpuAddr c p cpu + o) (wordByte w) n }, L, F⟩ := by
    intro n
    induction n with
    | zero => exact fun _ => h.reach
    | succ n ih =>
      intro hn
      have := Reach.step _ _ (ih (by omega)) (.store _ p cpu (o + n) (wordByte w n) hp hcpu (by omega))
      rw [← Nat.add_assoc] at this
      exact this
  exact ⟨h.valid, this wb (Nat.le_refl _), h.mode⟩

/-- Two different words differ in a byte. -/
theorem byte_ne {v w : Word} (h : v ≠ w) : ∃ j, j < wb ∧ wordByte v j ≠ wordByte w j := by
  refine Classical.byContradiction fun hn => h ?_
  rw [← joinBytes_wordByte v, ← joinBytes_wordByte w]
  refine joinBytes_congr fun j hj => ?_
  exact Classical.byContradiction fun hx => hn ⟨j, hj, hx⟩

theorem nodePtr_eq {c : Config} (hrob : c.robust = true) (p : Nat) : nodePtr c p = p + c.stride * c.flCol := by
  unfold nodePtr cpuAddr Config.flCol
  cases c.cow <;> simp [hrob]

/-! ### The robust tests -/

/-- `robust-double-free`. -/
theorem test_double_free {c : Config} {g : Ghost} (h : Hist c false g) (hrob : c.robust = true) (hl : g.live = []) (env : RangeEnv)
    (henv : EnvOK c g.s.pool.ranges g.s.mem env) : testDoubleFree c env g.s = .aborted .doubleFree := by
  obtain ⟨p, s1, e1, h1⟩ := malloc_when_empty h hl env henv (.plain 0) (Nat.zero_le _)
  obtain ⟨s2, e2, h2, _⟩ := free_one h1
  have e3 := double_free_aborts h2 hrob p List.mem_cons_self
  dsimp only at e3
  unfold testDoubleFree mallocThen
  rw [e1]
  dsimp only [Outcome.andThen]
  rw [e2]
  dsimp only
  rw [e3]

/-- `robust-memory-leak`. -/
theorem test_memory_leak {c : Config} {g : Ghost} (h : Hist c false g) (hrob : c.robust = true) (hl : g.live = []) (env : RangeEnv)
    (henv : EnvOK c g.s.pool.ranges g.s.mem env) (ok : Nat → Bool) : testMemoryLeak c env ok g.s = .aborted .freeListCount := by
  obtain ⟨p, s1, e1, h1⟩ := malloc_when_empty h hl env henv (.plain 0) (Nat.zero_le _)
  have e2 := destroy_spec h1.valid h1.inv ok
  dsimp only at e2
  rw [if_pos ⟨hrob, List.cons_ne_nil _ _⟩] at e2
  unfold testMemoryLeak mallocThen
  rw [e1]
  dsimp only [Outcome.andThen]
  rw [e2]

theorem corrupted {c : Config} {s : State} {p : Nat} {F : List Nat} (h : Hist c false ⟨s, [], p :: F⟩) (hrob : c.robust = true)
    (v : Word) (hne : v ≠ 1#_) :
    Hist c true ⟨storeWord c (cpuAddr c p 0) 1#_ s, [], p :: F⟩ ∧ ∃ o, o < c.itemLen ∧
      (storeWord c (cpuAddr c p 0) 1#_ s).mem.read c.pg (cpuAddr c p 0 + o) ≠ wordByte v (o % wb) := by
  have hge := h.valid.item_ge
  refine ⟨hist_storeWord (h.relax hrob) (o := 0) (Or.inr ⟨rfl, List.mem_cons_self⟩) h.valid.ncpu_pos (by omega) _, ?_⟩
  obtain ⟨j, hj, hd⟩ := byte_ne hne
  refine ⟨j, by omega, ?_⟩
  rw [Nat.mod_eq_of_lt hj]
  have : (storeWord c (cpuAddr c p 0) 1#_ s).mem.read c.pg (cpuAddr c p 0 + j) = wordByte 1#_ j :=
    (read_writeBlock_self h.valid.pg_pos h.inv.wf hj).1
  rw [this]
  exact fun hx => hd hx.symm

/-- `robust-poison-corruption-malloc`. -/
theorem test_poison_malloc {c : Config} {g : Ghost} (h : Hist c false g) (hrob : c.robust = true) (hl : g.live = []) (v : Word)
    (hpv : c.poison = some v) (hne : v ≠ 1#_) (env env2 : RangeEnv) (henv : EnvOK c g.s.pool.ranges g.s.mem env) :
    testPoisonMalloc c env env2 g.s = .aborted .poison := by
  obtain ⟨p, s1, e1, h1⟩ := malloc_when_empty h hl env henv (.plain 0) (Nat.zero_le _)
  obtain ⟨s2, e2, h2, _⟩ := free_one h1
  obtain ⟨h3, o, ho, hbad⟩ := corrupted h2 hrob v hne
  have e3 := (use_after_free_detected h3 hrob v hpv p List.mem_cons_self 0 o h.valid.ncpu_pos ho hbad).2.1 (.plain 0) refuseEnv _
    (refuseEnv_ok _ _ _) (Nat.zero_le _) rfl
  dsimp only at e3
  rw [malloc_env (head_ne h.valid h3.inv rfl).2 _ _ env2] at e3
  unfold testPoisonMalloc mallocThen
  rw [e1]
  dsimp only [Outcome.andThen]
  rw [e2]
  dsimp only
  rw [e3]

/-- `robust-poison-corruption-destroy`. -/
theorem test_poison_destroy {c : Config} {g : Ghost} (h : Hist c false g) (hrob : c.robust = true) (hl : g.live = []) (v : Word)
    (hpv : c.poison = some v) (hne : v ≠ 1#_) (env : RangeEnv) (henv : EnvOK c g.s.pool.ranges g.s.mem env) (ok : Nat → Bool) :
    testPoisonDestroy c env ok g.s = .aborted .poison := by
  obtain ⟨p, s1, e1, h1⟩ := malloc_when_empty h hl env henv (.plain 0) (Nat.zero_le _)
  obtain ⟨s2, e2, h2, _⟩ := free_one h1
  obtain ⟨h3, o, ho, hbad⟩ := corrupted h2 hrob v hne
  have e3 := destroy_spec h3.valid h3.inv ok
  dsimp only at e3
  have hcheck : checkPoolPoison c (storeWord c (cpuAddr c p 0) 1#_ s2) = false := by
    cases hc : checkPoolPoison c (storeWord c (cpuAddr c p 0) 1#_ s2) with
    | false => rfl
    | true =>
      have hpos := h.valid.ncpu_pos
      exact absurd ((checkPoolPoison_iff h.valid h3.inv hrob hpv).1 hc p (Or.inr List.mem_cons_self) 0 o
        ⟨by omega, ho, Or.inl hrob⟩) hbad
  rw [if_neg (fun hx => hx.2 rfl), if_pos ⟨hrob, hcheck⟩] at e3
  unfold testPoisonDestroy mallocThen
  rw [e1]
  dsimp only [Outcome.andThen]
  rw [e2]
  dsimp only
  rw [e3]

/-- `robust-corrupt-after-free`, if the test function is not located inside the pool. -/
theorem test_corrupt_after_free {c : Config} {g : Ghost} (h : Hist c false g) (hrob : c.robust = true) (hl : g.live = [])
    (env : RangeEnv) (henv : EnvOK c g.s.pool.ranges g.s.mem env) (ok : Nat → Bool) (fn : Word) (hfn : fn ≠ 0#_)
    (hout : ∀ p s1, malloc c (.plain 0) env g.s = .ok (.ptr p, s1) → ∀ r ∈ s1.pool.ranges, ¬ InRegion c r.base fn.toNat) :
    ∃ w, testCorruptAfterFree c fn env ok g.s = .aborted w := by
  obtain ⟨p, s1, e1, h1⟩ := malloc_when_empty h hl env henv (.plain 0) (Nat.zero_le _)
  obtain ⟨s2, e2, h2, hb⟩ := free_one h1
  have hv := h.valid
  have hi := h2.inv
  have hhead := head_ne hv hi rfl
  dsimp only at hi hhead
  have hbad : ¬ ListIntact c (storeWord c (nodePtr c p) fn s2) := by
    rintro ⟨ns, hlk, hin, _⟩
    have hnx : ((storeWord c (nodePtr c p) fn s2).mem.readWord c.pg (p + c.stride * c.flCol)).toNat = fn.toNat := by
      show ((s2.mem.writeWord c.pg (nodePtr c p) fn).readWord c.pg _).toNat = _
      rw [nodePtr_eq hrob, readWord_writeWord_self hv.pg_pos hi.wf]
    have hf0 : fn.toNat ≠ 0 := fun hx => hfn (BitVec.eq_of_toNat_eq (by rw [hx]; simp))
    cases ns with
    | nil => exact hhead.2 hlk
    | cons n ns =>
      have h0 : s2.pool.head = n := hlk.1
      have h3 := hlk.2.2
      rw [hhead.1] at h0
      dsimp only at h3
      rw [← h0, hnx] at h3
      cases ns with
      | nil => exact hf0 h3
      | cons n2 ns =>
        have h4 : fn.toNat = n2 := h3.1
        obtain ⟨r, hr, h5, h6⟩ := hin n2 (List.mem_cons_of_mem _ List.mem_cons_self)
        have hr2 : r ∈ s2.pool.ranges := hr
        have hR := hi.ranges.each r hr2
        have hmem : r.base ∈ s1.pool.ranges.map (·.base) := by rw [← hb]; exact List.mem_map_of_mem hr2
        obtain ⟨r1, hr1, e⟩ := List.mem_map.1 hmem
        refine hout p s1 e1 r1 hr1 ?_
        have := hR.pos
        have := hv.pg_pos
        have := hR.nu
        rw [e]
        rw [← h4] at h5 h6
        have hmul : c.stride * c.ncpu = c.ncpu * c.stride := Nat.mul_comm _ _
        unfold freeListToPercpu at h5 h6
        unfold InRegion rangeLen
        rw [hrob] at h5 h6 ⊢
        cases hc : c.cow
        all_goals
          rw [hc] at h5 h6
          simp only [if_true, if_false, Bool.false_eq_true] at h5 h6 ⊢
          generalize c.ncpu * c.stride = x at *
          omega
  have hacc := mappings_ok hi
  obtain ⟨w, e3⟩ := destroy_corrupt_list_aborts hv (storeWord c (nodePtr c p) fn s2) hi.ranges.each hrob hacc hi.mapped ok hbad
  refine ⟨w, ?_⟩
  unfold testCorruptAfterFree mallocThen
  rw [e1]
  dsimp only [Outcome.andThen]
  rw [e2]
  dsimp only
  rw [e3]

/-- What the test's store into a free-list node does not touch. -/
theorem node_store_keeps {c : Config} {uaf : Bool} {s : State} {L F : List Nat} (hv : Valid c) (hi : Inv c uaf s L F)
    (hrob : c.robust = true) {p : Nat} (hp : p ∈ F) (w : Word) {col o : Nat} (hpb : PoisonByte c col o) :
    (s.mem.writeWord c.pg (p + c.stride * c.flCol) w).read c.pg (p + c.stride * col + o) = s.mem.read c.pg (p + c.stride * col + o) := by
  have hge := hv.item_ge
  have hcol : col < c.flCol := by
    have := hpb.1
    unfold Config.flCol
    cases hc : c.cow <;> simp [hc, hrob] at this ⊢ <;> omega
  have hdisj : ∀ i, i < c.flCol → ∀ j, j < wb → p + c.stride * i + o ≠ p + c.stride * c.flCol + j := fun i hi' j hj =>
    slot_col_disj (hi.slotF hp) (by omega) hpb.2.1 (by omega)
  have key : ∀ i, i < c.flCol → ¬ (p + c.stride * c.flCol ≤ p + c.stride * i + o ∧ p + c.stride * i + o < p + c.stride * c.flCol + wb) := by
    rintro i hi' ⟨h1, h2⟩
    exact hdisj i hi' (p + c.stride * i + o - (p + c.stride * c.flCol)) (by omega) (by omega)
  have hf : Mem.Frame c.pg (fun x => p + c.stride * c.flCol ≤ x ∧ x < p + c.stride * c.flCol + wb) s.mem
      (s.mem.writeWord c.pg (p + c.stride * c.flCol) w) := Frame.writeWord hv.pg_pos
  refine hf.rd hi.wf _ (key col hcol) ?_
  rcases hi.shape.slot (hi.slotF hp) hpb.col_lt hpb.2.1 with e | ⟨hc, _, e⟩
  · rw [e]; exact key col hcol
  · rw [e]
    refine key c.ncpu ?_
    unfold Config.flCol
    simp [hc, hrob]

/-- `robust-free-list-corruption`: a node that points to itself is handed out once and caught the second time. -/
theorem test_free_list_corruption {c : Config} {g : Ghost} (h : Hist c false g) (hrob : c.robust = true) (hl : g.live = [])
    (env env2 env3 : RangeEnv) (henv : EnvOK c g.s.pool.ranges g.s.mem env) :
    testFreeListCorruption c env env2 env3 g.s = .aborted .allocatorCorruption := by
  obtain ⟨p, s1, e1, h1⟩ := malloc_when_empty h hl env henv (.plain 0) (Nat.zero_le _)
  obtain ⟨s2, e2, h2, hb⟩ := free_one h1
  have hv := h.valid
  have hi := h2.inv
  have hhead := head_ne hv hi rfl
  dsimp only at hi hhead
  obtain ⟨v, hpv⟩ := Option.isSome_iff_exists.1 (hv.robust_poison hrob)
  obtain ⟨r, hr, k, hk, e⟩ := (hi.used p).2 (Or.inr List.mem_cons_self)
  have hR := hi.ranges.each r hr
  have hkS : k * c.itemLen + c.itemLen ≤ c.stride := Nat.le_trans (lt_item_of_lt hR.nud hk) hR.nu
  have hmod : p % c.stride = k * c.itemLen := by rw [e]; exact slot_base hv hi.ranges hr hkS
  have hbase : p - p % c.stride = r.base := by rw [hmod, e]; omega
  have hoff : p - r.base = k * c.itemLen := by omega
  obtain ⟨bm, hbm⟩ := Option.isSome_iff_exists.1 (hR.bm.trans hrob)
  have hbit : ¬ bitTest bm k = true := by
    intro hx
    have := ((hi.bits r hr bm hbm k).1 hx).2
    cases this
  -- the corrupted node
  have hnode : nodePtr c p = s2.pool.head := by rw [nodePtr_eq hrob, hhead.1]
  have hlt : p + c.stride * c.flCol < 2 ^ (8 * wb) := by
    have htop := hR.top
    have hin := col_in (c := c) (base := r.base) (i := c.flCol) (a := k * c.itemLen) hv.flCol_lt (by have := hv.item_pos; omega)
    have := hin.2
    omega
  let m := s2.mem.writeWord c.pg (p + c.stride * c.flCol) (BitVec.ofNat (8 * wb) (p + c.stride * c.flCol))
  have hst : storeWord c (nodePtr c p) (BitVec.ofNat (8 * wb) (nodePtr c p)) s2 = { s2 with mem := m } := by
    unfold storeWord
    rw [nodePtr_eq hrob]
  have hnext : (m.readWord c.pg (p + c.stride * c.flCol)).toNat = p + c.stride * c.flCol := by
    show ((s2.mem.writeWord c.pg _ _).readWord c.pg _).toNat = _
    rw [readWord_writeWord_self hv.pg_pos hi.wf, BitVec.toNat_ofNat, Nat.mod_eq_of_lt hlt]
  have hpo : ∀ col o, PoisonByte c col o → m.read c.pg (p + c.stride * col + o) = pat v o := by
    intro col o hpb
    have := node_store_keeps hv hi hrob (p := p) List.mem_cons_self (BitVec.ofNat (8 * wb) (p + c.stride * c.flCol)) hpb
    exact this.trans (hi.poison rfl v hpv p List.mem_cons_self col o hpb)
  have hchk : ∀ r' : Range, r'.base = r.base → r'.init = r.init → checkPoisonItem c r' (k * c.itemLen) m = true := by
    intro r' hb' hin'
    rw [checkPoisonItem_iff hv hrob hpv (r := r') (by rw [hin', hb']; exact hR.init_eq)]
    intro col o hpb
    rw [hb', ← e]
    exact hpo col o hpb
  let r' : Range := { r with bitmap := some (bitSet bm k) }
  have hto : freeListToPercpu c s2.pool.head = p := by rw [hhead.1, toPercpu_toFreeList]
  -- first allocation
  have hfind : findRange s2.pool.ranges r.base = some r := findRange_eq hi.ranges.nodup hr
  have e3 : malloc c (.plain 0) env2 { s2 with mem := m } = .ok (.ptr p, { s2 with
      mem := m, pool := { s2.pool with ranges := putRange s2.pool.ranges r', head := s2.pool.head } }) := by
    unfold malloc
    rw [if_neg (by show ¬ (0 > c.itemLen); omega)]
    unfold lockedAlloc
    dsimp only
    rw [if_pos hhead.2, hto, hbase, hfind]
    dsimp only
    rw [hoff, hchk r rfl rfl]
    unfold takeSlot setAllocSlot
    dsimp only [Bool.not_true]
    rw [hv.shr, hbm]
    dsimp only
    rw [if_neg hbit]
    rw [hhead.1, hnext]
    rfl
  -- second allocation
  have hfind2 : findRange (putRange s2.pool.ranges r') r.base = some r' := by
    refine findRange_eq (r := r') ?_ ((mem_putRange (r' := r') (x := r') ⟨r, hr, rfl⟩).2 (Or.inl rfl))
    rw [map_base_putRange]; exact hi.ranges.nodup
  have hset : bitTest (bitSet bm k) k = true := by rw [bitTest_bitSet]; exact Or.inl rfl
  have e4 : malloc c (.plain 0) env3 { s2 with
      mem := m, pool := { s2.pool with ranges := putRange s2.pool.ranges r', head := s2.pool.head } } = .aborted .allocatorCorruption := by
    unfold malloc
    rw [if_neg (by show ¬ (0 > c.itemLen); omega)]
    unfold lockedAlloc
    dsimp only
    rw [if_pos hhead.2, hto, hbase, hfind2]
    dsimp only
    rw [hoff, hchk r' rfl rfl]
    unfold takeSlot setAllocSlot
    dsimp only [Bool.not_true]
    rw [hv.shr, show r'.bitmap = some (bitSet bm k) from rfl]
    dsimp only
    rw [if_pos hset]
    rfl
  unfold testFreeListCorruption mallocThen
  rw [e1]
  dsimp only [Outcome.andThen]
  rw [e2]
  dsimp only
  rw [hst, e3]
  dsimp only
  rw [e4]

/-- `run_fork_destroy_pool_test` (343-370): the child destroys a pool without live items. -/
theorem test_fork_destroy {c : Config} {g : Ghost} (h : Hist c false g) (hl : g.live = []) :
    ∃ d, destroy c (fun _ => true) (forkChild c g.s) = .ok d ∧ d.ret = 0 ∧ d.left = [] := by
  cases hc : c.cow with
  | true => exact ⟨_, (destroy_in_child_partial h hc (fun _ => hl) _ (fun _ => rfl)).2, rfl, rfl⟩
  | false =>
    have : forkChild c g.s = g.s := by unfold forkChild; rw [hc]; rfl
    rw [this]
    obtain ⟨d, e⟩ := (no_false_alarm h).2.2 hl (fun _ => true)
    refine ⟨d, e, ?_⟩
    rw [destroy_spec h.valid h.inv] at e
    split at e
    · cases e
    · split at e
      · cases e
      · have hnl : ∀ r ∈ g.s.pool.ranges, leaked c r = false := by
          have hi := h.inv
          rw [hl] at hi
          exact not_leaked hi
        rw [destroyLoop_ok (fun _ => rfl) hnl] at e
        cases e
        exact ⟨rfl, rfl⟩

/-! ### The fill test -/

theorem store_other {c : Config} {uaf : Bool} {s : State} {L F : List Nat} (h : Hist c uaf ⟨s, L, F⟩) {p q cpu cpu' o o' : Nat}
    (hp : p ∈ L) (hq : q ∈ L) (hcpu : cpu < c.ncpu) (hcpu' : cpu' < c.ncpu) (ho : o < c.itemLen) (ho' : o' < c.itemLen)
    (hne : ¬ (q = p ∧ cpu' = cpu ∧ o' = o)) (b : Byte) :
    (store c (cpuAddr c p cpu + o) b s).mem.read c.pg (cpuAddr c q cpu' + o') = s.mem.read c.pg (cpuAddr c q cpu' + o') := by
  have hn := ncpu_le_nCols c
  have hi := h.inv
  obtain ⟨r, hr, k, hk, e⟩ := hi.slotL hq
  refine (store_isolated h p cpu o hp hcpu ho b).2 r hr _ ?_ ?_
  · have := col_in (c := c) (base := r.base) (i := cpu') (a := k * c.itemLen + o') (by omega) (by omega)
    unfold cpuAddr
    rw [e, show r.base + k * c.itemLen + c.stride * cpu' + o' = r.base + c.stride * cpu' + (k * c.itemLen + o') by omega]
    exact this
  · unfold cpuAddr
    by_cases hqp : q = p
    · subst hqp
      by_cases hc : cpu' = cpu
      · subst hc
        intro hx
        exact hne ⟨rfl, rfl, by omega⟩
      · exact slot_col_disj (hi.slotL hq) hc ho' ho
    · exact slot_disj hi.ranges (hi.slotL hq) (hi.slotL hp) hqp (by omega) (by omega) ho' ho

theorem storeWord_other {c : Config} {uaf : Bool} {s : State} {L F : List Nat} (h : Hist c uaf ⟨s, L, F⟩) {p q cpu cpu' o o' : Nat}
    (hp : p ∈ L) (hq : q ∈ L) (hcpu : cpu < c.ncpu) (hcpu' : cpu' < c.ncpu) (ho : o + wb ≤ c.itemLen) (ho' : o' < c.itemLen)
    (hne : ¬ (q = p ∧ cpu' = cpu ∧ o ≤ o' ∧ o' < o + wb)) (w : Word) :
    (storeWord c (cpuAddr c p cpu + o) w s).mem.read c.pg (cpuAddr c q cpu' + o') = s.mem.read c.pg (cpuAddr c q cpu' + o') := by
  have : ∀ n, n ≤ wb →
      Hist c uaf ⟨{ s with mem := s.mem.writeBlock c.pg (cpuAddr c p cpu + o) (wordByte w) n }, L, F⟩ ∧
      (s.mem.writeBlock c.pg (cpuAddr c p cpu + o) (wordByte w) n).read c.pg (cpuAddr c q cpu' + o') =
        s.mem.read c.pg (cpuAddr c q cpu' + o') := by
    intro n
    induction n with
    | zero => exact fun _ => ⟨h, rfl⟩
    | succ n ih =>
      intro hn
      obtain ⟨h1, h2⟩ := ih (by omega)
      have hr := Reach.step _ _ h1.reach (.store _ p cpu (o + n) (wordByte w n) (Or.inl hp) hcpu (by omega))
      have h3 := store_other h1 hp hq hcpu hcpu' (o := o + n) (by omega) ho' (by rintro ⟨a, b, d⟩; exact hne ⟨a, b, by omega, by omega⟩)
        (wordByte w n)
      rw [← Nat.add_assoc] at hr h3
      exact ⟨⟨h.valid, hr, h.mode⟩, h3.trans h2⟩
  exact (this wb (Nat.le_refl _)).2

theorem storeWord_self {c : Config} {uaf : Bool} {s : State} {L F : List Nat} (h : Hist c uaf ⟨s, L, F⟩) (a : Nat) (w : Word)
    {j : Nat} (hj : j < wb) : (storeWord c a w s).mem.read c.pg (a + j) = wordByte w j :=
  (read_writeBlock_self h.valid.pg_pos h.inv.wf hj).1

/-- What holds in the fill loop: the list is exactly the live items, `value[0]` is zero everywhere, `backref` is right. -/
structure Filled (c : Config) (s : State) (L : List Nat) : Prop where
  hist : ∃ live, Hist c false ⟨s, live, []⟩ ∧ live.Perm L
  zero : ∀ q ∈ L, ∀ cpu, cpu < c.ncpu → ∀ j, j < wb → s.mem.read c.pg (cpuAddr c q cpu + j) = 0#8
  back : ∀ q ∈ L, ∀ j, j < wb → s.mem.read c.pg (cpuAddr c q 0 + (2 * wb + j)) = wordByte (BitVec.ofNat (8 * wb) q) j

theorem Filled.link {c : Config} (hlen : 5 * wb ≤ c.itemLen) {K : List Nat} {s s' : State} (hl : LinkStores c K s s') {L : List Nat}
    (hK : ∀ q ∈ K, q ∈ L) (h : Filled c s L) : Filled c s' L := by
  induction hl with
  | refl s => exact h
  | step s q o b s' hq h1 h2 _ ih =>
    apply ih
    obtain ⟨live, hh, hp⟩ := h.hist
    have hpos := hh.valid.ncpu_pos
    have hq' := hp.symm.subset (hK q hq)
    have hr := Reach.step _ _ hh.reach (.store _ q 0 o b (Or.inl hq') hpos (by omega))
    have hwb := wb_pos
    refine ⟨⟨live, ⟨hh.valid, hr, hh.mode⟩, hp⟩, ?_, ?_⟩
    · intro q' hq2 cpu hcpu j hj
      rw [store_other hh hq' (hp.symm.subset hq2) hpos hcpu (by omega) (by omega) (by rintro ⟨_, _, hx⟩; omega) b]
      exact h.zero q' hq2 cpu hcpu j hj
    · intro q' hq2 j hj
      rw [store_other hh hq' (hp.symm.subset hq2) hpos hpos (by omega) (by omega) (by rintro ⟨_, _, hx⟩; omega) b]
      exact h.back q' hq2 j hj

theorem fill_inv {c : Config} (hlen : 5 * wb ≤ c.itemLen) {s0 : State} (h0 : Hist c false ⟨s0, [], []⟩) {s : State} {L : List Nat}
    (hs : FillSteps c s0 s L) : Filled c s L := by
  induction hs with
  | nil => exact ⟨⟨[], h0, List.Perm.refl _⟩, (fun q hq => by cases hq), (fun q hq => by cases hq)⟩
  | more s L env p s1 s2 _ henv h hl ih =>
    obtain ⟨live, hh, hp⟩ := ih.hist
    have hpos := hh.valid.ncpu_pos
    have hwb := wb_pos
    have h1 : Hist c false ⟨s1, p :: live, []⟩ := ⟨hh.valid, Reach.step _ _ hh.reach (.mallocPtr _ .zero env p s1 henv h), hh.mode⟩
    have hperm : (p :: live).Perm (if L.length % 2 = 1 then p :: L else L ++ [p]) := by
      split
      · exact hp.cons p
      · exact (hp.cons p).trans (List.perm_append_singleton p L).symm
    have hpn : p ∉ live := (List.nodup_cons.1 (by simpa using h1.inv.nodup)).1
    have hkeep := fun q (hq : q ∈ live) cpu o => malloc_keeps_live hh env henv .zero _ s1 h q hq cpu o
    refine Filled.link hlen hl (L := if L.length % 2 = 1 then p :: L else L ++ [p]) ?_ ?_
    · intro q hq
      refine hperm.subset ?_
      rcases List.mem_cons.1 hq with rfl | hq
      · exact List.mem_cons_self
      · exact List.mem_cons_of_mem _ (hp.symm.subset hq)
    · refine ⟨⟨_, hist_storeWord h1 (Or.inl List.mem_cons_self) hpos (by omega) _, hperm⟩, ?_, ?_⟩
      · intro q hq cpu hcpu j hj
        have hq' := hperm.symm.subset hq
        rw [storeWord_other h1 List.mem_cons_self hq' hpos hcpu (by omega) (by omega) (by rintro ⟨_, _, hx, _⟩; omega)]
        rcases List.mem_cons.1 hq' with rfl | hq2
        · exact zmalloc_zero hh env henv q s1 h cpu j hcpu (by omega)
        · rw [hkeep q hq2 cpu j hcpu (by omega)]
          exact ih.zero q (hp.subset hq2) cpu hcpu j hj
      · intro q hq j hj
        have hq' := hperm.symm.subset hq
        by_cases hqp : q = p
        · subst hqp
          rw [← Nat.add_assoc]
          exact storeWord_self h1 _ _ hj
        · rw [storeWord_other h1 List.mem_cons_self hq' hpos hpos (by omega) (by omega) (by rintro ⟨hx, _⟩; exact hqp hx)]
          rcases List.mem_cons.1 hq' with hx | hq2
          · exact absurd hx hqp
          · rw [hkeep q hq2 0 (2 * wb + j) hpos (by omega)]
            exact ih.back q (hp.subset hq2) j hj

/-- The value read through `backref`. -/
theorem back_load {c : Config} {uaf : Bool} {s : State} {L F : List Nat} (h : Hist c uaf ⟨s, L, F⟩) {q : Nat} (hq : q ∈ L)
    (hb : ∀ j, j < wb → s.mem.read c.pg (cpuAddr c q 0 + (2 * wb + j)) = wordByte (BitVec.ofNat (8 * wb) q) j) :
    (loadWord c (cpuAddr c q 0 + 2 * wb) s).toNat = q := by
  have : loadWord c (cpuAddr c q 0 + 2 * wb) s = BitVec.ofNat (8 * wb) q := by
    unfold loadWord
    rw [readWord_eq_iff]
    intro j hj
    rw [Nat.add_assoc]
    exact hb j hj
  rw [this, BitVec.toNat_ofNat, Nat.mod_eq_of_lt]
  obtain ⟨r, hr, k, hk, e⟩ := h.inv.slotL hq
  have htop := (h.inv.ranges.each r hr).top
  have hnc := h.valid.ncpu_pos
  have hle := ncpu_le_nCols c
  have hin := col_in (c := c) (base := r.base) (i := 0) (a := k * c.itemLen) (by omega) (by have := h.valid.item_pos; omega)
  have := hin.2
  omega

theorem checkCpus_ok {c : Config} {p : Nat} (n : Nat) : ∀ (i : Nat) (s : State) (live F : List Nat), Hist c false ⟨s, live, F⟩ → p ∈ live →
    i + n = c.ncpu → (∀ cpu, i ≤ cpu → cpu < c.ncpu → ∀ j, j < wb → s.mem.read c.pg (cpuAddr c p cpu + j) = 0#8) →
    ∃ s', checkCpus c p n i s = some s' ∧ Hist c false ⟨s', live, F⟩ ∧
      ∀ q ∈ live, ∀ cpu o, cpu < c.ncpu → o < c.itemLen → ¬ (q = p ∧ o < wb) →
        s'.mem.read c.pg (cpuAddr c q cpu + o) = s.mem.read c.pg (cpuAddr c q cpu + o) := by
  induction n with
  | zero => exact fun i s live F h _ _ _ => ⟨s, rfl, h, fun _ _ _ _ _ _ _ => rfl⟩
  | succ n ih =>
    intro i s live F h hp hin hz
    have hge := h.valid.item_ge
    have h0 : loadWord c (cpuAddr c p i) s = 0#_ := by
      unfold loadWord
      rw [readWord_eq_iff]
      intro j hj
      rw [hz i (Nat.le_refl _) (by omega) j hj]
      simp [wordByte]
    have hw := hist_storeWord h (p := p) (cpu := i) (o := 0) (Or.inl hp) (by omega) (by omega) (loadWord c (cpuAddr c p i) s + 1#_)
    rw [Nat.add_zero] at hw
    have hot : ∀ q ∈ live, ∀ cpu o, cpu < c.ncpu → o < c.itemLen → ¬ (q = p ∧ cpu = i ∧ o < wb) →
        (storeWord c (cpuAddr c p i) (loadWord c (cpuAddr c p i) s + 1#_) s).mem.read c.pg (cpuAddr c q cpu + o) =
          s.mem.read c.pg (cpuAddr c q cpu + o) := by
      intro q hq cpu o hcpu ho hne
      exact storeWord_other h (p := p) (cpu := i) (o := 0) hp hq (by omega) hcpu (by omega) ho
        (by rintro ⟨a, b, _, d⟩; exact hne ⟨a, b, by omega⟩) _
    obtain ⟨s', e, h', hk⟩ := ih (i + 1) _ live F hw hp (by omega) (by
      intro cpu h1 h2 j hj
      rw [hot p hp cpu j h2 (by omega) (by rintro ⟨_, hx, _⟩; omega)]
      exact hz cpu (by omega) h2 j hj)
    refine ⟨s', ?_, h', ?_⟩
    · unfold checkCpus
      rw [if_neg (fun hx => hx h0)]
      exact e
    · intro q hq cpu o hcpu ho hne
      rw [hk q hq cpu o hcpu ho hne, hot q hq cpu o hcpu ho (fun hx => hne ⟨hx.1, hx.2.2⟩)]

theorem checkAll_ok {c : Config} (hlen : 5 * wb ≤ c.itemLen) (K : List Nat) : ∀ (s : State) (live F : List Nat),
    Hist c false ⟨s, live, F⟩ → (∀ q ∈ K, q ∈ live) → K.Nodup →
    (∀ q ∈ K, ∀ cpu, cpu < c.ncpu → ∀ j, j < wb → s.mem.read c.pg (cpuAddr c q cpu + j) = 0#8) →
    (∀ q ∈ live, ∀ j, j < wb → s.mem.read c.pg (cpuAddr c q 0 + (2 * wb + j)) = wordByte (BitVec.ofNat (8 * wb) q) j) →
    ∃ s', checkAll c K s = some s' ∧ Hist c false ⟨s', live, F⟩ ∧
      ∀ q ∈ live, ∀ j, j < wb → s'.mem.read c.pg (cpuAddr c q 0 + (2 * wb + j)) = wordByte (BitVec.ofNat (8 * wb) q) j := by
  induction K with
  | nil => exact fun s live F h _ _ _ hb => ⟨s, rfl, h, hb⟩
  | cons p K ih =>
    intro s live F h hK hnd hz hb
    have hp := hK p List.mem_cons_self
    have hwb := wb_pos
    rw [List.nodup_cons] at hnd
    have hload := back_load h hp (hb p hp)
    obtain ⟨s1, e1, h1, hk1⟩ := checkCpus_ok c.ncpu 0 s live F h hp (by omega) (fun cpu _ hc => hz p List.mem_cons_self cpu hc)
    obtain ⟨s', e, h', hb'⟩ := ih s1 live F h1 (fun q hq => hK q (List.mem_cons_of_mem _ hq)) hnd.2
      (by
        intro q hq cpu hcpu j hj
        rw [hk1 q (hK q (List.mem_cons_of_mem _ hq)) cpu j hcpu (by omega) (by rintro ⟨rfl, _⟩; exact hnd.1 hq)]
        exact hz q (List.mem_cons_of_mem _ hq) cpu hcpu j hj)
      (by
        intro q hq j hj
        rw [hk1 q hq 0 _ h.valid.ncpu_pos (by omega) (by rintro ⟨_, hx⟩; omega)]
        exact hb q hq j hj)
    refine ⟨s', ?_, h', hb'⟩
    unfold checkAll
    rw [hload, e1]
    exact e

theorem freeAll_ok {c : Config} (hlen : 5 * wb ≤ c.itemLen) (K : List Nat) : ∀ (s : State) (live F : List Nat),
    Hist c false ⟨s, live, F⟩ → live.Perm K →
    (∀ q ∈ live, ∀ j, j < wb → s.mem.read c.pg (cpuAddr c q 0 + (2 * wb + j)) = wordByte (BitVec.ofNat (8 * wb) q) j) →
    ∃ s' F', freeAll c K s = .ok s' ∧ Hist c false ⟨s', [], F'⟩ ∧ (K ≠ [] ∨ F ≠ [] → F' ≠ []) := by
  induction K with
  | nil =>
    intro s live F h hp _
    rw [hp.eq_nil] at h
    exact ⟨s, F, rfl, h, fun hx => hx.resolve_left (fun hx => hx rfl)⟩
  | cons p K ih =>
    intro s live F h hperm hb
    have hp : p ∈ live := hperm.symm.subset List.mem_cons_self
    have hload := back_load h hp (hb p hp)
    obtain ⟨s1, e1, hk⟩ := free_keeps_live h p hp
    have h1 : Hist c false ⟨s1, live.erase p, p :: F⟩ := ⟨h.valid, Reach.step _ _ h.reach (.free _ p s1 hp e1), h.mode⟩
    have hnd : live.Nodup := (List.nodup_append.1 h.inv.nodup).1
    obtain ⟨s', F', e, h', hne'⟩ := ih s1 _ _ h1 (by simpa using hperm.erase p) (by
      intro q hq j hj
      have hq' := List.mem_of_mem_erase hq
      have hne : q ≠ p := by
        rintro rfl
        exact hnd.not_mem_erase hq
      rw [hk q hq' hne 0 _ h.valid.ncpu_pos (by omega)]
      exact hb q hq' j hj)
    refine ⟨s', F', ?_, h', fun _ => hne' (Or.inr (List.cons_ne_nil _ _))⟩
    unfold freeAll
    rw [hload, e1]
    exact e

/-- A pool with a freed item hands it out, whatever the system would answer. -/
theorem malloc_from_freed {c : Config} {s : State} {p : Nat} {F : List Nat} (h : Hist c false ⟨s, [], p :: F⟩) (env : RangeEnv)
    (fill : Fill) (hlen : fill.len ≤ c.itemLen) :
    ∃ s', malloc c fill env s = .ok (.ptr p, s') ∧ Hist c false ⟨s', [p], F⟩ := by
  obtain ⟨s', e⟩ := malloc_reuses_freed h refuseEnv (refuseEnv_ok _ _ _) fill hlen p F rfl
  refine ⟨s', ?_, h.valid, ?_, h.mode⟩
  · rw [malloc_env (head_ne h.valid h.inv rfl).2 fill env refuseEnv]
    exact e
  · have := Reach.step _ _ h.reach (.mallocPtr _ fill refuseEnv p s' (refuseEnv_ok _ _ _) e)
    simpa using this

/-- The fill loop never aborts and ends: at most as many items as the ranges hold. -/
theorem test_fill_runs {c : Config} (hlen : 5 * wb ≤ c.itemLen) {s0 : State} (h0 : Hist c false ⟨s0, [], []⟩) (hmax : c.maxRanges ≠ 0)
    {s : State} {L : List Nat} (hs : FillSteps c s0 s L) :
    (∀ env, EnvOK c s.pool.ranges s.mem env → ∃ ret s', malloc c .zero env s = .ok (ret, s')) ∧
    L.length ≤ c.maxRanges * itemsPerRange c := by
  obtain ⟨live, hh, hp⟩ := (fill_inv hlen h0 hs).hist
  refine ⟨fun env henv => (no_false_alarm hh).1 .zero env henv, ?_⟩
  rw [← hp.length_eq]
  exact (capacity_bound hh hmax).2

/-- `destroy` of a pool without live items, all `munmap` calls working. -/
theorem destroy_empty {c : Config} {g : Ghost} (h : Hist c false g) (hl : g.live = []) :
    ∃ d, destroy c (fun _ => true) g.s = .ok d ∧ d.ret = 0 := by
  obtain ⟨d, e⟩ := (no_false_alarm h).2.2 hl (fun _ => true)
  refine ⟨d, e, ?_⟩
  rw [destroy_spec h.valid h.inv] at e
  split at e
  · cases e
  · split at e
    · cases e
    · have hi := h.inv
      rw [hl] at hi
      rw [destroyLoop_ok (fun _ => rfl) (not_leaked hi)] at e
      cases e
      rfl

/-- The fill test: once the allocation has returned NULL, without the system refusing memory while the pool may grow, the
number of items is as expected, all checks pass, the remaining calls succeed and `rseq_mempool_destroy` returns zero. -/
theorem test_fill {c : Config} (hlen : 5 * wb ≤ c.itemLen) {s0 : State} (h0 : Hist c false ⟨s0, [], []⟩) (hmax : c.maxRanges ≠ 0)
    {s : State} {L : List Nat} (hs : FillSteps c s0 s L) (env : RangeEnv) (henv : EnvOK c s.pool.ranges s.mem env)
    (hnr : s.pool.ranges.length < c.maxRanges → ¬ Refused c env) (e : Errno) (s' : State)
    (hnull : malloc c .zero env s = .ok (.null e, s')) (env1 env2 : RangeEnv) :
    fillRest c c.maxRanges env1 env2 (fun _ => true) L s' = .ok (some 0) := by
  have hF := fill_inv hlen h0 hs
  obtain ⟨live, hh, hp⟩ := hF.hist
  have hv := hh.valid
  have hge := hv.item_ge
  have hwb := wb_pos
  obtain ⟨⟨hff, hcnt, hwhy⟩, he⟩ := And.imp (fun x => x.1 ⟨e, s', hnull⟩) (fun x => x e s' hnull)
    (malloc_fails_iff hh env henv .zero (Nat.zero_le _))
  have hss : s' = s := he.2
  rw [hss]
  dsimp only at hcnt hwhy
  have hcap := (capacity_bound hh hmax).1
  dsimp only at hcap
  have hlenR : s.pool.ranges.length = c.maxRanges := by
    rcases hwhy with ⟨_, hx⟩ | hx
    · omega
    · rcases Nat.lt_or_ge s.pool.ranges.length c.maxRanges with hlt | hge
      · exact absurd hx (hnr hlt)
      · omega
  have hL : L.length * c.itemLen = c.stride * c.maxRanges := by
    rw [← hp.length_eq, hcnt, hlenR, Nat.mul_assoc, Nat.mul_comm c.stride]
    unfold itemsPerRange
    rw [Nat.div_mul_cancel hv.item_dvd]
  have hnd : L.Nodup := hp.nodup_iff.1 (List.nodup_append.1 hh.inv.nodup).1
  obtain ⟨s1, e1, h1, hb1⟩ := checkAll_ok hlen L s live [] hh (fun q hq => hp.symm.subset hq) hnd hF.zero
    (fun q hq => hF.back q (hp.subset hq))
  obtain ⟨s2, F2, e2, h2, hne2⟩ := freeAll_ok hlen L s1 live [] h1 hp hb1
  have hLne : L ≠ [] := by
    rintro rfl
    have := Nat.mul_pos hv.stride_pos (show 0 < c.maxRanges by omega)
    simp at hL
    omega
  obtain ⟨p2, F2', hF2⟩ := List.exists_cons_of_ne_nil (hne2 (Or.inl hLne))
  rw [hF2] at h2
  obtain ⟨s3, e3, h3⟩ := malloc_from_freed h2 env1 .zero (Nat.zero_le _)
  obtain ⟨s4, e4, h4, _⟩ := free_one h3
  have hfill : (Fill.init initValue (5 * wb)).len ≤ c.itemLen := hlen
  obtain ⟨s5, e5, h5⟩ := malloc_from_freed h4 env2 (.init initValue (5 * wb)) hfill
  have e5' := e5
  rw [malloc_env (head_ne hv h4.inv rfl).2 _ env2 refuseEnv] at e5'
  have hcont := malloc_init_content h4 refuseEnv (refuseEnv_ok _ _ _) initValue (5 * wb) p2 s5 e5' 0
  rw [show cpuAddr c p2 0 = p2 by unfold cpuAddr; omega] at hcont
  have hv1 : loadWord c p2 s5 = 123#_ := by
    unfold loadWord
    rw [readWord_eq_iff]
    intro j hj
    rw [hcont j hv.ncpu_pos (by omega)]
    unfold initValue
    rw [if_pos hj]
  have hv2 : loadWord c (p2 + wb) s5 = 456#_ := by
    unfold loadWord
    rw [readWord_eq_iff]
    intro j hj
    rw [Nat.add_assoc, hcont (wb + j) hv.ncpu_pos (by omega)]
    unfold initValue
    rw [if_neg (by omega), if_pos (by omega), Nat.add_sub_cancel_left]
  obtain ⟨s6, e6, h6, _⟩ := free_one h5
  obtain ⟨d, e7, hd⟩ := destroy_empty h6 rfl
  dsimp only at e7
  unfold fillRest
  rw [if_neg (fun hx => hx hL), e1]
  dsimp only
  rw [e2]
  dsimp only [Outcome.andThen, mallocThen]
  rw [e3]
  dsimp only
  rw [e4]
  dsimp only
  rw [e5]
  dsimp only
  rw [if_pos ⟨hv1, hv2⟩, e6]
  dsimp only
  rw [e7]
  dsimp only
  rw [hd]

/-- If the system answers every request for memory, the fill loop comes to its end. -/
theorem test_fill_ends {c : Config} (hlen : 5 * wb ≤ c.itemLen) {s0 : State} (h0 : Hist c false ⟨s0, [], []⟩) (hmax : c.maxRanges ≠ 0)
    (hsys : ∀ s L, FillSteps c s0 s L → ∃ env, EnvOK c s.pool.ranges s.mem env ∧ (s.pool.ranges.length < c.maxRanges → ¬ Refused c env)) :
    ∃ s L env e s', FillSteps c s0 s L ∧ EnvOK c s.pool.ranges s.mem env ∧ (s.pool.ranges.length < c.maxRanges → ¬ Refused c env) ∧
      malloc c .zero env s = .ok (.null e, s') := by
  have : ∀ n s L, FillSteps c s0 s L → c.maxRanges * itemsPerRange c < L.length + n →
      ∃ s L env e s', FillSteps c s0 s L ∧ EnvOK c s.pool.ranges s.mem env ∧ (s.pool.ranges.length < c.maxRanges → ¬ Refused c env) ∧
        malloc c .zero env s = .ok (.null e, s') := by
    intro n
    induction n with
    | zero =>
      intro s L hs hn
      have := (test_fill_runs hlen h0 hmax hs).2
      omega
    | succ n ih =>
      intro s L hs hn
      obtain ⟨env, henv, hnr⟩ := hsys s L hs
      obtain ⟨ret, s1, e⟩ := (test_fill_runs hlen h0 hmax hs).1 env henv
      cases ret with
      | null er => exact ⟨s, L, env, er, s1, hs, henv, hnr, e⟩
      | ptr p =>
        refine ih _ _ (.more s L env p s1 _ hs henv e (.refl _)) ?_
        split <;> simp <;> omega
  exact this (c.maxRanges * itemsPerRange c + 1) s0 [] .nil (by rw [List.length_nil]; omega)

/-! ### The tests on the pools they create -/

theorem testDataLen_toNat : (testDataLen).toNat = 5 * wb ∧ (testDataLen).toNat ≤ 2 ^ (8 * wb - 1) := by
  have : (testDataLen).toNat = 5 * wb := by
    unfold testDataLen
    rw [BitVec.toNat_ofNat]
    apply Nat.mod_eq_of_lt
    rcases Abi.wb_eq with h | h <;> rw [h] <;> decide
  refine ⟨this, ?_⟩
  rw [this]
  rcases Abi.wb_eq with h | h <;> rw [h] <;> decide

theorem askedPoison_ne (cow : Bool) : askedPoison cow ≠ 1#_ := by
  rename_i inst
  obtain ⟨w, hw, be⟩ := inst
  rcases hw with rfl | rfl <;> cases be <;> cases cow <;> decide

/-- C75: every test of `run_robust_tests` (312-332) ends in an abort, for both populate policies, and the child of the fork
test (343-370) does not. -/
theorem mempool_robust_tests (policy pg detected : Nat) (hpg : ∃ k, pg = 2 ^ k) (callocOk nameOk : Bool) (env0 : RangeEnv) (m : Mem)
    (hwf : m.WF) (c : Config) (s : State) (henv0 : EnvOK c [] m env0)
    (h : create (some (testPoolAttr policy)) testDataLen pg detected callocOk nameOk env0 m = .pool c s)
    (env env2 env3 : RangeEnv) (henv : EnvOK c s.pool.ranges s.mem env) (ok : Nat → Bool) (fn : Word) (hfn : fn ≠ 0#_)
    (hout : ∀ p s1, malloc c (.plain 0) env s = .ok (.ptr p, s1) → ∀ r ∈ s1.pool.ranges, ¬ InRegion c r.base fn.toNat) :
    testDoubleFree c env s = .aborted .doubleFree ∧
    testMemoryLeak c env ok s = .aborted .freeListCount ∧
    testPoisonMalloc c env env2 s = .aborted .poison ∧
    testPoisonDestroy c env ok s = .aborted .poison ∧
    (∃ w, testCorruptAfterFree c fn env ok s = .aborted w) ∧
    testFreeListCorruption c env env2 env3 s = .aborted .allocatorCorruption ∧
    ∃ d, destroy c (fun _ => true) (forkChild c s) = .ok d ∧ d.ret = 0 ∧ d.left = [] := by
  obtain ⟨hv, hreach⟩ := create_reach _ _ testDataLen_toNat.2 pg detected hpg callocOk nameOk env0 m hwf c s henv0 h
  obtain ⟨k, _, _, _, hcr, _⟩ := create_validates (some (testPoolAttr policy)) testDataLen testDataLen_toNat.2 pg detected callocOk nameOk env0 m
  have hC := (hcr c s h).1
  have hrob : c.robust = true := hC.robust
  have hpv : c.poison = some (askedPoison c.cow) := hC.poison
  have hh : Hist c false ⟨s, [], []⟩ := ⟨hv, hreach false, fun hx => by cases hx⟩
  exact ⟨test_double_free hh hrob rfl env henv, test_memory_leak hh hrob rfl env henv ok,
    test_poison_malloc hh hrob rfl _ hpv (askedPoison_ne _) env env2 henv,
    test_poison_destroy hh hrob rfl _ hpv (askedPoison_ne _) env henv ok,
    test_corrupt_after_free hh hrob rfl env henv ok fn hfn hout,
    test_free_list_corruption hh hrob rfl env env2 env3 henv, test_fork_destroy hh rfl⟩

/-- C75: the fill test passes, with any stride, any limit on the ranges, and both populate policies: its loop never aborts,
makes at most as many rounds as the ranges have items, and when it ends all that follows works out. -/
theorem mempool_fill_test (policy max : Nat) (hmax : max ≠ 0) (stride : Word) (pg detected : Nat) (hpg : ∃ k, pg = 2 ^ k)
    (callocOk nameOk : Bool) (env0 : RangeEnv) (m : Mem) (hwf : m.WF) (c : Config) (s0 : State) (henv0 : EnvOK c [] m env0)
    (h : create (some (fillAttr policy max stride)) testDataLen pg detected callocOk nameOk env0 m = .pool c s0)
    (s : State) (L : List Nat) (hs : FillSteps c s0 s L) :
    (∀ env, EnvOK c s.pool.ranges s.mem env → ∃ ret s', malloc c .zero env s = .ok (ret, s')) ∧
    L.length * c.itemLen ≤ c.stride * max ∧
    ∀ env, EnvOK c s.pool.ranges s.mem env → (s.pool.ranges.length < max → ¬ Refused c env) →
      ∀ e s', malloc c .zero env s = .ok (.null e, s') →
        ∀ env1 env2, fillRest c max env1 env2 (fun _ => true) L s' = .ok (some 0) := by
  obtain ⟨hv, hreach⟩ := create_reach _ _ testDataLen_toNat.2 pg detected hpg callocOk nameOk env0 m hwf c s0 henv0 h
  obtain ⟨k, hk, _, _, hcr, _⟩ := create_validates (some (fillAttr policy max stride)) testDataLen testDataLen_toNat.2 pg detected callocOk nameOk env0 m
  have hC := (hcr c s0 h).1
  have hm : c.maxRanges = max := hC.maxRanges
  have hh : Hist c false ⟨s0, [], []⟩ := ⟨hv, hreach false, fun hx => by cases hx⟩
  have hlen : 5 * wb ≤ c.itemLen := by
    have h1 := hk.1
    rw [testDataLen_toNat.1] at h1
    unfold Config.itemLen
    rw [hC.order]
    omega
  have hmx : c.maxRanges ≠ 0 := by rw [hm]; exact hmax
  obtain ⟨h1, h2⟩ := test_fill_runs hlen hh hmx hs
  refine ⟨h1, ?_, ?_⟩
  · have := Nat.mul_le_mul_right c.itemLen h2
    rw [Nat.mul_assoc, itemsPerRange, Nat.div_mul_cancel hv.item_dvd, hm, Nat.mul_comm max] at this
    exact this
  · intro env henv hnr e s' hnull env1 env2
    have := test_fill hlen hh hmx hs env henv (by rw [hm]; exact hnr) e s' hnull env1 env2
    rw [hm] at this
    exact this

end Verif.Mempool

namespace Verif.Mempool
open Verif Verif.Mem
attribute [local instance] le64

/-- The pool of the first fill test: a page per CPU, one range, items of 64 bytes (the test uses 1024 CPUs). -/
def exTestFill : Config :=
  { pg := 4096, order := 6, stride := 4096, ncpu := 1024, cow := true, robust := true, poison := some 0xABCDABCDABCDABCD#64
    maxRanges := 1, initSet := false, global := false }

theorem exTestFill_valid : Valid exTestFill :=
  ⟨by decide, by decide, ⟨12, by decide⟩, ⟨12, by decide⟩, by decide, by decide, fun _ => rfl, fun h => (by cases h)⟩

/-- A newly created pool: the hypotheses of the robust tests and of `test_fill`, whose loop does come to its end. -/
theorem ex_test_fill : ∃ s0, Hist exTestFill false ⟨s0, [], []⟩ ∧
    ∃ s L env e s', FillSteps exTestFill s0 s L ∧ EnvOK exTestFill s.pool.ranges s.mem env ∧
      (s.pool.ranges.length < exTestFill.maxRanges → ¬ Refused exTestFill env) ∧
      malloc exTestFill .zero env s = .ok (.null e, s') := by
  obtain ⟨g, hg, hl, hf, _⟩ := fill_reach exTestFill_valid false (n := 1) (by decide) (Or.inr (by decide)) (by decide) 0 (by decide)
  obtain ⟨s0, L0, F0⟩ := g
  dsimp only at hf hl
  have hl := List.length_eq_zero_iff.1 hl
  subst hf hl
  have h0 : Hist exTestFill false ⟨s0, [], []⟩ := ⟨exTestFill_valid, hg, fun h => by cases h⟩
  refine ⟨s0, h0, test_fill_ends (by decide) h0 (by decide) ?_⟩
  intro s L hs
  refine ⟨refuseEnv, refuseEnv_ok _ _ _, ?_⟩
  intro hlt
  obtain ⟨live, hh, _⟩ := (fill_inv (by decide) h0 hs).hist
  have := List.length_pos_iff.2 (ranges_ne_nil hh.valid hh.mode hh.reach)
  have h2 : s.pool.ranges.length < 1 := hlt
  dsimp only at this
  omega

/-- A system that grants memory at a fixed place lets the tests create their pools, for both policies. -/
theorem ex_create_ok {attr : Attr} {c : Config} (hv : validate (some attr) testDataLen 4096 8 = .cfg c) (hi : c.initSet = false) :
    ∃ s, create (some attr) testDataLen 4096 8 true true { base := some 0x100000 } ⟨fun _ => 0#8, fun _ => none⟩ = .pool c s := by
  unfold create
  rw [hv]
  dsimp only
  cases hrc : (rangeCreate c ⟨[], 0, 0⟩ ⟨fun _ => 0#8, fun _ => none⟩ { base := some 0x100000 }).2 with
  | none =>
    rw [rangeCreate_none_iff] at hrc
    rcases hrc with ⟨h1, h2⟩ | h | ⟨_, h⟩ | ⟨_, h⟩ | ⟨h, _⟩
    · simp at h2; exact absurd h2 h1
    · cases h
    · cases h
    · cases h
    · rw [hi] at h; cases h
  | some rm =>
    obtain ⟨r, m⟩ := rm
    exact ⟨_, rfl⟩

/-- The hypotheses of `mempool_robust_tests` and `mempool_fill_test`. -/
theorem ex_test_pools (policy : Nat) (hp : policy = 0 ∨ policy = 1) : ∃ c s c' s', c.cow = (policy == 0) ∧ c'.cow = (policy == 0) ∧
    EnvOK c [] ⟨fun _ => 0#8, fun _ => none⟩ { base := some 0x100000 } ∧ EnvOK c' [] ⟨fun _ => 0#8, fun _ => none⟩ { base := some 0x100000 } ∧
    create (some (testPoolAttr policy)) testDataLen 4096 8 true true { base := some 0x100000 } ⟨fun _ => 0#8, fun _ => none⟩ = .pool c s ∧
    create (some (fillAttr policy 4 8192#_)) testDataLen 4096 8 true true { base := some 0x100000 } ⟨fun _ => 0#8, fun _ => none⟩ = .pool c' s' := by
  have henv : ∀ c : Config, c.pg = 4096 → c.stride ∣ 0x100000 → 0x100000 + rangeLen c ≤ 2 ^ 64 →
      EnvOK c [] ⟨fun _ => 0#8, fun _ => none⟩ { base := some 0x100000 } := by
    intro c h1 h2 h3
    refine ⟨?_, (fun _ _ _ h => by cases h)⟩
    rintro base e
    cases e
    exact ⟨h2, by omega, h3, (fun r hr => by cases hr), fun x hx => hx⟩
  rcases hp with rfl | rfl
  · obtain ⟨s, e⟩ := ex_create_ok (attr := testPoolAttr 0) (c := { pg := 4096, order := 6, stride := 65536, ncpu := 1, cow := true, robust := true, poison := some 0x5555555555555555#64, maxRanges := 0, initSet := false, global := false }) (by decide) rfl
    obtain ⟨s', e'⟩ := ex_create_ok (attr := fillAttr 0 4 8192#_) (c := { pg := 4096, order := 6, stride := 8192, ncpu := 1024, cow := true, robust := true, poison := some 0xABCDABCDABCDABCD#64, maxRanges := 4, initSet := false, global := false }) (by decide) rfl
    exact ⟨_, s, _, s', rfl, rfl, henv _ rfl (by decide) (by decide), henv _ rfl (by decide) (by decide), e, e'⟩
  · obtain ⟨s, e⟩ := ex_create_ok (attr := testPoolAttr 1) (c := { pg := 4096, order := 6, stride := 65536, ncpu := 1, cow := false, robust := true, poison := some 0#64, maxRanges := 0, initSet := false, global := false }) (by decide) rfl
    obtain ⟨s', e'⟩ := ex_create_ok (attr := fillAttr 1 4 8192#_) (c := { pg := 4096, order := 6, stride := 8192, ncpu := 1024, cow := false, robust := true, poison := some 0xABCDABCDABCDABCD#64, maxRanges := 4, initSet := false, global := false }) (by decide) rfl
    exact ⟨_, s, _, s', rfl, rfl, henv _ rfl (by decide) (by decide), henv _ rfl (by decide) (by decide), e, e'⟩

end Verif.Mempool
