import Verif.MempoolCmpLemmas
import Verif.MempoolInst
import Verif.MempoolTestsProps
/-
C103: the signed subtraction of `rseq_cmp_item` (src/rseq-mempool.c:260). It overflows exactly when the
first word that differs from the value looked for is too far from it. Allocations and destroy never run
into this for programs that respect the interface; `free` can, for every poison value but zero.
-/
namespace Verif.Mempool
open Verif Verif.Mem

section
variable [Abi]

theorem overflow_iff {v w : Word} : subOverflows v w = true ↔ Overflow v w := by
  rw [subOverflows_iff]; unfold Overflow; omega

/-- C103: the comparison is undefined exactly when, at the first word that differs, the difference does not fit;
otherwise the result is the wrapped difference used everywhere else in the model. -/
theorem cmp_overflow_iff (pg : Nat) (m : Mem) (p len : Nat) (v : Word) :
    (cmpItemS pg m p len v = .ub ↔ ∃ k, k < len / wb ∧ (∀ j, j < k → m.readWord pg (p + wb * j) = v) ∧
      Overflow (m.readWord pg (p + wb * k)) v) ∧
    (cmpItemS pg m p len v ≠ .ub → cmpItemS pg m p len v = .ok (cmpItem pg m p len v)) := by
  refine ⟨?_, fun h => cmpItemS_ok.resolve_left h⟩
  rw [cmpItemS_ub]
  simp only [overflow_iff]

/-- C103: in any state, the calls either run into the overflow or do what the model without it says. -/
theorem strict_or_same (c : Config) (s : State) :
    (∀ fill env, mallocS c fill env s = .ub ∨ mallocS c fill env s = malloc c fill env s) ∧
    (∀ p, freeS c p s = .ub ∨ freeS c p s = free c p s) ∧
    (∀ ok, destroyS c ok s = .ub ∨ destroyS c ok s = destroy c ok s) := by
  refine ⟨?_, ?_, ?_⟩
  · intro fill env
    rcases lockedAllocS_cases (c := c) (env := env) (s := s) with h | h
    · unfold mallocS
      split
      · rename_i hl; right; unfold malloc; rw [if_pos hl]
      · left; rw [h]
    · exact Or.inr (mallocS_of h)
  · intro p
    unfold freeS free
    dsimp only
    cases findRange s.pool.ranges (p - p % c.stride) with
    | none => exact Or.inl rfl
    | some r =>
      dsimp only
      cases clearAllocSlot c r (p % c.stride) with
      | none => exact Or.inr rfl
      | some r' =>
        dsimp only
        rcases freePoisonS_cases (c := c) (r := r) (off := p % c.stride) (m := s.mem) with h | h
        · left; rw [h]
        · right; rw [h]; cases c.poison <;> rfl
  · intro ok
    unfold destroyS destroy
    dsimp only
    split
    · split
      · exact Or.inl rfl
      · cases checkFreeList c s with
        | ub => exact Or.inl rfl
        | aborted w => exact Or.inr rfl
        | ok u =>
          dsimp only
          rcases checkPoolPoisonS_cases (c := c) (m := s.mem) s.pool.ranges with h | h
          · left; rw [h]
          · right
            unfold checkPoolPoison
            revert h
            generalize (s.pool.ranges.all fun r => checkRangePoison c r s.mem ((r.nextUnused + c.itemLen - 1) / c.itemLen) 0) = b
            intro h
            rw [h]
            cases b <;> rfl
    · exact Or.inr rfl

/-- C103: when `free` overflows, exactly. -/
theorem free_overflow_iff {c : Config} {uaf : Bool} {g : Ghost} (h : Hist c uaf g) (p : Nat) (hp : p ∈ g.live) :
    freeS c p g.s = .ub ↔ ∃ v, c.poison = some v ∧ ∃ cpu k, cpu < c.ncpu ∧ k < c.itemLen / wb ∧
      (∀ j, j < k → seenWord c g.s.mem v p cpu j = v) ∧ Overflow (seenWord c g.s.mem v p cpu k) v := by
  have hi := h.inv
  obtain ⟨r, hr, k, hk, e⟩ := (hi.used p).2 (Or.inl hp)
  have hR := hi.ranges.each r hr
  have hkS : k * c.itemLen + c.itemLen ≤ c.stride := Nat.le_trans (lt_item_of_lt hR.nud hk) hR.nu
  have hslot : Slot c g.s.pool.ranges (r.base + k * c.itemLen) := ⟨r, hr, k, hkS, rfl⟩
  have hmod : p % c.stride = k * c.itemLen := by rw [e]; exact slot_base h.valid hi.ranges hr hkS
  have hbase : p - p % c.stride = r.base := by rw [hmod, e]; omega
  have hfind : findRange g.s.pool.ranges r.base = some r := findRange_eq hi.ranges.nodup hr
  obtain ⟨s', hok, _⟩ := free_spec h.valid hi hp
  have hcl : ∃ r', clearAllocSlot c r (k * c.itemLen) = some r' := by
    cases hc : clearAllocSlot c r (k * c.itemLen) with
    | some r' => exact ⟨r', rfl⟩
    | none =>
      unfold free at hok
      dsimp only at hok
      rw [hbase, hfind, hmod] at hok
      dsimp only at hok
      rw [hc] at hok; cases hok
  obtain ⟨r', hcl⟩ := hcl
  have hfree : freeS c p g.s = .ub ↔ freePoisonS c r (k * c.itemLen) g.s.mem = .ub := by
    unfold freeS
    dsimp only
    rw [hbase, hfind, hmod]
    dsimp only
    rw [hcl]
    dsimp only
    rcases freePoisonS_cases (c := c) (r := r) (off := k * c.itemLen) (m := g.s.mem) with h | h
    · rw [h]; exact ⟨fun _ => rfl, fun _ => rfl⟩
    · rw [h]; exact ⟨(fun h => by cases h), fun h => by cases h⟩
  rw [hfree]
  unfold freePoisonS
  cases hpv : c.poison with
  | none => exact ⟨(fun h => by cases h), fun ⟨v, h, _⟩ => by cases h⟩
  | some v =>
    dsimp only
    rw [e]
    constructor
    · intro hu
      rcases poisonItemS_eq (c := c) (r := r) (off := k * c.itemLen) (v := v) (m := g.s.mem) with ⟨_, i, hi', hu'⟩ | ⟨e', _⟩
      · obtain ⟨j, hj, h1, h2⟩ := (poison_cmp_ub h.valid hi.wf hi.shape hslot hR.init_eq hi').1 hu'
        exact ⟨v, rfl, i, j, hi', hj, h1, overflow_iff.1 h2⟩
      · rw [e'] at hu; cases hu
    · rintro ⟨w, hw, i, j, hi', hj, h1, h2⟩
      cases hw
      rcases poisonItemS_eq (c := c) (r := r) (off := k * c.itemLen) (v := v) (m := g.s.mem) with ⟨e', _⟩ | ⟨_, hno⟩
      · exact e'
      · exact absurd ((poison_cmp_ub h.valid hi.wf hi.shape hslot hR.init_eq hi').2 ⟨j, hj, h1, overflow_iff.2 h2⟩) (hno i hi')

/-- C103, the part that holds: for programs that store to live items only, allocations and destroy never overflow;
`free` does not overflow in pools without poison, with poison zero, or when neither the poison nor any word of the
item is negative as a signed number. -/
theorem obedient_no_overflow_partial {c : Config} {g : Ghost} (h : Hist c false g) :
    (∀ fill env, mallocS c fill env g.s = malloc c fill env g.s) ∧
    (∀ ok, destroyS c ok g.s = destroy c ok g.s) ∧
    (∀ p ∈ g.live, (c.poison = none ∨ c.poison = some 0#_ ∨ (∃ v, c.poison = some v ∧ 0 ≤ v.toInt ∧
        ∀ cpu k, cpu < c.ncpu → k < c.itemLen / wb → 0 ≤ (seenWord c g.s.mem v p cpu k).toInt)) →
      freeS c p g.s = free c p g.s) := by
  have hi := h.inv
  refine ⟨?_, ?_, ?_⟩
  · intro fill env
    refine mallocS_of ?_
    cases hF : g.freed with
    | nil =>
      have hh : g.s.pool.head = 0 := by
        have := hi.chain
        rw [hF] at this; exact this
      unfold lockedAllocS
      rw [if_neg (by rw [hh]; exact fun h => h rfl)]
    | cons p F' =>
      rw [hF] at hi
      obtain ⟨h0, hperc, r, k, hr, hp, hfind, hoff⟩ := head_facts h.valid hi
      unfold lockedAllocS
      rw [if_pos h0]
      dsimp only
      rw [hperc, hfind, hoff]
      dsimp only
      have hck : checkPoisonItemS c r (k * c.itemLen) g.s.mem = .ok () := by
        cases hrob : c.robust with
        | false => unfold checkPoisonItemS; rw [hrob]; rfl
        | true =>
          obtain ⟨v, hpv⟩ := Option.isSome_iff_exists.1 (h.valid.robust_poison hrob)
          refine checkPoisonItemS_equal h.valid hpv (hi.ranges.each r hr).init_eq fun _ col o hb => ?_
          rw [← hp]
          exact hi.poison rfl v hpv p List.mem_cons_self col o hb
      rw [hck]
  · intro ok
    rcases (strict_or_same c g.s).2.2 ok with hu | he
    · exfalso
      unfold destroyS at hu
      dsimp only at hu
      rw [mappings_ok hi, hi.mapped, checkFreeList_spec h.valid hi] at hu
      cases hrob : c.robust with
      | false =>
        rw [hrob] at hu
        simp only [Bool.false_and, Bool.false_eq_true, if_false] at hu
        exact absurd hu (destroyLoop_ne_ub ok _ 0 [])
      | true =>
        rw [hrob] at hu
        simp only [Bool.true_and, if_true, Bool.not_true, Bool.false_eq_true, if_false] at hu
        by_cases hL : g.live = []
        · rw [if_pos hL] at hu
          dsimp only at hu
          obtain ⟨v, hpv⟩ := Option.isSome_iff_exists.1 (h.valid.robust_poison hrob)
          have hpool : checkPoolPoisonS c g.s.mem g.s.pool.ranges = .ok () := by
            refine checkPoolPoisonS_ok fun r hr => checkRangePoisonS_ok fun k hk => ?_
            rw [Nat.zero_add]
            refine checkPoisonItemS_equal h.valid hpv (hi.ranges.each r hr).init_eq fun _ col o hb => ?_
            have hu : Used c g.s.pool.ranges (r.base + k * c.itemLen) := by
              refine ⟨r, hr, k, ?_, rfl⟩
              obtain ⟨q, hq⟩ := (hi.ranges.each r hr).nud
              have hI := h.valid.item_pos
              rw [hq] at hk ⊢
              have : (c.itemLen * q + c.itemLen - 1) / c.itemLen = q := by
                rw [Nat.add_sub_assoc (by omega), Nat.mul_add_div hI, Nat.div_eq_of_lt (by omega), Nat.add_zero]
              rw [this] at hk
              rw [Nat.mul_comm]
              exact Nat.mul_lt_mul_of_pos_left hk hI
            rcases (hi.used _).1 hu with hm | hm
            · rw [hL] at hm; cases hm
            · exact hi.poison rfl v hpv _ hm col o hb
          rw [hpool] at hu
          exact absurd hu (destroyLoop_ne_ub ok _ 0 [])
        · rw [if_neg hL] at hu; cases hu
    · exact he
  · intro p hp hcase
    rcases (strict_or_same c g.s).2.1 p with hu | he
    · exfalso
      obtain ⟨v, hpv, cpu, k, hcpu, hk, _, hov⟩ := (free_overflow_iff h p hp).1 hu
      rcases hcase with hn | hz | ⟨w, hw, hpos, hall⟩
      · rw [hn] at hpv; cases hpv
      · rw [hz] at hpv
        cases hpv
        have := subOverflows_zero (seenWord c g.s.mem 0#_ p cpu k)
        rw [← Bool.not_eq_true, overflow_iff] at this
        exact this hov
      · rw [hw] at hpv
        cases hpv
        apply hov
        have h1 := hall cpu k hcpu hk
        have h2 := toInt_lt_word (seenWord c g.s.mem v p cpu k)
        have h3 := toInt_lt_word v
        omega
    · exact he

/-- C103, the part that does not hold: in every pool with a poison other than zero, after any history, one word stored
by an obedient program into an item it owns makes `free` of that item overflow. -/
theorem free_overflow_reachable {c : Config} {uaf : Bool} {g : Ghost} (h : Hist c uaf g) (v : Word) (hpv : c.poison = some v)
    (hv0 : v ≠ 0#_) (p : Nat) (hp : p ∈ g.live) (cpu : Nat) (hcpu : cpu < c.ncpu) :
    ∃ w s', s' = { g.s with mem := g.s.mem.writeWord c.pg (cpuAddr c p cpu) w } ∧ Hist c uaf ⟨s', g.live, g.freed⟩ ∧
      (∃ s'', free c p s' = .ok s'') ∧ freeS c p s' = .ub := by
  obtain ⟨w, hw⟩ := exists_overflow hv0
  have h' := hist_word h (Or.inl hp) hcpu w
  refine ⟨w, _, rfl, h', ?_, ?_⟩
  · obtain ⟨s'', e, _⟩ := free_spec h'.valid h'.inv hp
    exact ⟨s'', e⟩
  · refine (free_overflow_iff h' p hp).2 ⟨v, hpv, cpu, 0, hcpu, Nat.div_pos h.valid.item_ge wb_pos, fun j hj => by omega, ?_⟩
    have : seenWord c (g.s.mem.writeWord c.pg (cpuAddr c p cpu) w) v p cpu 0 = w := by
      unfold seenWord
      refine Eq.trans (joinBytes_congr fun j hj => ?_) (joinBytes_wordByte w)
      have hself := read_writeBlock_self h.valid.pg_pos h.inv.wf (a := cpuAddr c p cpu) (f := wordByte w) hj
      rw [Nat.mul_zero, Nat.zero_add]
      unfold seenByte
      have hres : (g.s.mem.writeWord c.pg (cpuAddr c p cpu) w).resolve c.pg (cpuAddr c p cpu + j) = cpuAddr c p cpu + j := hself.2
      rw [if_pos hres]
      exact hself.1
    show Overflow (seenWord c (g.s.mem.writeWord c.pg (cpuAddr c p cpu) w) v p cpu 0) v
    rw [this]
    exact overflow_iff.1 hw

/-- C103: the report of a use after free is itself undefined for some stored words: with the same state, the wrapped
subtraction aborts with the poison message and C's is undefined. A corrupted item is not handed out either way. -/
theorem use_after_free_overflow {c : Config} {g : Ghost} (h : Hist c false g) (hrob : c.robust = true) (v : Word)
    (hpv : c.poison = some v) (hv0 : v ≠ 0#_) (p : Nat) (F : List Nat) (hF : g.freed = p :: F) :
    ∃ w s', s' = { g.s with mem := g.s.mem.writeWord c.pg (cpuAddr c p 0) w } ∧ Hist c true ⟨s', g.live, g.freed⟩ ∧
      ∀ fill env, fill.len ≤ c.itemLen → EnvOK c s'.pool.ranges s'.mem env →
        malloc c fill env s' = .aborted .poison ∧ mallocS c fill env s' = .ub := by
  obtain ⟨w, hw⟩ := exists_overflow hv0
  have hpf : p ∈ g.freed := by rw [hF]; exact List.mem_cons_self
  have hncpu := h.valid.ncpu_pos
  have hpg := h.valid.pg_pos
  have hwf := h.inv.wf
  have h' := hist_word (h.relax hrob) (cpu := 0) (Or.inr ⟨rfl, hpf⟩) (by omega) w
  refine ⟨w, _, rfl, h', ?_⟩
  intro fill env hlen henv
  have hself := fun j (hj : j < wb) => read_writeBlock_self hpg hwf (a := cpuAddr c p 0) (f := wordByte w) hj
  have hword : (g.s.mem.writeWord c.pg (cpuAddr c p 0) w).readWord c.pg (cpuAddr c p 0) = w :=
    readWord_writeWord_self hpg hwf
  have hne : w ≠ v := by
    rintro rfl
    rw [subOverflows_self] at hw; cases hw
  constructor
  · -- the wrapped model reports it
    have hex : ∃ o, o < wb ∧ wordByte w o ≠ wordByte v o := by
      apply Classical.byContradiction
      intro hno
      apply hne
      rw [← joinBytes_wordByte w, ← joinBytes_wordByte v]
      refine joinBytes_congr fun j hj => ?_
      exact Classical.byContradiction fun hh => hno ⟨j, hj, hh⟩
    obtain ⟨o, ho, hoe⟩ := hex
    have hge := h.valid.item_ge
    refine (use_after_free_detected h' hrob v hpv p hpf 0 o (by omega) (by omega) ?_).2.1 fill env F henv hlen hF
    show (g.s.mem.writeWord c.pg (cpuAddr c p 0) w).read c.pg (cpuAddr c p 0 + o) ≠ _
    rw [Nat.mod_eq_of_lt ho]
    intro hh
    exact hoe ((hself o ho).1.symm.trans hh)
  · have hi := h.inv
    rw [hF] at hi
    obtain ⟨h0, hperc, r, k, hr, hp, hfind, hoff⟩ := head_facts h.valid hi
    have hR := hi.ranges.each r hr
    have hslot := hi.slotF List.mem_cons_self
    unfold mallocS
    rw [if_neg (by omega)]
    have hl : lockedAllocS c env { g.s with mem := g.s.mem.writeWord c.pg (cpuAddr c p 0) w } = .ub := by
      unfold lockedAllocS
      dsimp only
      rw [if_pos h0, hperc, hfind, hoff]
      dsimp only
      have hck : checkPoisonItemS c r (k * c.itemLen) (g.s.mem.writeWord c.pg (cpuAddr c p 0) w) = .ub := by
        have h0p : percpuPtr c r 0 (k * c.itemLen) = cpuAddr c p 0 := by
          rw [percpuPtr_eq, hp]; rfl
        have hcpu0 : cmpItemS c.pg (g.s.mem.writeWord c.pg (cpuAddr c p 0) w) (percpuPtr c r 0 (k * c.itemLen)) c.itemLen v = .ub := by
          refine cmpItemS_ub.2 ⟨0, Nat.div_pos h.valid.item_ge wb_pos, fun j hj => by omega, ?_⟩
          rw [Nat.mul_zero, Nat.add_zero, h0p, hword]
          exact hw
        obtain ⟨n, hn⟩ : ∃ n, c.ncpu = n + 1 := ⟨c.ncpu - 1, by omega⟩
        unfold checkPoisonItemS checkedCopies
        rw [hrob, hpv, initPtr_eq hR.init_eq, hn, List.range_succ_eq_map, List.map_cons]
        cases hc : c.cow with
        | false =>
          show checkCopiesS c v _ (percpuPtr c r 0 (k * c.itemLen) :: _) = .ub
          unfold checkCopiesS
          rw [hcpu0]
        | true =>
          show checkCopiesS c v _ ((r.base + k * c.itemLen + c.stride * (n + 1)) :: percpuPtr c r 0 (k * c.itemLen) :: _) = .ub
          have hinit : Holds c.pg (g.s.mem.writeWord c.pg (cpuAddr c p 0) w) (r.base + k * c.itemLen + c.stride * (n + 1))
              (pat v) c.itemLen := by
            intro o ho
            rw [← hp, ← hn]
            have hpois := hi.poison rfl v hpv p List.mem_cons_self c.ncpu o ⟨by simp [hc], ho, Or.inl hrob⟩
            rw [← hpois]
            have hd : ¬ (cpuAddr c p 0 ≤ p + c.stride * c.ncpu + o ∧ p + c.stride * c.ncpu + o < cpuAddr c p 0 + wb) := by
              rintro ⟨h1, h2⟩
              have hge := h.valid.item_ge
              unfold cpuAddr at h1 h2
              exact slot_col_disj hslot (i := c.ncpu) (j := 0) (by omega) (o := o)
                (o' := p + c.stride * c.ncpu + o - (p + c.stride * 0)) ho (by omega) (by omega)
            refine read_writeBlock_frame hpg hwf hd ?_
            rcases hi.shape.slot hslot (col := c.ncpu) (o := o) (initCol_lt hc) ho with e | ⟨_, h, _⟩
            · rw [e]; exact hd
            · omega
          unfold checkCopiesS
          rw [cmpItemS_equal h.valid.item_wb hinit]
          dsimp only
          rw [if_pos rfl]
          unfold checkCopiesS
          rw [hcpu0]
      rw [hck]
    rw [hl]

end

/-! ### Instances -/

attribute [local instance] le64

/-- `cmp_overflow_iff`: the most negative word against the default COW_INIT poison. -/
example : Overflow (0x8000000000000000#64 : Word) (0x5555555555555555#64 : Word) ∧
    ¬ Overflow (0x1234#64 : Word) (0x5555555555555555#64 : Word) ∧ ¬ Overflow (0x8000000000000000#64 : Word) (0#64 : Word) := by
  unfold Overflow; decide

/-- `free_overflow_reachable`: in the robust example pool with the default poison. -/
example : ∃ g p s', Hist exRobust false g ∧ p ∈ g.live ∧ s' = g.s ∧ (∃ s'', free exRobust p s' = .ok s'') ∧
    freeS exRobust p s' = .ub := by
  obtain ⟨g, p, q, f, h, hl, _, _⟩ := exGhost false
  obtain ⟨w, s', _, h', h1, h2⟩ := free_overflow_reachable h _ rfl (by decide) p (by simp [hl]) 1 (by decide)
  exact ⟨_, p, s', h', by simp [hl], rfl, h1, h2⟩

/-- `free_overflow_iff` and `obedient_no_overflow_partial`: allocation and destroy in the same pool. -/
example : ∃ g, Hist exRobust false g ∧ g.live ≠ [] ∧ g.freed ≠ [] ∧
    mallocS exRobust .zero { base := none } g.s = malloc exRobust .zero { base := none } g.s := by
  obtain ⟨g, p, q, f, h, hl, _, hf⟩ := exGhost false
  exact ⟨g, h, by simp [hl], by simp [hf], (obedient_no_overflow_partial h).1 _ _⟩

/-- `use_after_free_overflow`. -/
example : ∃ g f s', Hist exRobust true g ∧ f ∈ g.freed ∧ s' = g.s ∧
    malloc exRobust .zero { base := none } s' = .aborted .poison ∧ mallocS exRobust .zero { base := none } s' = .ub := by
  obtain ⟨g, p, q, f, h, hl, _, hf⟩ := exGhost false
  obtain ⟨w, s', _, h', hall⟩ := use_after_free_overflow h rfl _ rfl (by decide) f [] hf
  obtain ⟨h1, h2⟩ := hall .zero { base := none } (by decide) (ex_env ..)
  exact ⟨_, f, s', h', by simp [hf], rfl, h1, h2⟩

end Verif.Mempool
