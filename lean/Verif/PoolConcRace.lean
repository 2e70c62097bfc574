import Verif.PoolConcProps
/-
C28, further: the two-phase page copy makes a robust COW_INIT pool abort although every client obeys the
rules; and concrete schedules that meet the hypotheses of the theorems of `Verif.PoolConcProps`.
-/
namespace Verif.PoolConc
open Verif Verif.Mem Verif.Mempool MProg

variable [Abi]

variable {c : Config} {split : Bool} {s s' : CState}

/-- Run a program; `none` when a store would fault. -/
def runPriv {α : Type} (pg : Nat) : MProg α → Mem → Option (α × Mem)
  | .ret a, m => some (a, m)
  | .rd x k, m => runPriv pg (k (m.read pg x)) m
  | .wr x b k, m => if (m.src (x / pg)).isNone then runPriv pg k (m.write pg x b) else none

omit [Abi] in
theorem upd_upd {α : Type} (f : Nat → α) (t : Nat) (a b : α) : upd (upd f t a) t b = upd f t b := by
  funext u; unfold upd; split <;> rfl

/-- A thread runs the locked part of an allocation without interference. -/
theorem alloc_alone (h : CReach c split s) {t : Nat} {fill : Fill} {k : MProg Found} (hst : s.th t = .inAlloc fill k)
    {a : Found} {m' : Mem} (hk : runPriv c.pg k s.mem = some (a, m')) (hro : RO (fun _ => True) k) :
    CReach c split { s with th := upd s.th t (.inAlloc fill (.ret a)) } := by
  induction hro generalizing s with
  | ret b =>
    cases hk
    have : upd s.th t (.inAlloc fill (.ret a)) = s.th := by
      funext u; unfold upd; split
      · rename_i e; rw [e, hst]
      · rfl
    rw [this]; exact h
  | rd x k _ _ ih =>
    have := ih _ (CReach.step h (CStep.readAlloc t fill x k hst)) (upd_self ..) hk
    dsimp only at this
    rw [upd_upd] at this
    exact this

/-- A thread runs the stores of a free without interference or page faults. -/
theorem free_alone (h : CReach c split s) {t p : Nat} {pool' : Pool} {k : MProg Unit} (hst : s.th t = .inFree p pool' k)
    (hpn : s.pend t = none) {m' : Mem} (hk : runPriv c.pg k s.mem = some ((), m')) :
    CReach c split { s with mem := m', th := upd s.th t (.inFree p pool' (.ret ())) } := by
  induction k generalizing s with
  | ret b =>
    cases hk
    have : upd s.th t (.inFree p pool' (.ret ())) = s.th := by
      funext u; unfold upd; split
      · rename_i e; rw [e, hst]
      · rfl
    rw [this]; exact h
  | rd x k ih =>
    have := ih _ (CReach.step h (CStep.readFree t p pool' x k hst hpn)) (upd_self ..) hpn hk
    dsimp only at this
    rw [upd_upd] at this
    exact this
  | wr x b k ih =>
    unfold runPriv at hk
    split at hk
    · rename_i hn
      have := ih (CReach.step h (CStep.writeFree t p pool' x b k hst hpn fun _ => Option.isNone_iff_eq_none.1 hn)) (upd_self ..) hpn hk
      dsimp only at this
      rw [upd_upd] at this
      exact this
    · cases hk

/-- A thread fills its new item without interference, page faults included. -/
theorem fill_alone {t p : Nat} {fill : Fill} (k : MProg Unit) : ∀ {s : CState}, CReach c split s → s.th t = .filling fill p k →
    s.pend t = none →
    ∃ m', CReach c split { s with mem := m', th := upd s.th t (.filling fill p (.ret ())) } := by
  induction k with
  | ret b =>
    intro s h hst hpn
    have : upd s.th t (.filling fill p (.ret ())) = s.th := by
      funext u; unfold upd; split
      · rename_i e; rw [e, hst]
      · rfl
    exact ⟨s.mem, by rw [this]; exact h⟩
  | rd x k ih =>
    intro s h hst hpn
    obtain ⟨m', this⟩ := ih _ (CReach.step h (CStep.readFill t fill p x k hst hpn)) (upd_self ..) hpn
    dsimp only at this
    rw [upd_upd] at this
    exact ⟨m', this⟩
  | wr x b k ih =>
    intro s h hst hpn
    by_cases hx : CanStore c split s.mem x
    · obtain ⟨m', this⟩ := ih (CReach.step h (CStep.writeFill t fill p x b k hst hpn hx)) (upd_self ..) hpn
      dsimp only at this
      rw [upd_upd] at this
      exact ⟨m', this⟩
    · unfold CanStore at hx
      have h1 : split = true := by
        cases split
        · exact absurd (fun e => by cases e) hx
        · rfl
      cases hsrc : s.mem.src (x / c.pg) with
      | none => exact absurd (fun _ => hsrc) hx
      | some q =>
        have s1 := CStep.snapFill (c := c) (split := split) t fill p x b k q hst hpn h1 hsrc
        have s2 := CStep.install (c := c) (split := split) (s := { s with pend := upd s.pend t (some ⟨p, x, snapOf c.pg s.mem x⟩) })
          t ⟨p, x, snapOf c.pg s.mem x⟩ (upd_self ..)
        have hr := CReach.step (CReach.step h s1) s2
        have hpe : upd (upd s.pend t (some ⟨p, x, snapOf c.pg s.mem x⟩)) t none = s.pend := by
          rw [upd_upd]; funext u; unfold upd; split
          · rename_i e; rw [e, hpn]
          · rfl
        dsimp only at hr
        rw [hpe] at hr
        obtain ⟨m', this⟩ := ih (CReach.step hr (CStep.writeFill t fill p x b k hst hpn
          fun _ => install_private (d := ⟨p, x, snapOf c.pg s.mem x⟩))) (upd_self ..) hpn
        dsimp only at this
        rw [upd_upd] at this
        exact ⟨m', this⟩

theorem putRange_cons_self {a r' : Range} {l : List Range} (h : a.base = r'.base) : putRange (a :: l) r' = r' :: putRange l r' := by
  unfold putRange
  rw [List.map_cons, if_pos h]

/-- An idle pool with room in its first range. -/
structure Calm (c : Config) (n : Nat) (s : CState) : Prop where
  idle : ∀ t, s.th t = .idle
  pend : ∀ t, s.pend t = none
  lock : s.lock = none
  head : s.pool.head = 0
  room : ∃ r l, s.pool.ranges = r :: l ∧ r.nextUnused = n

/-- A thread allocates from a calm pool. -/
theorem calm_alloc (hv : Valid c) (hsafe : FaultSafe c split) (h : CReach c split s) {n : Nat} (hc : Calm c n s)
    (hroom : n + c.itemLen ≤ c.stride) (t : Nat) (fill : Fill) (hl : fill.len ≤ c.itemLen) :
    ∃ s1 s2 p, CReach c split s1 ∧ CStep c split s1 (.returned t fill p) s2 ∧ s1.live = s.live ∧ Calm c (n + c.itemLen) s2 := by
  obtain ⟨r, l, hr, hnu⟩ := hc.room
  have h1 := CReach.step h (CStep.alloc t fill (hc.idle t) (hc.pend t) hl)
  have h2 := CReach.step h1 (CStep.lockAlloc t fill (upd_self ..) hc.lock)
  dsimp only at h2
  rw [upd_upd] at h2
  have hP : lockedP c s.pool = .ret (.take { r with nextUnused := r.nextUnused + c.itemLen } r.nextUnused (r.base + r.nextUnused)
      { s.pool with ranges := putRange s.pool.ranges { r with nextUnused := r.nextUnused + c.itemLen } }) := by
    unfold lockedP
    rw [if_neg (not_not_intro hc.head), hr]
    dsimp only
    rw [if_neg (by omega)]
  rw [hP] at h2
  cases hk : takeSlot c { pool := { s.pool with ranges := putRange s.pool.ranges { r with nextUnused := r.nextUnused + c.itemLen } }, mem := s.mem }
      { r with nextUnused := r.nextUnused + c.itemLen } r.nextUnused (r.base + r.nextUnused) with
  | ub => unfold takeSlot at hk; split at hk <;> cases hk
  | aborted w =>
    exact absurd (upd_self ..) (conc_no_abort hv hsafe (CReach.step h2 (CStep.takeAbort t fill _ _ _ _ w (upd_self ..) hk)) t)
  | ok x =>
    obtain ⟨ch, s3⟩ := x
    cases ch with
    | null e => unfold takeSlot at hk; split at hk <;> cases hk
    | item r' off' p =>
      have h3 := CReach.step h2 (CStep.take t fill _ _ _ _ r' off' p s3 (upd_self ..) hk)
      dsimp only at h3
      rw [upd_upd] at h3
      obtain ⟨m', h4⟩ := fill_alone _ h3 (upd_self ..) (hc.pend t)
      dsimp only at h4
      rw [upd_upd] at h4
      refine ⟨_, _, p, h4, CStep.returned t fill p (upd_self ..) (hc.pend t), rfl, ⟨fun u => ?_, hc.pend, rfl, ?_, ?_⟩⟩
      · show upd (upd s.th t _) t .idle u = .idle
        rw [upd_upd]
        unfold upd
        split
        · rfl
        · exact hc.idle u
      · unfold takeSlot at hk
        split at hk
        · cases hk
        · cases hk; exact hc.head
      · unfold takeSlot setAllocSlot at hk
        dsimp only at hk
        cases hbm : r.bitmap with
        | none =>
          rw [hbm] at hk
          cases hk
          show ∃ r0 l0, putRange (putRange s.pool.ranges _) _ = r0 :: l0 ∧ _
          rw [hr, putRange_cons_self (by rfl), putRange_cons_self (by rfl)]
          exact ⟨_, _, rfl, by show r.nextUnused + c.itemLen = _; rw [hnu]⟩
        | some bm =>
          rw [hbm] at hk
          dsimp only at hk
          split at hk
          · cases hk
          · rename_i r'' hr''
            split at hr''
            · cases hr''
            · cases hr''
              cases hk
              show ∃ r0 l0, putRange (putRange s.pool.ranges _) _ = r0 :: l0 ∧ _
              rw [hr, putRange_cons_self (by rfl), putRange_cons_self (by rfl)]
              exact ⟨_, _, rfl, by show r.nextUnused + c.itemLen = _; rw [hnu]⟩

/-- C28, partial (missing: pages holding several items of a COW_INIT pool when the kernel copies the page before it
switches the page table entry; there it is false, `cow_race_loses_init` and `cow_race_spurious_abort`): from the
return of `malloc_init` until the item is freed every CPU shows the init bytes, or what its users have stored
since, whatever faults and stores of other threads on the same pages happen meanwhile; and nobody aborts. -/
theorem cow_faults_partial (hv : Valid c) (hsafe : FaultSafe c split) (h : CReach c split s) {t p : Nat} {s1 : CState}
    {f : Nat → Byte} {len : Nat} (hs : CStep c split s (.returned t (.init f len) p) s1) {labs : List Lab}
    (ht : CTrace c split s1 labs s') (hf : ∀ t, .freeCall t p ∉ labs) (hlen : len ≤ c.itemLen) :
    (∀ i o, i < c.ncpu → o < len → s'.mem.read c.pg (cpuAddr c p i + o) = lastStored p i o labs (f o)) ∧
    ∀ u, s.th u ≠ .dead ∧ s1.th u ≠ .dead :=
  ⟨fun _ _ hi ho => conc_malloc_init_view hv hsafe h hs ht hf hi ho hlen,
   fun u => ⟨conc_no_abort hv hsafe h u, conc_no_abort hv hsafe (CReach.step h hs) u⟩⟩

end Verif.PoolConc

namespace Verif.PoolConc
open Verif Verif.Mem Verif.Mempool MProg

attribute [local instance] le64

/-! ### The spurious abort -/

/-- A robust COW_INIT pool of 8-byte items, 4 KiB pages, one CPU. -/
def robC : Config :=
  { pg := 4096, order := 3, stride := 4096, ncpu := 1, cow := true, robust := true, poison := some 0x5555555555555555#64
    maxRanges := 1, initSet := false, global := false }

theorem robC_valid : Valid robC :=
  ⟨by decide, by decide, ⟨12, by decide⟩, ⟨12, by decide⟩, by decide, by decide, fun _ => rfl, fun h => by cases h⟩

def robMem : Mem := mapRange robC 8192 raceMem

def robRange (nu : Nat) (bm : Nat → Word) : Range :=
  { base := 8192, header := 0, init := some 12288, nextUnused := nu, mmapAddr := 0, mmapLen := 20480, bitmap := some bm, canary := 1#8 }

def bm0 : Nat → Word := fun _ => 0#_
def bm1 : Nat → Word := bitSet bm0 0
def bm2 : Nat → Word := bitSet bm1 1
def bm3 : Nat → Word := bitClear bm2 1

def robS (mem : Mem) (nu : Nat) (bm : Nat → Word) (head : Nat) (lock : Option Nat) (t0 t1 : TSt) (p0 : Option Pend) (live : List Nat) : CState :=
  { mem := mem, pool := ⟨[robRange nu bm], head, 1⟩, lock := lock, th := upd (upd (fun _ => .idle) 0 t0) 1 t1
    pend := upd (fun _ => none) 0 p0, live := live }

theorem rob_init : CReach robC true (robS robMem 0 bm0 0 none .idle .idle none []) := by
  have h := CReach.create (c := robC) (split := true) raceMem { base := some 8192 } (robRange 0 bm0) robMem
    (fun _ _ h => by cases h) ⟨fun b e => ?_, fun _ _ _ h => by cases h⟩ rfl
  · have e1 : upd (upd (fun _ => TSt.idle) 0 .idle) 1 .idle = fun _ => .idle := by
      funext u; unfold upd; split <;> (try split) <;> rfl
    have e2 : upd (fun _ => (none : Option Pend)) 0 none = fun _ => none := by
      funext u; unfold upd; split <;> rfl
    unfold robS
    rw [e1, e2]
    exact h
  · cases e
    exact ⟨by decide, by decide, by decide, fun r hr => (by cases hr), fun x hx => hx⟩

/-- Thread 0 allocates item 0, thread 1 item 1, both without initialisation. -/
theorem rob_two : CReach robC true (robS robMem 16 bm2 0 none .idle .idle none [8200, 8192]) := by
  have h0 := rob_init
  have h1 := CReach.step h0 (CStep.alloc 0 (.plain 8) rfl rfl (by decide))
  have h2 := CReach.step h1 (CStep.lockAlloc 0 (.plain 8) rfl rfl)
  have h3 := CReach.step h2 (CStep.take 0 (.plain 8) (robRange 8 bm0) 0 8192 ⟨[robRange 8 bm0], 0, 1⟩ (robRange 8 bm1) 0 8192
    { pool := ⟨[robRange 8 bm1], 0, 1⟩, mem := robMem } rfl rfl)
  have h4 := CReach.step h3 (CStep.returned 0 (.plain 8) 8192 rfl rfl)
  unfold robS at h4
  dsimp only at h4
  rw [race_th0, race_th0, race_th0, race_th0] at h4
  have h5 := CReach.step h4 (CStep.alloc 1 (.plain 8) rfl rfl (by decide))
  have h6 := CReach.step h5 (CStep.lockAlloc 1 (.plain 8) rfl rfl)
  have h7 := CReach.step h6 (CStep.take 1 (.plain 8) (robRange 16 bm1) 8 8200 ⟨[robRange 16 bm1], 0, 1⟩ (robRange 16 bm2) 8 8200
    { pool := ⟨[robRange 16 bm2], 0, 1⟩, mem := robMem } rfl rfl)
  have h8 := CReach.step h7 (CStep.returned 1 (.plain 8) 8200 rfl rfl)
  unfold robS
  dsimp only at h8
  rw [race_th1, race_th1, race_th1, race_th1] at h8
  exact h8

/-- The copy of the page that thread 0's fault takes: item 1 not yet poisoned. -/
def robPend : Pend := ⟨8192, 8192, snapOf 4096 robMem 8192⟩

/-- The memory after thread 1's free, the fault still in progress. -/
def robFreed : Mem := (((freeP robC (robRange 16 bm2) 8200 0).run 4096 robMem).2)

theorem rob_freed : runPriv robC.pg (freeP robC (robRange 16 bm2) 8200 0) robMem = some ((), robFreed) := by
  have key : ∀ {k : MProg Unit} {m : Mem}, (runPriv robC.pg k m).isSome = true →
      runPriv robC.pg k m = some ((), (k.run robC.pg m).2) := by
    intro k
    induction k with
    | ret a => intro m _; rfl
    | rd x k ih => intro m h; exact ih _ h
    | wr x b k ih =>
      intro m h
      unfold runPriv at h ⊢
      split
      · rename_i hn
        rw [if_pos hn] at h
        exact ih h
      · rename_i hn
        rw [if_neg hn] at h
        cases h
  refine key ?_
  decide +kernel

theorem rob_after_free : CReach robC true
    (robS (installAt 4096 robFreed robPend) 16 bm3 16392 none .idle .idle none [8192]) := by
  have h0 := rob_two
  have h1 := CReach.step h0 (CStep.snapStore 0 8192 0 0 3 rfl rfl (by decide) (by decide) (by decide) rfl rfl)
  have h2 := CReach.step h1 (CStep.free 1 8200 rfl rfl List.mem_cons_self (by
    intro u d hd
    by_cases e : u = 0
    · subst e; cases hd; decide
    · have : upd (upd (fun _ => (none : Option Pend)) 0 none) 0 (some robPend) u = none := by
        unfold upd; rw [if_neg e, if_neg e]
      exact absurd (this.symm.trans hd) (by simp)))
  have h3 := CReach.step h2 (CStep.lockFree 1 8200 (robRange 16 bm2) (robRange 16 bm3) rfl rfl rfl rfl rfl)
  have h4 := free_alone h3 (t := 1) (p := 8200) rfl rfl rob_freed
  have h5 := CReach.step h4 (CStep.unlockFree 1 8200 _ rfl rfl)
  have h6 := CReach.step h5 (CStep.install 0 robPend rfl)
  unfold robS at h6 ⊢
  dsimp only at h6
  rw [race_th1, race_th1, race_th1, race_th1, race_pend, race_pend] at h6
  exact h6

/-- C28, negation for the poison of a freed item: all clients obey the rules, yet the next allocation of
a robust COW_INIT pool reports memory corruption and aborts.  A store to a neighbouring live item faults,
the kernel copies the page, the free poisons the init area and finds CPU 0's instance (still shared)
equal, the kernel installs the old copy.  Finding F18. -/
theorem cow_race_spurious_abort : ∃ s, CReach robC true s ∧ s.th 1 = .dead := by
  have h0 := rob_after_free
  have h1 := CReach.step h0 (CStep.alloc 1 (.plain 8) rfl rfl (by decide))
  have h2 := CReach.step h1 (CStep.lockAlloc 1 (.plain 8) rfl rfl)
  have hrun : ∃ m', runPriv robC.pg (lockedP robC ⟨[robRange 16 bm3], 16392, 1⟩) (installAt 4096 robFreed robPend) =
      some (.poisoned, m') := by
    have : (match runPriv robC.pg (lockedP robC ⟨[robRange 16 bm3], 16392, 1⟩) (installAt 4096 robFreed robPend) with
      | some (.poisoned, _) => true
      | _ => false) = true := by decide +kernel
    revert this
    cases runPriv robC.pg (lockedP robC ⟨[robRange 16 bm3], 16392, 1⟩) (installAt 4096 robFreed robPend) with
    | none => intro h; cases h
    | some x =>
      obtain ⟨a, m'⟩ := x
      cases a with
      | poisoned => intro _; exact ⟨m', rfl⟩
      | _ => intro h; cases h
  obtain ⟨m', hrun⟩ := hrun
  have hro : RO (fun _ => True) (lockedP robC ⟨[robRange 16 bm3], 16392, 1⟩) := by
    have rw8 : ∀ x, RO (fun _ => True) (readWordP x) := fun x => RO.readWordP fun _ _ => trivial
    have cmp : ∀ x v n off, RO (fun _ => True) (cmpP x v n off) := fun x v n off => RO.cmpP fun _ _ _ => trivial
    unfold lockedP
    split
    · split
      · exact .ret _
      · refine (rw8 _).bind fun w => RO.bind ?_ fun e => ?_
        · unfold checkP
          split
          · exact .ret _
          · refine RO.bind ?_ fun e => ?_
            · split
              · exact (cmp ..).bind fun _ => .ret _
              · exact .ret _
            · split
              · exact (RO.ret true).bind fun e => by
                  split
                  · exact (cmp ..).bind fun _ => .ret _
                  · exact .ret _
              · exact .ret _
        · split
          · exact .ret _
          · exact .ret _
    · split <;> exact .ret _
  have h3 := alloc_alone h2 (t := 1) (fill := .plain 8) rfl hrun hro
  exact ⟨_, CReach.step h3 (CStep.allocAbort 1 (.plain 8) (Or.inl rfl)), rfl⟩

/-! ### Examples for the theorems of `Verif.PoolConcProps` -/

/-- Page-sized items: robust COW_INIT pool, 2 CPUs, two items per range; faults may be split. -/
def bigC : Config :=
  { pg := 4096, order := 12, stride := 8192, ncpu := 2, cow := true, robust := true, poison := some 0x5555555555555555#64
    maxRanges := 1, initSet := false, global := false }

theorem bigC_valid : Valid bigC :=
  ⟨by decide, by decide, ⟨13, by decide⟩, ⟨12, by decide⟩, by decide, by decide, fun _ => rfl, fun h => by cases h⟩

theorem bigC_safe : FaultSafe bigC true := Or.inr (Or.inr (by decide))

theorem big_init : ∃ s, CReach bigC true s ∧ Calm bigC 0 s ∧ s.live = [] := by
  have hrc : ∃ r m, (rangeCreate bigC ⟨[], 0, 0⟩ raceMem { base := some 16384 }).2 = some (r, m) ∧ r.nextUnused = 0 := ⟨_, _, rfl, rfl⟩
  obtain ⟨r, m, hrc, hnu⟩ := hrc
  refine ⟨_, CReach.create raceMem { base := some 16384 } r m (fun _ _ h => by cases h) ⟨fun b e => ?_, fun _ _ _ h => by cases h⟩ hrc,
    ⟨fun _ => rfl, fun _ => rfl, rfl, rfl, r, [], rfl, hnu⟩, rfl⟩
  cases e
  exact ⟨by decide, by decide, by decide, fun r hr => (by cases hr), fun x hx => hx⟩

/-- C27, C28: thread 5 owns an item, thread 9's `malloc_init` of 100 bytes returns a second one, with the
two-phase page copy. -/
example : ∃ s s' p q, CReach bigC true s ∧ CStep bigC true s (.returned 9 (.init (fun i => BitVec.ofNat 8 i) 100) p) s' ∧
    q ∈ s.live ∧ p ∉ s.live := by
  obtain ⟨s0, h0, hc0, hl0⟩ := big_init
  obtain ⟨s1, s2, q, h1, hs1, _, hc2⟩ := calm_alloc bigC_valid bigC_safe h0 hc0 (by decide) 5 .zero (by decide)
  obtain ⟨s3, s4, p, h3, hs3, hl3, _⟩ := calm_alloc bigC_valid bigC_safe (CReach.step h1 hs1) hc2 (by decide) 9 (.init (fun i => BitVec.ofNat 8 i) 100) (by decide)
  have hlive := (conc_content bigC_valid bigC_safe h1 hs1).2.1
  exact ⟨s3, s4, p, q, h3, hs3, by rw [hl3, hlive]; exact List.mem_cons_self, (conc_content bigC_valid bigC_safe h3 hs3).1⟩

/-- C27: the lock is taken in some reachable state. -/
example : ∃ s, CReach bigC true s ∧ s.lock = some 7 := by
  obtain ⟨s0, h0, hc0, _⟩ := big_init
  exact ⟨_, CReach.step (CReach.step h0 (CStep.alloc 7 .zero (hc0.idle 7) (hc0.pend 7) (by decide)))
    (CStep.lockAlloc 7 .zero rfl hc0.lock), rfl⟩

/-- The safe cases of `FaultSafe` are configurations in use: page-sized items, COW_ZERO pools. -/
example : FaultSafe bigC true ∧ FaultSafe exPlain true ∧ FaultSafe exRobust false := ⟨bigC_safe, Or.inr (Or.inl rfl), Or.inl rfl⟩

end Verif.PoolConc
