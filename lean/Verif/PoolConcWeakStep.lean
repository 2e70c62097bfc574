import Verif.PoolConcWeak
import Verif.PoolConcLin
/-
Preservation of the weak invariant by every step, page faults of either kind. Helper lemmas only.
-/
namespace Verif.PoolConc
open Verif Verif.Mem Verif.Mempool MProg

variable [Abi]

variable {c : Config} {s : CState} {L F : List Nat}

theorem within_checkP {A : Nat → Prop} {r : Range} {off : Nat} : Within A (checkP c r off) := by
  unfold checkP
  split
  · exact .ret _
  · refine Within.bind ?_ fun e => ?_
    · split
      · exact cmp_any.bind fun _ => .ret _
      · exact .ret _
    · split
      · generalize c.ncpu = n
        induction n with
        | zero => exact .ret _
        | succ n ih =>
          refine ih.bind fun e => ?_
          split
          · exact cmp_any.bind fun _ => .ret _
          · exact .ret _
      · exact .ret _

/-- What the decision of the locked part is worth: with an empty free list it depends on nothing; otherwise, if
it takes an item, that is the first free one, and the new head is what its node contains. -/
structure TakeOK (c : Config) (pool : Pool) (m : Mem) (a : Found) : Prop where
  empty : pool.head = 0 → a = ((lockedP c pool).run c.pg m).1
  popped : pool.head ≠ 0 → ∀ r off addr pool', a = .take r off addr pool' →
    findRange pool.ranges (freeListToPercpu c pool.head - freeListToPercpu c pool.head % c.stride) = some r ∧
    off = freeListToPercpu c pool.head - (freeListToPercpu c pool.head - freeListToPercpu c pool.head % c.stride) ∧
    addr = freeListToPercpu c pool.head ∧ pool' = { pool with head := (m.readWord c.pg pool.head).toNat }
  noCreate : pool.head ≠ 0 → a ≠ .create

/-- What is known about a thread's program. -/
def WOk (c : Config) (pool : Pool) (F : List Nat) (m : Mem) : TSt → Prop
  | .wantAlloc fill => fill.len ≤ c.itemLen
  | .inAlloc fill k => fill.len ≤ c.itemLen ∧
      Ok c.pg (fun _ => False) (NRely c (· ∈ F)) (fun a m' => TakeOK c pool m' a) k m
  | .filling _ p k => Within (ItemBytes c p) k
  | .inFree p pool' k => (∃ r r', findRange pool.ranges (p - p % c.stride) = some r ∧
        clearAllocSlot c r (p % c.stride) = some r' ∧
        pool' = { pool with ranges := putRange pool.ranges r', head := percpuToFreeList c p }) ∧
      Ok c.pg (ItemBytes c p) (NRely c (· = p))
        (fun _ m' => m'.readWord c.pg (p + c.stride * c.flCol) = BitVec.ofNat _ pool.head) k m
  | _ => True

structure WInv (c : Config) (s : CState) (L F : List Nat) : Prop where
  inv : Inv c true { pool := s.pool, mem := s.mem } L F
  own : ∀ p, p ∈ s.live → p ∈ L
  held : ∀ t p, Holder (s.th t) p → p ∈ L
  nodup : s.live.Nodup
  uniq : ∀ t u p, Holder (s.th t) p → Holder (s.th u) p → t = u
  apart : ∀ t p, Holder (s.th t) p → p ∉ s.live
  lk : ∀ t, InLock (s.th t) → s.lock = some t
  prog : ∀ t, WOk c s.pool F s.mem (s.th t)

theorem WOk.rely {pool : Pool} {m m' : Mem} {st : TSt} (h : WOk c pool F m st)
    (hr : NRely c (Need F st) m m') : WOk c pool F m' st := by
  cases st with
  | inAlloc fill k => exact ⟨h.1, Ok.stable NRely.trans h.2 hr⟩
  | inFree p pool' k => exact ⟨h.1, Ok.stable (NRely.trans (P := (· = p))) h.2 hr⟩
  | _ => exact h

theorem WOk.change {pool pool' : Pool} {F' : List Nat} {m m' : Mem} {st : TSt} (h : WOk c pool F m st)
    (hn : ¬ InLock st) : WOk c pool' F' m' st := by
  cases st with
  | inAlloc fill k => exact absurd trivial hn
  | inFree p pool' k => exact absurd trivial hn
  | _ => exact h

theorem ok_lockedP (hv : Valid c) {st : State} (h : Inv c true st L F) :
    Ok c.pg (fun _ => False) (NRely c (· ∈ F)) (fun a m' => TakeOK c st.pool m' a) (lockedP c st.pool) st.mem := by
  have h8 := hv.item_ge
  by_cases hne : st.pool.head ≠ 0
  · have hnode : ∀ m m', NRely c (· ∈ F) m m' → m'.readWord c.pg st.pool.head = m.readWord c.pg st.pool.head := by
      intro m m' hr
      cases F with
      | nil => exact absurd h.chain hne
      | cons p F' =>
        obtain ⟨hhead, -⟩ := h.chain
        rw [hhead]
        unfold Mem.readWord
        exact joinBytes_congr fun j hj => hr.rd p List.mem_cons_self j (by omega)
    unfold lockedP
    rw [if_pos hne]
    split
    · exact fun m' _ => ⟨fun e => absurd e hne, fun _ _ _ _ _ e => (by cases e), fun _ e => by cases e⟩
    · rename_i r hr
      refine Ok.bind NRely.refl ?_
      refine ((RO.readWordP (X := fun x => ∃ j, j < wb ∧ x = st.pool.head + j) fun j hj => ⟨j, hj, rfl⟩).ok
        NRely.refl NRely.trans ?_ st.mem).mono ?_
      · rintro m m' x hR ⟨j, hj, rfl⟩
        cases F with
        | nil => exact absurd h.chain hne
        | cons p F' =>
          obtain ⟨hhead, -⟩ := h.chain
          rw [hhead]
          exact hR.rd p List.mem_cons_self j (by omega)
      · rintro w m1 ⟨_, hw⟩
        rw [run_readWordP] at hw
        refine Ok.bind NRely.refl ?_
        refine (within_checkP.ok (J := fun m => w = m.readWord c.pg st.pool.head) ?_ ?_ hw).mono ?_
        · intro m m' hJ hR
          rw [hnode m m' hR]; exact hJ
        · intro x b m hx; exact hx.elim
        · intro e m2 h2
          split
          · intro m3 h3
            refine ⟨fun e => absurd e hne, fun _ _ _ _ _ e => ?_, fun _ e => by cases e⟩
            cases e
            exact ⟨hr, rfl, rfl, by rw [h2, hnode m2 m3 h3]⟩
          · exact fun m' _ => ⟨fun e => absurd e hne, fun _ _ _ _ _ e => (by cases e), fun _ e => by cases e⟩
  · have h0 : st.pool.head = 0 := by omega
    have hret : ∃ a, lockedP c st.pool = .ret a := by
      unfold lockedP
      rw [if_neg hne]
      split <;> exact ⟨_, rfl⟩
    obtain ⟨a, ha⟩ := hret
    rw [ha]
    intro m' _
    refine ⟨fun _ => ?_, fun e => absurd h0 e, fun e => absurd h0 e⟩
    rw [ha]
    rfl

/-- One thread moves. -/
theorem WInv.move (h : WInv c s L F) (t : Nat) {st : TSt} {m' : Mem} {pool' : Pool} {lock' : Option Nat}
    {pend' : Nat → Option Pend} {live' L' F' : List Nat}
    (hinv : Inv c true { pool := pool', mem := m' } L' F') (hown : ∀ p, p ∈ live' → p ∈ L')
    (hst : ∀ p, Holder st p → p ∈ L' ∧ p ∉ live' ∧ ∀ u, u ≠ t → ¬ Holder (s.th u) p)
    (hoth : ∀ u p, u ≠ t → Holder (s.th u) p → p ∈ L' ∧ p ∉ live')
    (hnd : live'.Nodup) (hl : InLock st → lock' = some t) (hlo : ∀ u, u ≠ t → InLock (s.th u) → lock' = some u)
    (hp : WOk c pool' F' m' st) (hpo : ∀ u, u ≠ t → WOk c pool' F' m' (s.th u)) :
    WInv c { mem := m', pool := pool', lock := lock', th := upd s.th t st, pend := pend', live := live' } L' F' := by
  refine ⟨hinv, hown, fun a p ha => ?_, hnd, fun a b p ha hb => ?_, fun a p ha => ?_, fun u hu => ?_, fun u => ?_⟩
  · dsimp only at ha
    by_cases e : a = t
    · subst e; rw [upd_self] at ha; exact (hst p ha).1
    · rw [upd_ne _ e] at ha; exact (hoth a p e ha).1
  · dsimp only at ha hb
    by_cases ea : a = t <;> by_cases eb : b = t
    · rw [ea, eb]
    · subst ea; rw [upd_self] at ha; rw [upd_ne _ eb] at hb; exact absurd hb ((hst p ha).2.2 b eb)
    · subst eb; rw [upd_self] at hb; rw [upd_ne _ ea] at ha; exact absurd ha ((hst p hb).2.2 a ea)
    · rw [upd_ne _ ea] at ha; rw [upd_ne _ eb] at hb; exact h.uniq a b p ha hb
  · dsimp only at ha
    by_cases e : a = t
    · subst e; rw [upd_self] at ha; exact (hst p ha).2.1
    · rw [upd_ne _ e] at ha; exact (hoth a p e ha).2
  · dsimp only at hu
    by_cases e : u = t
    · subst e; rw [upd_self] at hu; exact hl hu
    · rw [upd_ne _ e] at hu; exact hlo u e hu
  · show WOk c pool' F' m' (upd s.th t st u)
    by_cases e : u = t
    · subst e; rw [upd_self]; exact hp
    · rw [upd_ne _ e]; exact hpo u e

/-- One thread moves and neither ownership nor pool nor lock changes. -/
theorem WInv.same (h : WInv c s L F) (t : Nat) {st : TSt} {m' : Mem} {pend' : Nat → Option Pend}
    (hH : ∀ p, Holder st p → Holder (s.th t) p) (hL : InLock st → InLock (s.th t))
    (hinv : Inv c true { pool := s.pool, mem := m' } L F) (hst : WOk c s.pool F m' st)
    (hoth : ∀ u, u ≠ t → WOk c s.pool F m' (s.th u)) :
    WInv c { s with mem := m', th := upd s.th t st, pend := pend' } L F :=
  h.move t hinv h.own (fun p hp => ⟨h.held t p (hH p hp), h.apart t p (hH p hp), fun u hu hh => hu (h.uniq u t p hh (hH p hp))⟩)
    (fun u p _ hh => ⟨h.held u p hh, h.apart u p hh⟩) h.nodup (fun hl => h.lk t (hL hl)) (fun u _ hl => h.lk u hl) hst hoth

/-- Memory changes that everybody tolerates. -/
theorem WInv.quiet (h : WInv c s L F) {m' : Mem} {pend' : Nat → Option Pend}
    (hinv : Inv c true { pool := s.pool, mem := m' } L F)
    (hr : ∀ P : Nat → Prop, (∀ q, P q → Slot c s.pool.ranges q) → NRely c P s.mem m') :
    WInv c { s with mem := m', pend := pend' } L F :=
  ⟨hinv, h.own, h.held, h.nodup, h.uniq, h.apart, h.lk, fun u => (h.prog u).rely (hr _ fun q hq => by
    rcases hq.holder with a | a
    · exact h.inv.slotF a
    · exact h.inv.slotL (h.held u q a))⟩

theorem WInv.frameOther (hv : Valid c) (h : WInv c s L F) {p : Nat} (hp : p ∈ L) {m' : Mem}
    (hf : Frame c.pg (ItemBytes c p) s.mem m') {u : Nat} (hne : ¬ Holder (s.th u) p) : WOk c s.pool F m' (s.th u) := by
  refine (h.prog u).rely (Rely.node hv (rely_of_frame h.inv.ranges h.inv.wf h.inv.shape (h.inv.slotL hp) hf fun q hq => ?_))
  rcases hq.holder with a | a
  · exact ⟨h.inv.slotF a, fun e => (List.nodup_append.1 h.inv.nodup).2.2 p hp p (e ▸ a) rfl⟩
  · exact ⟨h.inv.slotL (h.held u q a), fun e => hne (e ▸ a)⟩

theorem write_frame (hv : Valid c) {m : Mem} {p x : Nat} {b : Byte} (hx : ItemBytes c p x) :
    Frame c.pg (ItemBytes c p) m (m.write c.pg x b) :=
  (Frame.write hv.pg_pos).mono fun y hy => by rw [hy]; exact hx

/-- A store of the thread that owns item `p`. -/
theorem WInv.ownWrite (hv : Valid c) (h : WInv c s L F) {t p : Nat} (hh : Holder (s.th t) p) {x : Nat} {b : Byte}
    (hx : ItemBytes c p x) {st : TSt} (hH : ∀ p, Holder st p → Holder (s.th t) p) (hL : InLock st → InLock (s.th t))
    (hst : WOk c s.pool F (s.mem.write c.pg x b) st) :
    WInv c { s with mem := s.mem.write c.pg x b, th := upd s.th t st } L F :=
  h.same t hH hL (h.inv.frameLive hv (h.held t p hh) (write_frame hv hx)) hst fun u hu =>
    h.frameOther hv (h.held t p hh) (write_frame hv hx) fun hu' => hu (h.uniq u t p hu' hh)

/-- The end of the locked part of a successful allocation. -/
theorem WInv.allocDone (h : WInv c s L F) {t : Nat} {fill : Fill} {k : MProg Found} (ht : s.th t = .inAlloc fill k)
    {pool' : Pool} {m' : Mem} {r : Range} {off p : Nat} {F' : List Nat} (hinv : Inv c true { pool := pool', mem := m' } (p :: L) F')
    (hr : r ∈ pool'.ranges) (hp : p = r.base + off) :
    WInv c { s with mem := m', pool := pool', lock := none, th := upd s.th t (.filling fill p (fillP c r off fill)) } (p :: L) F' := by
  have hlk := h.lk t (by rw [ht]; trivial)
  have hout : ∀ u, u ≠ t → ¬ InLock (s.th u) := by
    intro u hu hl
    have := h.lk u hl
    rw [hlk] at this
    exact hu (Option.some.inj this).symm
  have hpL : p ∉ L := by
    have := hinv.nodup
    rw [List.cons_append, List.nodup_cons] at this
    exact fun hh => this.1 (List.mem_append.2 (Or.inl hh))
  have hpt := h.prog t
  rw [ht] at hpt
  refine h.move t hinv (fun q hq => List.mem_cons_of_mem _ (h.own q hq)) ?_ ?_ h.nodup (fun hl => hl.elim)
    (fun u hu hl => absurd hl (hout u hu)) ?_ (fun u hu => (h.prog u).change (hout u hu))
  · rintro q (hq : p = q)
    subst hq
    exact ⟨List.mem_cons_self, fun hl => hpL (h.own p hl), fun u _ hh => hpL (h.held u p hh)⟩
  · exact fun u q _ hh => ⟨List.mem_cons_of_mem _ (h.held u q hh), h.apart u q hh⟩
  · show Within (ItemBytes c p) _
    rw [hp]
    exact within_fillP (hinv.ranges.each r hr).init_eq hpt.1

/-- Taking the first free item. -/
theorem popped_inv (hv : Valid c) {st : State} (h : Inv c true st L F) (hne : st.pool.head ≠ 0) {r : Range} {off addr : Nat}
    {pool' : Pool}
    (h1 : findRange st.pool.ranges (freeListToPercpu c st.pool.head - freeListToPercpu c st.pool.head % c.stride) = some r)
    (h2 : off = freeListToPercpu c st.pool.head - (freeListToPercpu c st.pool.head - freeListToPercpu c st.pool.head % c.stride))
    (h3 : addr = freeListToPercpu c st.pool.head)
    (h4 : pool' = { st.pool with head := (st.mem.readWord c.pg st.pool.head).toNat }) :
    ∃ r' s' F', takeSlot c { st with pool := pool' } r off addr = .ok (.item r' off addr, s') ∧
      Inv c true s' (addr :: L) F' ∧ r' ∈ s'.pool.ranges ∧ addr = r'.base + off ∧ s'.mem = st.mem ∧ F = addr :: F' := by
  cases F with
  | nil => exact absurd h.chain hne
  | cons p F' =>
    obtain ⟨hhead, hchain⟩ := h.chain
    obtain ⟨r0, hr, k, hk, hp⟩ := (h.used p).2 (Or.inr List.mem_cons_self)
    have hR := h.ranges.each r0 hr
    have hkS : k * c.itemLen + c.itemLen ≤ c.stride := Nat.le_trans (lt_item_of_lt hR.nud hk) hR.nu
    have hperc : freeListToPercpu c st.pool.head = p := by rw [hhead]; exact toPercpu_toFreeList c p
    have hmod : p % c.stride = k * c.itemLen := by rw [hp]; exact slot_base hv h.ranges hr hkS
    have hbase : p - p % c.stride = r0.base := by rw [hmod, hp]; omega
    have hoff : p - r0.base = k * c.itemLen := by omega
    rw [hperc, hbase, findRange_eq h.ranges.nodup hr] at h1
    rw [hperc, hbase, hoff] at h2
    rw [hperc] at h3
    cases h1
    subst h2 h3 h4
    have h0 : Inv0 c true { st with pool := { st.pool with head := (st.mem.readWord c.pg st.pool.head).toNat } } (addr :: L) F' := by
      refine { wf := h.wf, ranges := h.ranges, shape := h.shape, mapped := h.mapped, nr := h.nr, maxr := h.maxr
               full := h.full, chain := hchain, nodup := ?_, used := ?_, poison := fun hu => by cases hu }
      · exact (List.perm_middle.nodup_iff).1 h.nodup
      · intro q
        show Used c st.pool.ranges q ↔ _
        rw [h.used q, List.mem_cons, List.mem_cons]
        constructor
        · rintro (a | a | a)
          · exact Or.inl (Or.inr a)
          · exact Or.inl (Or.inl a)
          · exact Or.inr a
        · rintro ((a | a) | a)
          · exact Or.inr (Or.inl a)
          · exact Or.inl a
          · exact Or.inr (Or.inr a)
    obtain ⟨r', s', e, hinv, hmem, hb', hm', _, _, _⟩ := takeSlot_spec hv h0 h.bits hr hk hp
    exact ⟨r', s', F', e, hinv, hmem, by rw [hb']; exact hp, hm', rfl⟩

theorem inv_unmap {uaf : Bool} {s' : State} (h : Inv c uaf s' L F) : Inv c uaf { pool := s'.pool, mem := s'.mem } L F := by
  have := h.mapped
  obtain ⟨a, b, d⟩ := s'
  subst this
  exact h

/-- The outcome of an allocation that has decided `a`. -/
def outcomeOf (c : Config) (env : RangeEnv) (s : State) (a : Found) : Outcome (Choice × State) :=
  match a with
  | .ub => .ub
  | .poisoned => .aborted .poison
  | .take r off addr pool => takeSlot c { s with pool := pool } r off addr
  | .create =>
    match (rangeCreate c s.pool s.mem env).2 with
    | none => .ok (.null .ENOMEM, s)
    | some (r, m) =>
      takeSlot c { s with mem := m, pool := addRange c s.pool r }
        { r with nextUnused := r.nextUnused + c.itemLen } r.nextUnused (r.base + r.nextUnused)

/-- The decision of an allocation with an empty free list. -/
theorem WInv.emptyDone (hv : Valid c) (h : WInv c s L F) {t : Nat} {fill : Fill} {a : Found}
    (ht : s.th t = .inAlloc fill (.ret a)) (he : s.pool.head = 0) {env : RangeEnv} (henv : EnvOK c s.pool.ranges s.mem env)
    {r : Range} {off p : Nat} {s' : State}
    (e : outcomeOf c env { pool := s.pool, mem := s.mem } a = .ok (.item r off p, s')) :
    F = [] ∧ p ∉ L ∧ WInv c { s with mem := s'.mem, pool := s'.pool, lock := none
                                     th := upd s.th t (.filling fill p (fillP c r off fill)) } (p :: L) [] := by
  have hpt := h.prog t
  rw [ht] at hpt
  have hd := (hpt.2 _ (NRely.refl _)).empty he
  have e1 := lockedAlloc_eq c env { pool := s.pool, mem := s.mem }
  rw [← hd] at e1
  have e2 : lockedAlloc c env { pool := s.pool, mem := s.mem } = .ok (.item r off p, s') := e1.trans e
  rcases lockedAlloc_spec hv h.inv (env := env) henv with ⟨r1, k1, s1, F', e3, hinv, hrm, hkS, _, _, hF⟩ | ⟨e3, _⟩ | ⟨e3, _⟩
  · rw [e2] at e3
    cases e3
    have hFe : F = [] := by
      have := h.inv.chain
      dsimp only at this
      rw [he] at this
      cases F with
      | nil => rfl
      | cons q F1 =>
        obtain ⟨r0, hr0, k0, _, hq⟩ := (h.inv.used q).2 (Or.inr List.mem_cons_self)
        have hpos := (h.inv.ranges.each r0 hr0).pos
        have hpg := hv.pg_pos
        have h2 := this.1
        omega
    have hF' : F' = [] := by
      rcases hF with ⟨a, _⟩ | a
      · rw [hFe] at a; cases a
      · exact a.2
    subst hF'
    have hn := hinv.nodup
    rw [List.append_nil, List.nodup_cons] at hn
    exact ⟨hFe, hn.1, h.allocDone ht (inv_unmap hinv) hrm rfl⟩
  · rw [e2] at e3; cases e3
  · rw [e2] at e3; cases e3

theorem acts_self (a : TSt) : acts a a = [] := by cases a <;> rfl

/-- A request is refused only if the free list is empty, all ranges are used up and there is no new one. -/
theorem WInv.emptyNull (hv : Valid c) (h : WInv c s L F) {t : Nat} {fill : Fill}
    (ht : s.th t = .inAlloc fill (.ret .create)) {env : RangeEnv} (henv : EnvOK c s.pool.ranges s.mem env)
    (hc : (rangeCreate c s.pool s.mem env).2 = none) : F = [] ∧ NoRoom c s.pool.ranges := by
  have hpt := h.prog t
  rw [ht] at hpt
  have he : s.pool.head = 0 := Classical.byContradiction fun hne => (hpt.2 _ (NRely.refl _)).noCreate hne rfl
  have hd := (hpt.2 _ (NRely.refl _)).empty he
  have e1 := lockedAlloc_eq c env { pool := s.pool, mem := s.mem }
  rw [← hd] at e1
  dsimp only at e1
  rw [hc] at e1
  dsimp only at e1
  rcases lockedAlloc_spec hv h.inv (env := env) henv with ⟨r1, k1, s1, F', e3, _⟩ | ⟨_, h2, h3, _⟩ | ⟨e3, _⟩
  · rw [e1] at e3; cases e3
  · exact ⟨h2, h3⟩
  · rw [e1] at e3; cases e3

/-- Every step keeps the weak invariant; what it does to the items is what the atomic allocator does. -/
theorem WInv.stepLin (hv : Valid c) {split : Bool} (h : WInv c s L F) {lab : Lab} {s' : CState}
    (hs : CStep c split s lab s') : ∃ t L' F', (∀ u, u ≠ t → s'.th u = s.th u) ∧
      Effect L F ((acts (s.th t) (s'.th t)).filter Act.effect) L' F' ∧ WInv c s' L' F' := by
  have hle := ncpu_le_nCols c
  cases hs with
  | alloc t fill ht hp hl =>
    exact ⟨t, L, F, fun u hu => upd_ne _ hu _, by
      show Effect L F ((acts (s.th t) (upd s.th t _ t)).filter Act.effect) _ _
      rw [upd_self, ht]; exact .none, h.same t (fun p hh => hh.elim) (fun hh => hh.elim) h.inv hl fun u _ => h.prog u⟩
  | lockAlloc t fill ht hl =>
    have hpt := h.prog t
    rw [ht] at hpt
    refine ⟨t, L, F, fun u hu => upd_ne _ hu _, by
      show Effect L F ((acts (s.th t) (upd s.th t _ t)).filter Act.effect) _ _
      rw [upd_self, ht]; exact .none, h.move t h.inv h.own (fun p hh => hh.elim) (fun u p _ hh => ⟨h.held u p hh, h.apart u p hh⟩) h.nodup
      (fun _ => rfl) (fun u _ hu => ?_) ⟨hpt, ok_lockedP hv h.inv⟩ fun u _ => h.prog u⟩
    have := h.lk u hu
    rw [hl] at this
    cases this
  | readAlloc t fill x k ht =>
    have hpt := h.prog t
    rw [ht] at hpt
    exact ⟨t, L, F, fun u hu => upd_ne _ hu _, by
      show Effect L F ((acts (s.th t) (upd s.th t _ t)).filter Act.effect) _ _
      rw [upd_self, ht]; exact .none, h.same t (fun p hh => hh.elim) (fun _ => by rw [ht]; trivial) h.inv ⟨hpt.1, hpt.2 _ (NRely.refl _)⟩ fun u _ => h.prog u⟩
  | take t fill r off addr pool' r' off' p s1 ht hk =>
    have hm := takeSlot_mem hk
    dsimp only at hm
    by_cases he : s.pool.head = 0
    · obtain ⟨hF, hpL, hC⟩ := h.emptyDone hv ht he (ex_env ..) (env := { base := none }) hk
      rw [hm] at hC
      refine ⟨t, _, _, fun u hu => upd_ne _ hu _, ?_, hC⟩
      show Effect L F ((acts (s.th t) (upd s.th t _ t)).filter Act.effect) _ _
      rw [upd_self, ht, hF]
      exact .fresh hpL
    · have hpt := h.prog t
      rw [ht] at hpt
      obtain ⟨h1, h2, h3, h4⟩ := (hpt.2 _ (NRely.refl _)).popped he _ _ _ _ rfl
      obtain ⟨r1, s2, F', e, hinv, hr1, hp1, hm1, hF⟩ := popped_inv hv h.inv he h1 h2 h3 h4
      have e' := hk.symm.trans e
      cases e'
      have := h.allocDone ht (inv_unmap hinv) hr1 hp1
      rw [hm] at this
      refine ⟨t, _, _, fun u hu => upd_ne _ hu _, ?_, this⟩
      show Effect L F ((acts (s.th t) (upd s.th t _ t)).filter Act.effect) _ _
      rw [upd_self, ht, hF]
      exact .reuse
  | takeAbort t fill r off addr pool' w ht hk =>
    exact ⟨t, L, F, fun u hu => upd_ne _ hu _, by
      show Effect L F ((acts (s.th t) (upd s.th t _ t)).filter Act.effect) _ _
      rw [upd_self, ht]; exact .none, h.same t (fun p hh => hh.elim) (fun hh => hh.elim) h.inv trivial fun u _ => h.prog u⟩
  | create t fill env r m r' off' p s1 ht henv hc hk =>
    have hpt := h.prog t
    rw [ht] at hpt
    have he : s.pool.head = 0 := Classical.byContradiction fun hne => (hpt.2 _ (NRely.refl _)).noCreate hne rfl
    have hm := takeSlot_mem hk
    dsimp only at hm
    obtain ⟨hF, hpL, hC⟩ := h.emptyDone hv ht he henv (env := env) (r := r') (off := off') (p := p) (s' := s1) (by
      unfold outcomeOf
      dsimp only
      rw [hc]
      exact hk)
    rw [hm] at hC
    refine ⟨t, _, _, fun u hu => upd_ne _ hu _, ?_, hC⟩
    show Effect L F ((acts (s.th t) (upd s.th t _ t)).filter Act.effect) _ _
    rw [upd_self, ht, hF]
    exact .fresh hpL
  | createAbort t fill env r m w ht henv hc hk =>
    exact ⟨t, L, F, fun u hu => upd_ne _ hu _, by
      show Effect L F ((acts (s.th t) (upd s.th t _ t)).filter Act.effect) _ _
      rw [upd_self, ht]; exact .none, h.same t (fun p hh => hh.elim) (fun hh => hh.elim) h.inv trivial fun u _ => h.prog u⟩
  | createNull t fill env ht henv hc =>
    have hlk := h.lk t (by rw [ht]; trivial)
    have hFe := (h.emptyNull hv ht henv hc).1
    refine ⟨t, L, F, fun u hu => upd_ne _ hu _, by
      show Effect L F ((acts (s.th t) (upd s.th t _ t)).filter Act.effect) _ _
      rw [upd_self, ht]; exact hFe ▸ .refuse, h.move t h.inv h.own (fun p hh => hh.elim) (fun u p _ hh => ⟨h.held u p hh, h.apart u p hh⟩) h.nodup
      (fun hh => hh.elim) (fun u hu hh => ?_) trivial fun u _ => h.prog u⟩
    have := h.lk u hh
    rw [hlk] at this
    exact absurd (Option.some.inj this).symm hu
  | allocAbort t fill ht =>
    exact ⟨t, L, F, fun u hu => upd_ne _ hu _, by
      show Effect L F ((acts (s.th t) (upd s.th t _ t)).filter Act.effect) _ _
      rw [upd_self]; rcases ht with ht | ht <;> (rw [ht]; exact .none), h.same t (fun p hh => hh.elim) (fun hh => hh.elim) h.inv trivial fun u _ => h.prog u⟩
  | readFill t fill p x k ht hp =>
    have hpt := h.prog t
    rw [ht] at hpt
    cases hpt with
    | rd _ _ hk => exact ⟨t, L, F, fun u hu => upd_ne _ hu _, by
      show Effect L F ((acts (s.th t) (upd s.th t _ t)).filter Act.effect) _ _
      rw [upd_self, ht]; exact .none, h.same t (fun q hh => by rw [ht]; exact hh) (fun hh => hh.elim) h.inv (hk _) fun u _ => h.prog u⟩
  | writeFill t fill p x b k ht hp hx =>
    have hpt := h.prog t
    rw [ht] at hpt
    cases hpt with
    | wr _ _ _ hxb hk =>
      exact ⟨t, L, F, fun u hu => upd_ne _ hu _, by
      show Effect L F ((acts (s.th t) (upd s.th t _ t)).filter Act.effect) _ _
      rw [upd_self, ht]; exact .none, h.ownWrite hv (t := t) (p := p) (by rw [ht]; rfl) hxb (fun q hh => by rw [ht]; exact hh) (fun hh => hh.elim) hk⟩
  | returned t fill p ht hp =>
    have hpt : Holder (s.th t) p := by rw [ht]; rfl
    refine ⟨t, L, F, fun u hu => upd_ne _ hu _, by
      show Effect L F ((acts (s.th t) (upd s.th t _ t)).filter Act.effect) _ _
      rw [upd_self, ht]; exact .none, h.move t h.inv (fun q hq => ?_) (fun p hh => hh.elim) (fun u q hu hh => ⟨h.held u q hh, fun hl => ?_⟩)
      (List.nodup_cons.2 ⟨h.apart t p hpt, h.nodup⟩) (fun hh => hh.elim) (fun u _ hh => h.lk u hh) trivial fun u _ => h.prog u⟩
    · rcases List.mem_cons.1 hq with rfl | hq
      · exact h.held t q hpt
      · exact h.own q hq
    · rcases List.mem_cons.1 hl with rfl | hl
      · exact hu (h.uniq u t q hh hpt)
      · exact h.apart u q hh hl
  | free t p ht hp hl hn =>
    have hmem : ∀ q, q ∈ s.live.erase p ↔ q ≠ p ∧ q ∈ s.live := fun q => h.nodup.mem_erase_iff
    refine ⟨t, L, F, fun u hu => upd_ne _ hu _, by
      show Effect L F ((acts (s.th t) (upd s.th t _ t)).filter Act.effect) _ _
      rw [upd_self, ht]; exact .none, h.move t h.inv (fun q hq => h.own q ((hmem q).1 hq).2) ?_ (fun u q _ hh => ⟨h.held u q hh, fun hl' => ?_⟩)
      (h.nodup.erase p) (fun hh => hh.elim) (fun u _ hh => h.lk u hh) trivial fun u _ => h.prog u⟩
    · rintro q (hq : p = q)
      subst hq
      exact ⟨h.own p hl, fun hh => ((hmem p).1 hh).1 rfl, fun u _ hh => h.apart u p hh hl⟩
    · exact h.apart u q hh ((hmem q).1 hl').2
  | lockFree t p r r' ht hp hl hf hc =>
    have hpt : Holder (s.th t) p := by rw [ht]; rfl
    obtain ⟨r0, k, r0', hr0, hkS, e0, hf0, _⟩ := canFree hv h.inv (h.held t p hpt)
    rw [hf] at hf0
    cases hf0
    have hs : Slot c s.pool.ranges p := h.inv.slotL (h.held t p hpt)
    have hok := node_freeP hv h.inv.ranges hr0 hkS (head := s.pool.head) h.inv.wf (by rw [← e0]; exact IShape.of_shape h.inv.shape hs)
    rw [← e0] at hok
    refine ⟨t, L, F, fun u hu => upd_ne _ hu _, by
      show Effect L F ((acts (s.th t) (upd s.th t _ t)).filter Act.effect) _ _
      rw [upd_self, ht]; exact .none, h.move t h.inv h.own ?_ (fun u q _ hh => ⟨h.held u q hh, h.apart u q hh⟩) h.nodup (fun _ => rfl)
      (fun u _ hu => ?_) ⟨⟨r, r', hf, hc, rfl⟩, hok⟩ fun u _ => h.prog u⟩
    · rintro q (hq : p = q)
      subst hq
      exact ⟨h.held t p hpt, h.apart t p hpt, fun u hu hh => hu (h.uniq u t p hh hpt)⟩
    · have := h.lk u hu
      rw [hl] at this
      cases this
  | freeAbort t p ht hp hl hf =>
    exact ⟨t, L, F, fun u hu => upd_ne _ hu _, by
      show Effect L F ((acts (s.th t) (upd s.th t _ t)).filter Act.effect) _ _
      rw [upd_self, ht]; exact .none, h.same t (fun p hh => hh.elim) (fun hh => hh.elim) h.inv trivial fun u _ => h.prog u⟩
  | readFree t p pool' x k ht hp =>
    have hpt := h.prog t
    rw [ht] at hpt
    exact ⟨t, L, F, fun u hu => upd_ne _ hu _, by
      show Effect L F ((acts (s.th t) (upd s.th t _ t)).filter Act.effect) _ _
      rw [upd_self, ht]; exact .none, h.same t (fun q hh => by rw [ht]; exact hh) (fun _ => by rw [ht]; trivial) h.inv ⟨hpt.1, hpt.2 _ (NRely.refl _)⟩ fun u _ => h.prog u⟩
  | writeFree t p pool' x b k ht hp hx =>
    have hpt := h.prog t
    rw [ht] at hpt
    exact ⟨t, L, F, fun u hu => upd_ne _ hu _, by
      show Effect L F ((acts (s.th t) (upd s.th t _ t)).filter Act.effect) _ _
      rw [upd_self, ht]; exact .none, h.ownWrite hv (t := t) (p := p) (by rw [ht]; rfl) hpt.2.1 (fun q hh => by rw [ht]; exact hh)
      (fun _ => by rw [ht]; trivial) ⟨hpt.1, hpt.2.2 _ (NRely.refl _)⟩⟩
  | unlockFree t p pool' ht hp =>
    have hpt := h.prog t
    have hh : Holder (s.th t) p := by rw [ht]; rfl
    have hlk := h.lk t (by rw [ht]; trivial)
    rw [ht] at hpt
    obtain ⟨⟨r, r', hf, hc, rfl⟩, hq⟩ := hpt
    have hpL := h.held t p hh
    have hinv := freed_inv hv h.inv hpL hf hc (hq _ (NRely.refl _)) (fun hu => by cases hu)
    have hLn : L.Nodup := (List.nodup_append.1 h.inv.nodup).1
    have hout : ∀ u, u ≠ t → ¬ InLock (s.th u) := by
      intro u hu hl
      have := h.lk u hl
      rw [hlk] at this
      exact hu (Option.some.inj this).symm
    refine ⟨t, L.erase p, p :: F, fun u hu => upd_ne _ hu _, by
      show Effect L F ((acts (s.th t) (upd s.th t _ t)).filter Act.effect) _ _
      rw [upd_self, ht]; exact .give hpL, h.move t hinv (fun q hl => (hLn.mem_erase_iff).2 ⟨?_, h.own q hl⟩) (fun q hh => hh.elim)
      (fun u q hu hh' => ⟨(hLn.mem_erase_iff).2 ⟨?_, h.held u q hh'⟩, h.apart u q hh'⟩) h.nodup (fun hl => hl.elim)
      (fun u hu hl => absurd hl (hout u hu)) trivial (fun u hu => (h.prog u).change (hout u hu))⟩
    · rintro rfl
      exact h.apart t q hh hl
    · rintro rfl
      exact hu (h.uniq u t q hh' hh)
  | store t p cpu o b ht hp hl hcpu ho hx =>
    have hpL := h.own p hl
    have hf : Frame c.pg (ItemBytes c p) s.mem (s.mem.write c.pg (cpuAddr c p cpu + o) b) :=
      write_frame hv ⟨cpu, o, by omega, ho, rfl⟩
    exact ⟨t, L, F, fun _ _ => rfl, by rw [acts_self]; exact .none, h.inv.frameLive hv hpL hf, h.own, h.held, h.nodup, h.uniq, h.apart, h.lk,
      fun u => h.frameOther hv hpL hf fun hh => h.apart u p hh hl⟩
  | snapStore t p cpu o q ht hp hl hcpu ho hsp hx =>
    exact ⟨t, L, F, fun _ _ => rfl, by rw [acts_self]; exact .none, h.inv, h.own, h.held, h.nodup, h.uniq, h.apart, h.lk, h.prog⟩
  | snapFill t fill p x b k q ht hp hsp hx =>
    exact ⟨t, L, F, fun _ _ => rfl, by rw [acts_self]; exact .none, h.inv, h.own, h.held, h.nodup, h.uniq, h.apart, h.lk, h.prog⟩
  | snapFree t p pool' x b k q ht hp hsp hx =>
    exact ⟨t, L, F, fun _ _ => rfl, by rw [acts_self]; exact .none, h.inv, h.own, h.held, h.nodup, h.uniq, h.apart, h.lk, h.prog⟩
  | install t d hd =>
    exact ⟨t, L, F, fun _ _ => rfl, by rw [acts_self]; exact .none, h.quiet (install_inv hv h.inv d) fun P hP => install_nrely hv h.inv.wf h.inv.shape d hP⟩
  | ext m' hm =>
    exact ⟨0, L, F, fun _ _ => rfl, by rw [acts_self]; exact .none, h.quiet (ext_inv hv h.inv hm) fun P hP => Rely.node hv (rely_of_ext hm hP)⟩

/-- Every step keeps the weak invariant. -/
theorem WInv.step (hv : Valid c) {split : Bool} (h : WInv c s L F) {lab : Lab} {s' : CState}
    (hs : CStep c split s lab s') : ∃ L' F', WInv c s' L' F' := by
  obtain ⟨_, L', F', _, _, h'⟩ := h.stepLin hv hs
  exact ⟨L', F', h'⟩

/-- Page faults are in progress only with two-phase copies. -/
theorem split_of_pend {split : Bool} (h : CReach c split s) {t : Nat} {d : Pend} (hd : s.pend t = some d) : split = true := by
  induction h generalizing t d with
  | create => cases hd
  | @step s s' l h hs ih =>
    cases hs
    case snapStore hsp _ => exact hsp
    case snapFill hsp _ => exact hsp
    case snapFree hsp _ => exact hsp
    case install t' d' hd' => exact ih hd'
    all_goals exact ih hd

theorem winv_of_reach (hv : Valid c) {split : Bool} (h : CReach c split s) : ∃ L F, WInv c s L F := by
  induction h with
  | create m0 env r m hwf henv h =>
    refine ⟨[], [], create_inv hv hwf henv h, fun p hp => hp, fun _ _ hh => hh.elim, List.nodup_nil, ?_, ?_, ?_, fun _ => trivial⟩
    · intro _ _ _ a; exact a.elim
    · intro _ _ a; exact a.elim
    · intro _ a; exact a.elim
  | step _ hs ih =>
    obtain ⟨L, F, hC⟩ := ih
    exact hC.step hv hs

end Verif.PoolConc
