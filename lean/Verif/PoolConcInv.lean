import Verif.PoolConcProg
/-
The invariant of the concurrent pool and its preservation by every step. Helper lemmas only.
-/
namespace Verif.PoolConc
open Verif Verif.Mem Verif.Mempool MProg

variable [Abi]

/-- The item a thread is working on: not (yet, or any more) in the hands of a client. -/
def Holder : TSt → Nat → Prop
  | .filling _ p _, q => p = q
  | .wantFree p, q => p = q
  | .inFree p _ _, q => p = q
  | _, _ => False

/-- The thread holds the pool lock. -/
def InLock : TSt → Prop
  | .inAlloc _ _ => True
  | .inFree _ _ _ => True
  | _ => False

/-- The items whose content the thread's program relies on. -/
def Need (F : List Nat) : TSt → Nat → Prop
  | .inAlloc _ _, q => q ∈ F
  | .filling _ p _, q => q = p
  | .inFree p _ _, q => q = p
  | _, _ => False

/-- What is known about a thread's program. -/
def TOk (c : Config) (pool : Pool) (F : List Nat) (m : Mem) : TSt → Prop
  | .idle => True
  | .wantAlloc fill => fill.len ≤ c.itemLen
  | .inAlloc fill k => fill.len ≤ c.itemLen ∧
      Ok c.pg (fun _ => False) (Rely c (· ∈ F)) (fun a m' => a = ((lockedP c pool).run c.pg m').1) k m
  | .filling fill p k => Ok c.pg (ItemBytes c p) (Rely c (· = p)) (fun _ m' => Content c p fill m') k m
  | .wantFree _ => True
  | .inFree p pool' k => (∃ r r', findRange pool.ranges (p - p % c.stride) = some r ∧
        clearAllocSlot c r (p % c.stride) = some r' ∧
        pool' = { pool with ranges := putRange pool.ranges r', head := percpuToFreeList c p }) ∧
      Ok c.pg (ItemBytes c p) (Rely c (· = p)) (fun _ m' => FreedOK c p pool.head m') k m
  | .dead => False

/-- What is known about a page fault in progress: the item is in safe hands, the page lies inside the
item, and the copy is what the page shows, as long as it is shared. -/
structure PendOK (c : Config) (live : List Nat) (m : Mem) (st : TSt) (d : Pend) : Prop where
  own : Holder st d.p ∨ (st = .idle ∧ d.p ∈ live)
  pg : c.pg ≤ c.itemLen
  loc : ∃ col o, col < c.nCols ∧ o < c.itemLen ∧ d.x = d.p + c.stride * col + o
  snap : m.src (d.x / c.pg) = none ∨ ∀ j, j < c.pg → d.snap j = m.read c.pg (d.x / c.pg * c.pg + j)

/-- The invariant: `L` items in the hands of clients or threads, `F` free items. -/
structure CInv (c : Config) (s : CState) (L F : List Nat) : Prop where
  inv : Inv c false { pool := s.pool, mem := s.mem } L F
  own : ∀ p, p ∈ L ↔ p ∈ s.live ∨ ∃ t, Holder (s.th t) p
  nodup : s.live.Nodup
  uniq : ∀ t u p, Holder (s.th t) p → Holder (s.th u) p → t = u
  apart : ∀ t p, Holder (s.th t) p → p ∉ s.live
  lk : ∀ t, InLock (s.th t) ↔ s.lock = some t
  prog : ∀ t, TOk c s.pool F s.mem (s.th t)
  pd : ∀ t d, s.pend t = some d → PendOK c s.live s.mem (s.th t) d

omit [Abi] in
@[simp] theorem upd_self {α : Type} (f : Nat → α) (t : Nat) (a : α) : upd f t a t = a := if_pos rfl

omit [Abi] in
theorem upd_ne {α : Type} (f : Nat → α) {t u : Nat} (h : u ≠ t) (a : α) : upd f t a u = f u := if_neg h

/-! ### Interference -/

theorem TOk.rely {c : Config} {pool : Pool} {F : List Nat} {m m' : Mem} {st : TSt} (h : TOk c pool F m st)
    (hr : Rely c (Need F st) m m') : TOk c pool F m' st := by
  cases st with
  | idle => trivial
  | wantAlloc fill => exact h
  | inAlloc fill k => exact ⟨h.1, Ok.stable Rely.trans h.2 hr⟩
  | filling fill p k => exact Ok.stable (Rely.trans (P := (· = p))) h hr
  | wantFree p => trivial
  | inFree p pool' k => exact ⟨h.1, Ok.stable (Rely.trans (P := (· = p))) h.2 hr⟩
  | dead => exact h

theorem TOk.change {c : Config} {pool pool' : Pool} {F F' : List Nat} {m : Mem} {st : TSt} (h : TOk c pool F m st)
    (hn : ¬ InLock st) : TOk c pool' F' m st := by
  cases st with
  | inAlloc fill k => exact absurd trivial hn
  | inFree p pool' k => exact absurd trivial hn
  | _ => exact h

theorem Need.holder {F : List Nat} {st : TSt} {q : Nat} (h : Need F st q) : q ∈ F ∨ Holder st q := by
  cases st with
  | inAlloc fill k => exact Or.inl h
  | filling fill p k => exact Or.inr h.symm
  | inFree p pool' k => exact Or.inr h.symm
  | _ => exact absurd h id

omit [Abi] in
theorem src_of_res {pg : Nat} (hpg : 0 < pg) {m : Mem} (hwf : m.WF) {x : Nat} (h : m.resolve pg x = x) :
    m.src (x / pg) = none := by
  cases hs : m.src (x / pg) with
  | none => rfl
  | some q =>
    unfold resolve at h
    rw [hs] at h
    dsimp only at h
    have hq : q = x / pg := by
      rw [← h, Nat.mul_comm, Nat.mul_add_div hpg, Nat.div_eq_of_lt (Nat.mod_lt _ hpg), Nat.add_zero]
    have := hwf _ _ hs
    rw [hq, hs] at this
    cases this

/-- The page of a byte of item `p`, when pages are not longer than items, lies in the item. -/
theorem page_in_item {c : Config} (hv : Valid c) (hle : c.pg ≤ c.itemLen) {l : List Range} (hR : RangesInv c l) {p : Nat}
    (hs : Slot c l p) {col o : Nat} (ho : o < c.itemLen) {j : Nat} (hj : j < c.pg) :
    (p + c.stride * col + o) / c.pg * c.pg + j = p + c.stride * col + (o / c.pg * c.pg + j) ∧
      o / c.pg * c.pg + j < c.itemLen := by
  have hpg := hv.pg_pos
  have hdvd : c.pg ∣ c.itemLen := by
    obtain ⟨k, hk⟩ := hv.pg_pow
    unfold Config.itemLen at *
    rw [hk] at hle ⊢
    exact Nat.pow_dvd_pow 2 ((Nat.pow_le_pow_iff_right (by omega)).1 hle)
  obtain ⟨r, hr, k, _, rfl⟩ := hs
  have hal : c.pg ∣ r.base + k * c.itemLen + c.stride * col := by
    have h1 := Nat.dvd_trans hv.pg_dvd (hR.each r hr).al
    exact Nat.dvd_add (Nat.dvd_add h1 (Nat.dvd_trans hdvd (Nat.dvd_mul_left _ _))) (Nat.dvd_trans hv.pg_dvd (Nat.dvd_mul_right _ _))
  obtain ⟨a, ha⟩ := hal
  obtain ⟨b, hb⟩ := hdvd
  rw [ha, Nat.mul_add_div hpg, Nat.add_mul, Nat.mul_comm a]
  refine ⟨by omega, ?_⟩
  have : o / c.pg < b := by
    rw [Nat.div_lt_iff_lt_mul hpg, Nat.mul_comm]; omega
  have := Nat.mul_le_mul_right c.pg (show o / c.pg + 1 ≤ b from this)
  rw [Nat.add_mul, Nat.one_mul, Nat.mul_comm b] at this
  omega

theorem PendOK.rely {c : Config} (hv : Valid c) {live : List Nat} {l : List Range} (hR : RangesInv c l) {m m' : Mem}
    (hwf : m.WF) {st : TSt} {d : Pend}
    (h : PendOK c live m st d) (hs : Slot c l d.p) (hr : Rely c (· = d.p) m m') : PendOK c live m' st d := by
  refine ⟨h.own, h.pg, h.loc, ?_⟩
  obtain ⟨col, o, hc, ho, hx⟩ := h.loc
  have hpg := hv.pg_pos
  rcases h.snap with e | e
  · left
    have h1 : m.resolve c.pg d.x = d.x := resolve_of_none e
    refine src_of_res hpg (hr.wf hwf) ?_
    rw [hx] at h1 ⊢
    rcases hr.res _ rfl col o hc ho with e' | e'
    · rw [e', h1]
    · exact e'
  · right
    intro j hj
    rw [e j hj, hx]
    have := page_in_item hv h.pg hR hs (col := col) ho hj
    rw [this.1, hr.rd _ rfl col _ hc this.2]

theorem rely_of_frame {c : Config} {l : List Range} (hR : RangesInv c l) {m m' : Mem} (hwf : m.WF)
    (hsh : Shape c l m) {p : Nat} (hp : Slot c l p) (hf : Frame c.pg (ItemBytes c p) m m') {P : Nat → Prop}
    (hP : ∀ q, P q → Slot c l q ∧ q ≠ p) : Rely c P m m' :=
  ⟨hf.wf, fun _ _ _ _ _ _ => hf.res _, fun q hq _ _ hc ho => keepOther hR hwf hsh hp (hP q hq).1 (hP q hq).2 hf hc ho⟩

theorem rely_of_ext {c : Config} {l : List Range} {m m' : Mem} (h : ExtOK c l m m') {P : Nat → Prop}
    (hP : ∀ q, P q → Slot c l q) : Rely c P m m' := by
  refine ⟨fun _ => h.wf, fun q hq col o hc ho => ?_, fun q hq col o hc ho => ?_⟩
  · obtain ⟨r, hr, k, hk, rfl⟩ := hP q hq
    rw [show r.base + k * c.itemLen + c.stride * col + o = r.base + c.stride * col + (k * c.itemLen + o) by omega]
    exact (h.inside r hr _ (col_in hc (by omega))).1
  · obtain ⟨r, hr, k, hk, rfl⟩ := hP q hq
    rw [show r.base + k * c.itemLen + c.stride * col + o = r.base + c.stride * col + (k * c.itemLen + o) by omega]
    exact (h.inside r hr _ (col_in hc (by omega))).2

theorem rely_of_new {c : Config} {l : List Range} {m m' : Mem} {r : Range} (h : NewRange c l m r m') {P : Nat → Prop}
    (hP : ∀ q, P q → Slot c l q) : Rely c P m m' := by
  refine ⟨fun _ => h.wf, fun q hq col o hc ho => ?_, fun q hq col o hc ho => ?_⟩
  · obtain ⟨r, hr, k, hk, rfl⟩ := hP q hq
    rw [show r.base + k * c.itemLen + c.stride * col + o = r.base + c.stride * col + (k * c.itemLen + o) by omega]
    exact h.keepRes r hr _ (col_in hc (by omega))
  · obtain ⟨r, hr, k, hk, rfl⟩ := hP q hq
    rw [show r.base + k * c.itemLen + c.stride * col + o = r.base + c.stride * col + (k * c.itemLen + o) by omega]
    exact h.keep r hr _ (col_in hc (by omega))

omit [Abi] in
/-- Installing a copy that shows what the page shows changes nothing that is read. -/
theorem install_frame {pg : Nat} (hpg : 0 < pg) {m : Mem} (hwf : m.WF) {d : Pend}
    (h : m.src (d.x / pg) = none ∨ ∀ j, j < pg → d.snap j = m.read pg (d.x / pg * pg + j)) (W : Nat → Prop) :
    Frame pg W m (installAt pg m d) := by
  unfold installAt
  cases hs : m.src (d.x / pg) with
  | none => exact Frame.refl
  | some q =>
    rw [hs] at h
    have h := h.resolve_left (by simp)
    dsimp only
    have hres : ∀ x, Mem.resolve pg
        { phys := fun y => if y / pg = d.x / pg then d.snap (y % pg) else m.phys y
          src := fun q => if q = d.x / pg then none else m.src q } x =
        if x / pg = d.x / pg then x else m.resolve pg x := by
      intro x
      unfold resolve
      dsimp only
      by_cases e : x / pg = d.x / pg
      · rw [if_pos e, if_pos e]
      · rw [if_neg e, if_neg e]
    refine ⟨fun _ a b => ?_, fun x => ?_, fun _ x _ _ => ?_⟩
    · dsimp only
      intro hab
      split at hab
      · cases hab
      · split
        · rfl
        · exact hwf a b hab
    · rw [hres]
      split
      · exact Or.inr rfl
      · exact Or.inl rfl
    · unfold Mem.read
      rw [hres]
      dsimp only
      by_cases e : x / pg = d.x / pg
      · rw [if_pos e, if_pos e, h _ (Nat.mod_lt _ hpg), ← e]
        rw [show x / pg * pg + x % pg = x from Nat.div_add_mod' x pg]
        rfl
      · rw [if_neg e, if_neg]
        intro e'
        -- another page would be mapped on the faulting one, which is itself mapped elsewhere
        unfold resolve at e'
        cases hx : m.src (x / pg) with
        | none => rw [hx] at e'; exact e e'
        | some q' =>
          rw [hx] at e'
          dsimp only at e'
          rw [Nat.mul_comm, Nat.mul_add_div hpg, Nat.div_eq_of_lt (Nat.mod_lt _ hpg), Nat.add_zero] at e'
          have := hwf _ _ hx
          rw [e', hs] at this
          cases this

/-! ### The end of a free -/

theorem freed_inv {c : Config} (hv : Valid c) {uaf : Bool} {s : State} {L F : List Nat} (h : Inv c uaf s L F)
    {p : Nat} (hp : p ∈ L) {r r' : Range} (hfind : findRange s.pool.ranges (p - p % c.stride) = some r)
    (hcl : clearAllocSlot c r (p % c.stride) = some r')
    (hw : s.mem.readWord c.pg (p + c.stride * c.flCol) = BitVec.ofNat _ s.pool.head)
    (hm : uaf = false → FreedOK c p s.pool.head s.mem) :
    Inv c uaf { s with pool := { s.pool with ranges := putRange s.pool.ranges r', head := percpuToFreeList c p } }
      (L.erase p) (p :: F) := by
  obtain ⟨r0, hr, k, hk, e⟩ := (h.used p).2 (Or.inl hp)
  have hR := h.ranges.each r0 hr
  have hkS : k * c.itemLen + c.itemLen ≤ c.stride := Nat.le_trans (lt_item_of_lt hR.nud hk) hR.nu
  have hmod : p % c.stride = k * c.itemLen := by rw [e]; exact slot_base hv h.ranges hr hkS
  have hbase : p - p % c.stride = r0.base := by rw [hmod, e]; omega
  have h0 : r0 = r := by
    have := findRange_eq h.ranges.nodup hr
    rw [hbase, this] at hfind
    exact Option.some.inj hfind
  subst h0
  have h8 := hv.item_ge
  rw [hmod] at hcl
  have hclear : r'.base = r0.base ∧ r'.nextUnused = r0.nextUnused ∧ RangeInv c r' ∧
      (∀ bm', r'.bitmap = some bm' → ∃ bm, r0.bitmap = some bm ∧ bm' = bitClear bm k) := by
    unfold clearAllocSlot at hcl
    cases hbm : r0.bitmap with
    | none =>
      rw [hbm] at hcl
      cases hcl
      exact ⟨rfl, rfl, hR, fun bm' hb' => by rw [hbm] at hb'; cases hb'⟩
    | some bm =>
      have : bitTest bm k = true := (h.bits r0 hr bm hbm k).2 ⟨hk, by rw [← e]; exact hp⟩
      rw [hbm] at hcl
      dsimp only at hcl
      rw [hv.shr, if_pos this] at hcl
      cases hcl
      refine ⟨rfl, rfl, ?_, ?_⟩
      · exact { hR with bm := by rw [← hR.bm, hbm]; rfl }
      · intro bm' hb'; cases hb'; exact ⟨bm, rfl, rfl⟩
  obtain ⟨hb', hnu', hR', hbm'⟩ := hclear
  have hpF : p ∉ F := fun hh => (List.nodup_append.1 h.nodup).2.2 p hp p hh rfl
  have hnode : (s.mem.readWord c.pg (p + c.stride * c.flCol)).toNat = s.pool.head := by
    rw [hw, BitVec.toNat_ofNat]
    exact Nat.mod_eq_of_lt (head_lt hv h.toInv0)
  have hb0 := h.toInv0.setBitmap hr hb' hnu' hR'
  have hLn : L.Nodup := (List.nodup_append.1 h.nodup).1
  have hmemL : ∀ q, q ∈ L.erase p ↔ q ∈ L ∧ q ≠ p := by
    intro q
    rw [hLn.mem_erase_iff]
    exact And.comm
  refine { wf := h.wf, ranges := hb0.ranges, shape := hb0.shape, mapped := h.mapped, nr := hb0.nr
           maxr := hb0.maxr, full := hb0.full, chain := ⟨toFreeList_eq c p, ?_⟩, nodup := ?_, used := ?_, poison := ?_, bits := ?_ }
  · dsimp only
    rw [toFreeList_eq, hnode]
    exact h.chain
  · rw [List.perm_middle.nodup_iff, List.nodup_cons]
    refine ⟨?_, ?_⟩
    · intro hm
      rcases List.mem_append.1 hm with a | a
      · exact ((hmemL p).1 a).2 rfl
      · exact hpF a
    · have := List.nodup_append.1 h.nodup
      rw [List.nodup_append]
      exact ⟨hLn.erase p, this.2.1, fun a ha b hb => this.2.2 a ((hmemL a).1 ha).1 b hb⟩
  · intro q
    rw [show Used c (putRange s.pool.ranges r') q ↔ _ from hb0.used q, hmemL, List.mem_cons]
    by_cases hqp : q = p
    · subst hqp
      constructor
      · intro _; exact Or.inr (Or.inl rfl)
      · intro _; exact Or.inl hp
    · constructor
      · rintro (a | a)
        · exact Or.inl ⟨a, hqp⟩
        · exact Or.inr (Or.inr a)
      · rintro (a | a | a)
        · exact Or.inl a.1
        · exact absurd a hqp
        · exact Or.inr a
  · intro hu v hpv q hq col o hb
    rcases List.mem_cons.1 hq with rfl | hq'
    · exact (hm hu).poison v hpv col o hb
    · exact h.poison hu v hpv q hq' col o hb
  · intro x hx bm hbm j
    rw [hmemL]
    rcases (mem_putRange ⟨r0, hr, hb'.symm⟩).1 hx with rfl | ⟨hx, hne⟩
    · obtain ⟨bm0, hbm0, rfl⟩ := hbm' bm hbm
      rw [bitTest_bitClear, h.bits r0 hr bm0 hbm0 j, hb', hnu', e]
      constructor
      · rintro ⟨a, b, d⟩; exact ⟨b, d, fun hh => a (base_add_item_inj hv hh)⟩
      · rintro ⟨a, b, d⟩; exact ⟨fun hh => d (by rw [hh]), a, b⟩
    · rw [h.bits x hx bm hbm j]
      constructor
      · rintro ⟨a, b⟩
        refine ⟨a, b, ?_⟩
        intro hh
        have := item_same_range hv h.ranges hx hr a hk (by rw [hh, e])
        exact hne (by rw [this.1, hb'])
      · rintro ⟨a, b, _⟩; exact ⟨a, b⟩

/-! ### Steps -/

variable {c : Config} {s : CState} {L F : List Nat}

theorem CInv.heldMem (h : CInv c s L F) {t p : Nat} (hh : Holder (s.th t) p) : p ∈ L := (h.own p).2 (Or.inr ⟨t, hh⟩)

theorem CInv.pendMem (h : CInv c s L F) {t : Nat} {d : Pend} (hd : s.pend t = some d) : d.p ∈ L := by
  rcases (h.pd t d hd).own with a | ⟨_, a⟩
  · exact h.heldMem a
  · exact (h.own _).2 (Or.inl a)

theorem CInv.disj (h : CInv c s L F) {p : Nat} (hl : p ∈ L) (hf : p ∈ F) : False :=
  (List.nodup_append.1 h.inv.nodup).2.2 p hl p hf rfl

/-- A step that moves one thread without changing who owns what. -/
theorem CInv.same (h : CInv c s L F) {t : Nat} {st : TSt} {m' : Mem} {pend' : Nat → Option Pend}
    (hH : ∀ p, Holder st p ↔ Holder (s.th t) p) (hL : InLock st ↔ InLock (s.th t))
    (hinv : Inv c false { pool := s.pool, mem := m' } L F) (hst : TOk c s.pool F m' st)
    (hoth : ∀ u, u ≠ t → TOk c s.pool F m' (s.th u))
    (hpd : ∀ u d, pend' u = some d → PendOK c s.live m' (upd s.th t st u) d) :
    CInv c { s with mem := m', th := upd s.th t st, pend := pend' } L F := by
  have hH' : ∀ u p, Holder (upd s.th t st u) p ↔ Holder (s.th u) p := by
    intro u p
    by_cases e : u = t
    · subst e; rw [upd_self]; exact hH p
    · rw [upd_ne _ e]
  refine ⟨hinv, fun p => ?_, h.nodup, fun a b p ha hb => ?_, fun a p ha => ?_, fun u => ?_, fun u => ?_, hpd⟩
  · rw [h.own]; simp only [hH']
  · exact h.uniq a b p ((hH' _ _).1 ha) ((hH' _ _).1 hb)
  · exact h.apart a p ((hH' _ _).1 ha)
  · show InLock (upd s.th t st u) ↔ _
    by_cases e : u = t
    · subst e; rw [upd_self, hL]; exact h.lk u
    · rw [upd_ne _ e]; exact h.lk u
  · show TOk c s.pool F m' (upd s.th t st u)
    by_cases e : u = t
    · subst e; rw [upd_self]; exact hst
    · rw [upd_ne _ e]; exact hoth u e

theorem PendOK.st {live : List Nat} {m : Mem} {st st' : TSt} {d : Pend} (h : PendOK c live m st d)
    (hh : ∀ p, Holder st p → Holder st' p) (hi : st = .idle → st' = .idle) : PendOK c live m st' d :=
  ⟨h.own.imp (hh _) (fun a => ⟨hi a.1, a.2⟩), h.pg, h.loc, h.snap⟩

/-- The thread moved has no fault in progress; memory unchanged. -/
theorem CInv.pdMove (h : CInv c s L F) {t : Nat} {st : TSt} (hp : s.pend t = none) :
    ∀ u d, s.pend u = some d → PendOK c s.live s.mem (upd s.th t st u) d := by
  intro u d hd
  by_cases e : u = t
  · subst e; rw [hp] at hd; cases hd
  · rw [upd_ne _ e]; exact h.pd u d hd

/-- No fault is in progress in a thread that neither owns an item nor runs client code. -/
theorem CInv.noPend (h : CInv c s L F) {t : Nat} (h1 : ∀ p, ¬ Holder (s.th t) p) (h2 : s.th t ≠ .idle) : s.pend t = none := by
  cases hd : s.pend t with
  | none => rfl
  | some d =>
    rcases (h.pd t d hd).own with a | ⟨a, _⟩
    · exact absurd a (h1 _)
    · exact absurd a h2

/-- Others are not disturbed by stores inside an item they neither own nor need. -/
theorem CInv.frameOther (h : CInv c s L F) {t p : Nat} (hp : p ∈ L) {m' : Mem}
    (hf : Frame c.pg (ItemBytes c p) s.mem m') (hne : ∀ u, u ≠ t → ¬ Holder (s.th u) p) :
    ∀ u, u ≠ t → TOk c s.pool F m' (s.th u) := by
  intro u hu
  refine (h.prog u).rely (rely_of_frame h.inv.ranges h.inv.wf h.inv.shape (h.inv.slotL hp) hf fun q hq => ?_)
  rcases hq.holder with a | a
  · exact ⟨h.inv.slotF a, fun e => h.disj hp (e ▸ a)⟩
  · exact ⟨h.inv.slotL (h.heldMem a), fun e => hne u hu (e ▸ a)⟩

/-- A store of the thread that owns item `p`. -/
theorem CInv.ownWrite (hv : Valid c) (h : CInv c s L F) {t p : Nat} (hh : Holder (s.th t) p) (hpn : s.pend t = none)
    {x : Nat} {b : Byte} (hx : ItemBytes c p x) {st : TSt} (hH : ∀ p, Holder st p ↔ Holder (s.th t) p)
    (hL : InLock st ↔ InLock (s.th t)) (hst : TOk c s.pool F (s.mem.write c.pg x b) st) :
    CInv c { s with mem := s.mem.write c.pg x b, th := upd s.th t st } L F := by
  have hf : Frame c.pg (ItemBytes c p) s.mem (s.mem.write c.pg x b) :=
    (Frame.write hv.pg_pos).mono fun y hy => by rw [hy]; exact hx
  have hpL := h.heldMem hh
  refine h.same hH hL (h.inv.frameLive hv hpL hf) hst
    (h.frameOther hpL hf fun u hu hq => hu (h.uniq u t p hq hh)) fun u d hd => ?_
  by_cases e : u = t
  · subst e; rw [hpn] at hd; cases hd
  · rw [upd_ne _ e]
    refine (h.pd u d hd).rely hv h.inv.ranges h.inv.wf (h.inv.slotL (h.pendMem hd)) ?_
    refine rely_of_frame h.inv.ranges h.inv.wf h.inv.shape (h.inv.slotL hpL) hf fun q hq => ?_
    subst hq
    refine ⟨h.inv.slotL (h.pendMem hd), fun hqp => ?_⟩
    rcases (h.pd u d hd).own with a | ⟨_, a⟩
    · exact e (h.uniq u t p (hqp ▸ a) hh)
    · exact h.apart t p hh (hqp ▸ a)

/-- A memory change that nobody in the pool can notice. -/
theorem CInv.quiet (hv : Valid c) (h : CInv c s L F) {m' : Mem} {pend' : Nat → Option Pend}
    (hinv : Inv c false { pool := s.pool, mem := m' } L F)
    (hr : ∀ P : Nat → Prop, (∀ q, P q → Slot c s.pool.ranges q) → Rely c P s.mem m')
    (hpd : ∀ u d, pend' u = some d → s.pend u = some d) : CInv c { s with mem := m', pend := pend' } L F := by
  refine ⟨hinv, h.own, h.nodup, h.uniq, h.apart, h.lk, fun u => ?_, fun u d hd => ?_⟩
  · refine (h.prog u).rely (hr _ fun q hq => ?_)
    rcases hq.holder with a | a
    · exact h.inv.slotF a
    · exact h.inv.slotL (h.heldMem a)
  · have hs := h.inv.slotL (h.pendMem (hpd u d hd))
    exact (h.pd u d (hpd u d hd)).rely hv h.inv.ranges h.inv.wf hs (hr _ fun q hq => by rw [hq]; exact hs)

/-- A new fault in progress. -/
theorem CInv.snapStep (hv : Valid c) {split : Bool} (hsafe : FaultSafe c split) (h : CInv c s L F) {t p x q : Nat}
    (hsp : split = true) (hp : p ∈ L) (hx : ItemBytes c p x) (hsrc : s.mem.src (x / c.pg) = some q)
    (hown : Holder (s.th t) p ∨ (s.th t = .idle ∧ p ∈ s.live)) :
    CInv c { s with pend := upd s.pend t (some ⟨p, x, snapOf c.pg s.mem x⟩) } L F := by
  obtain ⟨col, o, hc, ho, hxe⟩ := hx
  have hcow : c.cow = true := by
    rcases h.inv.shape.slot (h.inv.slotL hp) hc ho with e | ⟨hcow, _⟩
    · have := src_of_res hv.pg_pos h.inv.wf e
      rw [← hxe, hsrc] at this
      cases this
    · exact hcow
  have hle : c.pg ≤ c.itemLen := by
    rcases hsafe with e | e | e
    · rw [hsp] at e; cases e
    · rw [hcow] at e; cases e
    · exact e
  refine ⟨h.inv, h.own, h.nodup, h.uniq, h.apart, h.lk, h.prog, fun u d hd => ?_⟩
  dsimp only at hd
  by_cases e : u = t
  · subst e
    rw [upd_self] at hd
    cases hd
    exact ⟨hown, hle, ⟨col, o, hc, ho, hxe⟩, Or.inr fun j hj => rfl⟩
  · rw [upd_ne _ e] at hd
    exact h.pd u d hd

/-- A client's store. -/
theorem CInv.storeStep (hv : Valid c) (h : CInv c s L F) {p cpu o : Nat} {b : Byte} (hl : p ∈ s.live)
    (hcpu : cpu < c.ncpu) (ho : o < c.itemLen) :
    CInv c { s with mem := s.mem.write c.pg (cpuAddr c p cpu + o) b } L F := by
  have hle := ncpu_le_nCols c
  have hpL : p ∈ L := (h.own p).2 (Or.inl hl)
  have hs := h.inv.slotL hpL
  have hf : Frame c.pg (ItemBytes c p) s.mem (s.mem.write c.pg (cpuAddr c p cpu + o) b) :=
    (Frame.write hv.pg_pos).mono fun y hy => by rw [hy]; exact ⟨cpu, o, by omega, ho, rfl⟩
  have hinv := h.inv.frameLive hv hpL hf
  refine ⟨hinv, h.own, h.nodup, h.uniq, h.apart, h.lk, fun u => ?_, fun u d hd => ?_⟩
  · refine (h.prog u).rely (rely_of_frame h.inv.ranges h.inv.wf h.inv.shape hs hf fun q hq => ?_)
    rcases hq.holder with a | a
    · exact ⟨h.inv.slotF a, fun e => h.disj hpL (e ▸ a)⟩
    · exact ⟨h.inv.slotL (h.heldMem a), fun e => h.apart u q a (e ▸ hl)⟩
  · have hd0 := h.pd u d hd
    by_cases hpd : d.p = p
    · -- a fault on the same item
      refine ⟨hd0.own, hd0.pg, hd0.loc, ?_⟩
      obtain ⟨col', o', hc', ho', hx⟩ := hd0.loc
      dsimp only
      rw [src_write]
      by_cases hpage : d.x / c.pg = (cpuAddr c p cpu + o) / c.pg
      · left; rw [if_pos hpage]
      · rw [if_neg hpage]
        refine hd0.snap.imp id fun hsn j hj => ?_
        rw [hsn j hj]
        symm
        have hpi := page_in_item hv hd0.pg h.inv.ranges (h.inv.slotL (h.pendMem hd)) (col := col') ho' hj
        have hz : d.x / c.pg * c.pg + j = p + c.stride * col' + (o' / c.pg * c.pg + j) := by rw [hx, hpi.1, hpd]
        have hpage' : (d.x / c.pg * c.pg + j) / c.pg = d.x / c.pg := by
          rw [Nat.mul_comm, Nat.mul_add_div hv.pg_pos, Nat.div_eq_of_lt hj, Nat.add_zero]
        have hneq : d.x / c.pg * c.pg + j ≠ cpuAddr c p cpu + o := by
          intro e
          rw [e] at hpage'
          exact hpage hpage'.symm
        refine (Frame.write hv.pg_pos).rd h.inv.wf _ hneq ?_
        rcases h.inv.shape.slot hs hc' hpi.2 with e | ⟨hcow, _, e⟩
        · rw [hz, e, ← hz]; exact hneq
        · rw [hz, e]
          exact slot_col_disj hs (by omega) hpi.2 ho
    · refine hd0.rely hv h.inv.ranges h.inv.wf (h.inv.slotL (h.pendMem hd)) ?_
      refine rely_of_frame h.inv.ranges h.inv.wf h.inv.shape hs hf fun q hq => ?_
      subst hq
      exact ⟨h.inv.slotL (h.pendMem hd), hpd⟩

end Verif.PoolConc
