import Verif.PoolConcInv
import Verif.MempoolProps
/-
Every step of the concurrent pool keeps the invariant. Helper lemmas only.
-/
namespace Verif.PoolConc
open Verif Verif.Mem Verif.Mempool MProg

variable [Abi]

variable {c : Config} {s : CState} {L F : List Nat}

theorem IShape.of_shape {l : List Range} {m : Mem} (h : Shape c l m) {p : Nat} (hp : Slot c l p) : IShape c p m :=
  fun _ _ hc ho => h.slot hp hc ho

/-- The locked part of an allocation only loads from the first free item. -/
theorem lockedP_ro (hv : Valid c) {st : State} (h : Inv c false st L F) :
    RO (fun x => ∃ q, q ∈ F ∧ ItemBytes c q x) (lockedP c st.pool) := by
  have h8 := hv.item_ge
  have h88 := hv.item_wb
  have hle := ncpu_le_nCols c
  unfold lockedP
  split
  · rename_i hne
    cases F with
    | nil => exact absurd h.chain hne
    | cons p F' =>
      obtain ⟨hhead, -⟩ := h.chain
      obtain ⟨r, hr, k, hk, hp⟩ := (h.used p).2 (Or.inr List.mem_cons_self)
      have hR := h.ranges.each r hr
      have hkS : k * c.itemLen + c.itemLen ≤ c.stride := Nat.le_trans (lt_item_of_lt hR.nud hk) hR.nu
      have hperc : freeListToPercpu c st.pool.head = p := by rw [hhead]; exact toPercpu_toFreeList c p
      have hmod : p % c.stride = k * c.itemLen := by rw [hp]; exact slot_base hv h.ranges hr hkS
      have hbase : p - p % c.stride = r.base := by rw [hmod, hp]; omega
      rw [hperc, hbase, findRange_eq h.ranges.nodup hr]
      dsimp only
      rw [show p - r.base = k * c.itemLen by omega]
      have hcol : ∀ col, col < c.nCols → ∀ j, j < c.itemLen → ∃ q, q ∈ p :: F' ∧ ItemBytes c q (p + c.stride * col + j) :=
        fun col hc j hj => ⟨p, List.mem_cons_self, col, j, hc, hj, rfl⟩
      refine (RO.readWordP fun j hj => ?_).bind fun w => RO.bind ?_ fun e => ?_
      · rw [hhead]; exact hcol _ hv.flCol_lt j (by omega)
      · unfold checkP
        split
        · exact .ret _
        · have hini : initPtr r (k * c.itemLen) = if c.cow then some (p + c.stride * c.ncpu) else none := by
            unfold initPtr
            rw [hR.init_eq]
            cases c.cow
            · rfl
            · simp; omega
          rw [hini]
          refine RO.bind ?_ fun e => ?_
          · cases hc : c.cow with
            | false => exact .ret _
            | true => exact (RO.cmpP fun j _ hj => hcol _ (initCol_lt hc) j (by rw [Nat.mul_div_cancel' hv.item_wb] at hj; omega)).bind fun _ => .ret _
          · split
            · have : ∀ n, n ≤ c.ncpu → RO (fun x => ∃ q, q ∈ p :: F' ∧ ItemBytes c q x)
                  (checkCpusP c r (k * c.itemLen) (c.poison.getD 0#_) n) := by
                intro n hn
                induction n with
                | zero => exact .ret _
                | succ n ih =>
                  refine (ih (by omega)).bind fun e => ?_
                  split
                  · refine (RO.cmpP fun j _ hj => ?_).bind fun _ => .ret _
                    rw [percpuPtr_eq, ← hp]
                    exact hcol n (by omega) j (by rw [Nat.mul_div_cancel' hv.item_wb] at hj; omega)
                  · exact .ret _
              exact this _ (Nat.le_refl _)
            · exact .ret _
      · split
        · exact .ret _
        · exact .ret _
  · split <;> exact .ret _

/-- A thread releases the lock. -/
theorem CInv.leave (hv : Valid c) (h : CInv c s L F) {t : Nat} (ht : s.lock = some t) (hpn : s.pend t = none) {st : TSt}
    (hnl : ¬ InLock st) {pool' : Pool} {m' : Mem} {L' F' : List Nat}
    (hinv : Inv c false { pool := pool', mem := m' } L' F')
    (hown : ∀ p, p ∈ L' ↔ p ∈ s.live ∨ Holder st p ∨ ∃ u, u ≠ t ∧ Holder (s.th u) p)
    (huniq : ∀ u p, u ≠ t → Holder st p → ¬ Holder (s.th u) p)
    (hap : ∀ p, Holder st p → p ∉ s.live)
    (hst : TOk c pool' F' m' st)
    (hr : ∀ P : Nat → Prop, (∀ q, P q → Slot c s.pool.ranges q) → Rely c P s.mem m') :
    CInv c { s with mem := m', pool := pool', lock := none, th := upd s.th t st } L' F' := by
  have hout : ∀ u, u ≠ t → ¬ InLock (s.th u) := by
    intro u hu hl
    have := (h.lk u).1 hl
    rw [ht] at this
    exact hu (Option.some.inj this).symm
  refine ⟨hinv, fun p => ?_, h.nodup, fun a b p ha hb => ?_, fun a p ha => ?_, fun u => ?_, fun u => ?_, fun u d hd => ?_⟩
  · rw [hown]
    dsimp only
    refine or_congr Iff.rfl ⟨?_, ?_⟩
    · rintro (a | ⟨u, hu, a⟩)
      · exact ⟨t, by rw [upd_self]; exact a⟩
      · exact ⟨u, by rw [upd_ne _ hu]; exact a⟩
    · rintro ⟨u, a⟩
      by_cases e : u = t
      · subst e; rw [upd_self] at a; exact Or.inl a
      · rw [upd_ne _ e] at a; exact Or.inr ⟨u, e, a⟩
  · dsimp only at ha hb
    by_cases ea : a = t <;> by_cases eb : b = t
    · rw [ea, eb]
    · subst ea; rw [upd_self] at ha; rw [upd_ne _ eb] at hb; exact absurd hb (huniq b p eb ha)
    · subst eb; rw [upd_self] at hb; rw [upd_ne _ ea] at ha; exact absurd ha (huniq a p ea hb)
    · rw [upd_ne _ ea] at ha; rw [upd_ne _ eb] at hb; exact h.uniq a b p ha hb
  · dsimp only at ha
    by_cases ea : a = t
    · subst ea; rw [upd_self] at ha; exact hap p ha
    · rw [upd_ne _ ea] at ha; exact h.apart a p ha
  · show InLock (upd s.th t st u) ↔ none = some u
    refine iff_of_false ?_ (by simp)
    by_cases e : u = t
    · subst e; rw [upd_self]; exact hnl
    · rw [upd_ne _ e]; exact hout u e
  · show TOk c pool' F' m' (upd s.th t st u)
    by_cases e : u = t
    · subst e; rw [upd_self]; exact hst
    · rw [upd_ne _ e]
      refine TOk.change ((h.prog u).rely (hr _ fun q hq => ?_)) (hout u e)
      rcases hq.holder with a | a
      · exact h.inv.slotF a
      · exact h.inv.slotL (h.heldMem a)
  · show PendOK c s.live m' (upd s.th t st u) d
    by_cases e : u = t
    · subst e; rw [hpn] at hd; cases hd
    · rw [upd_ne _ e]
      have hs := h.inv.slotL (h.pendMem hd)
      exact (h.pd u d hd).rely hv h.inv.ranges h.inv.wf hs (hr _ fun q hq => by rw [hq]; exact hs)

theorem CInv.allocPend (h : CInv c s L F) {t : Nat} {fill : Fill} {k : MProg Found} (ht : s.th t = .inAlloc fill k) :
    s.pend t = none :=
  h.noPend (fun p => by rw [ht]; exact id) (by rw [ht]; exact fun h => (by cases h))

theorem CInv.holdsLock (h : CInv c s L F) {t : Nat} (ht : InLock (s.th t)) : s.lock = some t := (h.lk t).1 ht

/-- The end of the locked part of a successful allocation. -/
theorem CInv.allocDone (hv : Valid c) (h : CInv c s L F) {t : Nat} {fill : Fill} {k : MProg Found}
    (ht : s.th t = .inAlloc fill k) {env : RangeEnv} (henv : EnvOK c s.pool.ranges s.mem env) {r : Range} {off p : Nat}
    {s' : State} (e : lockedAlloc c env { pool := s.pool, mem := s.mem } = .ok (.item r off p, s'))
    (hr : ∀ P : Nat → Prop, (∀ q, P q → Slot c s.pool.ranges q) → Rely c P s.mem s'.mem) :
    ∃ F', CInv c { s with mem := s'.mem, pool := s'.pool, lock := none
                          th := upd s.th t (.filling fill p (fillP c r off fill)) } (p :: L) F' := by
  have hpt := h.prog t
  rw [ht] at hpt
  rcases lockedAlloc_spec hv h.inv (env := env) henv with ⟨r1, k1, s1, F', e1, hinv, hrm, hkS, _, _, _⟩ | ⟨e1, _⟩ | ⟨e1, _⟩
  · rw [e] at e1
    cases e1
    refine ⟨F', ?_⟩
    have hs : Slot c s'.pool.ranges (r.base + k1 * c.itemLen) := ⟨r, hrm, k1, hkS, rfl⟩
    have hpL : r.base + k1 * c.itemLen ∉ L := by
      have := hinv.nodup
      rw [List.cons_append, List.nodup_cons] at this
      exact fun hh => this.1 (List.mem_append.2 (Or.inl hh))
    have hinv' : Inv c false { pool := s'.pool, mem := s'.mem } ((r.base + k1 * c.itemLen) :: L) F' := by
      have := hinv.mapped
      obtain ⟨a, b, d⟩ := s'
      subst this
      exact hinv
    refine h.leave hv (h.holdsLock (by rw [ht]; trivial)) (h.allocPend ht) id hinv' (fun q => ?_) ?_ ?_ ?_ hr
    · rw [List.mem_cons, h.own]
      show _ ↔ _ ∨ r.base + k1 * c.itemLen = q ∨ _
      constructor
      · rintro (a | a | ⟨u, a⟩)
        · exact Or.inr (Or.inl a.symm)
        · exact Or.inl a
        · refine Or.inr (Or.inr ⟨u, ?_, a⟩)
          rintro rfl
          rw [ht] at a
          exact a
      · rintro (a | a | ⟨u, _, a⟩)
        · exact Or.inr (Or.inl a)
        · exact Or.inl a.symm
        · exact Or.inr (Or.inr ⟨u, a⟩)
    · intro u q _ (hq : _ = q) hu
      exact hpL (hq ▸ h.heldMem hu)
    · intro q (hq : _ = q) hl
      exact hpL (hq ▸ (h.own q).2 (Or.inl hl))
    · exact ok_fillP hv hs (hinv.ranges.each r hrm).init_eq hpt.1 hinv.wf (IShape.of_shape hinv.shape hs)
  · rw [e] at e1; cases e1
  · rw [e] at e1; cases e1

/-- A live item can always be freed. -/
theorem canFree (hv : Valid c) {uaf : Bool} {st : State} (h : Inv c uaf st L F) {p : Nat} (hp : p ∈ L) :
    ∃ r k r', r ∈ st.pool.ranges ∧ k * c.itemLen + c.itemLen ≤ c.stride ∧ p = r.base + k * c.itemLen ∧
      findRange st.pool.ranges (p - p % c.stride) = some r ∧ clearAllocSlot c r (p % c.stride) = some r' := by
  obtain ⟨r, hr, k, hk, e⟩ := (h.used p).2 (Or.inl hp)
  have hR := h.ranges.each r hr
  have hkS : k * c.itemLen + c.itemLen ≤ c.stride := Nat.le_trans (lt_item_of_lt hR.nud hk) hR.nu
  have hmod : p % c.stride = k * c.itemLen := by rw [e]; exact slot_base hv h.ranges hr hkS
  have hbase : p - p % c.stride = r.base := by rw [hmod, e]; omega
  have hcl : ∃ r', clearAllocSlot c r (p % c.stride) = some r' := by
    unfold clearAllocSlot
    cases hbm : r.bitmap with
    | none => exact ⟨_, rfl⟩
    | some bm =>
      have : bitTest bm k = true := (h.bits r hr bm hbm k).2 ⟨hk, by rw [← e]; exact hp⟩
      dsimp only
      rw [hmod, hv.shr, if_pos this]
      exact ⟨_, rfl⟩
  obtain ⟨r', hcl⟩ := hcl
  exact ⟨r, k, r', hr, hkS, e, by rw [hbase]; exact findRange_eq h.ranges.nodup hr, hcl⟩

theorem takeSlot_mem {st : State} {r r' : Range} {off addr off' p : Nat} {s' : State}
    (h : takeSlot c st r off addr = .ok (.item r' off' p, s')) : s'.mem = st.mem := by
  unfold takeSlot at h
  split at h
  · cases h
  · cases h; rfl

/-- What the locked part has decided is what it would decide now. -/
theorem CInv.decided (h : CInv c s L F) {t : Nat} {fill : Fill} {a : Found} (ht : s.th t = .inAlloc fill (.ret a)) :
    ((lockedP c s.pool).run c.pg s.mem).1 = a := by
  have := h.prog t
  rw [ht] at this
  exact (this.2 _ (Rely.refl _)).symm

theorem CInv.noAbort (hv : Valid c) (h : CInv c s L F) {env : RangeEnv} (henv : EnvOK c s.pool.ranges s.mem env)
    {w : Abort} (e : lockedAlloc c env { pool := s.pool, mem := s.mem } = .aborted w) : False := by
  rcases lockedAlloc_spec hv h.inv (env := env) henv with ⟨r1, k1, s1, F', e1, _⟩ | ⟨e1, _⟩ | ⟨_, e1, _⟩
  · rw [e] at e1; cases e1
  · rw [e] at e1; cases e1
  · cases e1

/-- Every step keeps the invariant. -/
theorem CInv.step (hv : Valid c) {split : Bool} (hsafe : FaultSafe c split) (h : CInv c s L F) {lab : Lab} {s' : CState}
    (hs : CStep c split s lab s') : ∃ L' F', CInv c s' L' F' := by
  cases hs with
  | alloc t fill ht hp hl =>
    refine ⟨L, F, h.same (fun p => ?_) ?_ h.inv hl (fun u _ => h.prog u) (h.pdMove hp)⟩
    · rw [ht]; exact Iff.rfl
    · rw [ht]; exact Iff.rfl
  | lockAlloc t fill ht hl =>
    refine ⟨L, F, ?_⟩
    have hpn : s.pend t = none := h.noPend (fun p => by rw [ht]; exact id) (by rw [ht]; exact fun h => (by cases h))
    have hpt := h.prog t
    rw [ht] at hpt
    have hH : ∀ u p, Holder (upd s.th t (.inAlloc fill (lockedP c s.pool)) u) p ↔ Holder (s.th u) p := by
      intro u p
      by_cases e : u = t
      · subst e; rw [upd_self, ht]; exact Iff.rfl
      · rw [upd_ne _ e]
    refine ⟨h.inv, fun p => ?_, h.nodup, fun a b p ha hb => ?_, fun a p ha => ?_, fun u => ?_, fun u => ?_, h.pdMove hpn⟩
    · rw [h.own]; simp only [hH]
    · exact h.uniq a b p ((hH _ _).1 ha) ((hH _ _).1 hb)
    · exact h.apart a p ((hH _ _).1 ha)
    · show InLock (upd s.th t _ u) ↔ some t = some u
      by_cases e : u = t
      · subst e; rw [upd_self]; exact iff_of_true trivial rfl
      · rw [upd_ne _ e]
        refine iff_of_false (fun hh => ?_) (fun hh => e (Option.some.inj hh).symm)
        have := (h.lk u).1 hh
        rw [hl] at this
        cases this
    · show TOk c s.pool F s.mem (upd s.th t _ u)
      by_cases e : u = t
      · subst e
        rw [upd_self]
        refine ⟨hpt, ((lockedP_ro hv h.inv).ok Rely.refl Rely.trans ?_ s.mem).mono fun a m hh => hh.2⟩
        rintro m m' x hR ⟨q, hq, col, o, hc, ho, rfl⟩
        exact hR.rd q hq col o hc ho
      · rw [upd_ne _ e]; exact h.prog u
  | readAlloc t fill x k ht =>
    have hpt := h.prog t
    rw [ht] at hpt
    refine ⟨L, F, h.same (fun p => ?_) ?_ h.inv ⟨hpt.1, hpt.2 _ (Rely.refl _)⟩ (fun u _ => h.prog u) (h.pdMove (h.allocPend ht))⟩
    · rw [ht]; exact Iff.rfl
    · rw [ht]; exact Iff.rfl
  | take t fill r off addr pool' r' off' p s1 ht hk =>
    have hm := takeSlot_mem hk
    have hdec := h.decided ht
    have e := lockedAlloc_eq c { base := none } { pool := s.pool, mem := s.mem }
    rw [hdec] at e
    dsimp only at e
    rw [hk] at e
    dsimp only at hm
    obtain ⟨F', hC⟩ := h.allocDone hv ht (ex_env ..) e (fun P _ => by rw [hm]; exact Rely.refl _)
    rw [hm] at hC
    exact ⟨_, F', hC⟩
  | takeAbort t fill r off addr pool' w ht hk =>
    have e := lockedAlloc_eq c { base := none } { pool := s.pool, mem := s.mem }
    rw [h.decided ht] at e
    dsimp only at e
    rw [hk] at e
    exact (h.noAbort hv (ex_env ..) e).elim
  | create t fill env r m r' off' p s1 ht henv hc hk =>
    have hm := takeSlot_mem hk
    dsimp only at hm
    have e := lockedAlloc_eq c env { pool := s.pool, mem := s.mem }
    rw [h.decided ht] at e
    dsimp only at e
    rw [hc] at e
    dsimp only at e
    rw [hk] at e
    have hn := (rangeCreate_spec hv h.inv.wf h.inv.shape henv hc).1
    obtain ⟨F', hC⟩ := h.allocDone hv ht henv e (fun P hP => by rw [hm]; exact rely_of_new hn hP)
    rw [hm] at hC
    exact ⟨_, F', hC⟩
  | createAbort t fill env r m w ht henv hc hk =>
    have e := lockedAlloc_eq c env { pool := s.pool, mem := s.mem }
    rw [h.decided ht] at e
    dsimp only at e
    rw [hc] at e
    dsimp only at e
    rw [hk] at e
    exact (h.noAbort hv henv e).elim
  | createNull t fill env ht henv hc =>
    refine ⟨L, F, h.leave hv (h.holdsLock (by rw [ht]; trivial)) (h.allocPend ht) id h.inv (fun q => ?_) ?_ ?_ trivial
      fun P _ => Rely.refl _⟩
    · rw [h.own]
      refine or_congr Iff.rfl ⟨?_, ?_⟩
      · rintro ⟨u, a⟩
        refine Or.inr ⟨u, ?_, a⟩
        rintro rfl
        rw [ht] at a
        exact a
      · rintro (a | ⟨u, _, a⟩)
        · exact a.elim
        · exact ⟨u, a⟩
    · intro u q _ hq; exact hq.elim
    · intro q hq; exact hq.elim
  | allocAbort t fill ht =>
    have e := lockedAlloc_eq c { base := none } { pool := s.pool, mem := s.mem }
    rcases ht with ht | ht
    · rw [h.decided ht] at e
      exact (h.noAbort hv (ex_env ..) e).elim
    · rw [h.decided ht] at e
      rcases lockedAlloc_spec hv h.inv (ex_env ..) with ⟨r1, k1, s1, F', e1, _⟩ | ⟨e1, _⟩ | ⟨e1, _⟩
      · rw [e] at e1; cases e1
      · rw [e] at e1; cases e1
      · rw [e] at e1; cases e1
  | readFill t fill p x k ht hp =>
    have hpt := h.prog t
    rw [ht] at hpt
    refine ⟨L, F, h.same (fun p => ?_) ?_ h.inv (hpt _ (Rely.refl _)) (fun u _ => h.prog u) (h.pdMove hp)⟩
    · rw [ht]; exact Iff.rfl
    · rw [ht]; exact Iff.rfl
  | writeFill t fill p x b k ht hp hx =>
    have hpt := h.prog t
    rw [ht] at hpt
    refine ⟨L, F, h.ownWrite hv (t := t) (p := p) (by rw [ht]; rfl) hp hpt.1 (fun p => ?_) ?_ (hpt.2 _ (Rely.refl _))⟩
    · rw [ht]; exact Iff.rfl
    · rw [ht]; exact Iff.rfl
  | returned t fill p ht hp =>
    have hH : ∀ u q, Holder (upd s.th t .idle u) q ↔ u ≠ t ∧ Holder (s.th u) q := by
      intro u q
      by_cases e : u = t
      · subst e; rw [upd_self]; exact ⟨fun hh => hh.elim, fun hh => absurd rfl hh.1⟩
      · rw [upd_ne _ e]; exact ⟨fun hh => ⟨e, hh⟩, fun hh => hh.2⟩
    have hpt : Holder (s.th t) p := by rw [ht]; rfl
    refine ⟨L, F, h.inv, fun q => ?_, List.nodup_cons.2 ⟨h.apart t p hpt, h.nodup⟩, fun a b q ha hb => ?_,
      fun a q ha => ?_, fun u => ?_, fun u => ?_, fun u d hd => ?_⟩
    · rw [h.own]
      simp only [hH, List.mem_cons]
      constructor
      · rintro (a | ⟨u, a⟩)
        · exact Or.inl (Or.inr a)
        · by_cases e : u = t
          · subst e; rw [ht] at a; exact Or.inl (Or.inl a.symm)
          · exact Or.inr ⟨u, e, a⟩
      · rintro ((a | a) | ⟨u, _, a⟩)
        · exact Or.inr ⟨t, a ▸ hpt⟩
        · exact Or.inl a
        · exact Or.inr ⟨u, a⟩
    · exact h.uniq a b q ((hH _ _).1 ha).2 ((hH _ _).1 hb).2
    · have := (hH _ _).1 ha
      rw [List.mem_cons]
      rintro (e | e)
      · subst e; exact this.1 (h.uniq a t q this.2 hpt)
      · exact h.apart a q this.2 e
    · show InLock (upd s.th t .idle u) ↔ s.lock = some u
      by_cases e : u = t
      · subst e
        rw [upd_self, ← h.lk u, ht]
        exact Iff.rfl
      · rw [upd_ne _ e]; exact h.lk u
    · show TOk c s.pool F s.mem (upd s.th t .idle u)
      by_cases e : u = t
      · subst e; rw [upd_self]; trivial
      · rw [upd_ne _ e]; exact h.prog u
    · show PendOK c (p :: s.live) s.mem (upd s.th t .idle u) d
      by_cases e : u = t
      · subst e; dsimp only at hd; rw [hp] at hd; cases hd
      · rw [upd_ne _ e]
        have := h.pd u d hd
        exact ⟨this.own.imp id fun a => ⟨a.1, List.mem_cons_of_mem _ a.2⟩, this.pg, this.loc, this.snap⟩
  | free t p ht hp hl hn =>
    have hmem : ∀ q, q ∈ s.live.erase p ↔ q ≠ p ∧ q ∈ s.live := fun q => h.nodup.mem_erase_iff
    have hH : ∀ u q, Holder (upd s.th t (.wantFree p) u) q ↔ (u = t ∧ p = q) ∨ Holder (s.th u) q := by
      intro u q
      by_cases e : u = t
      · subst e
        rw [upd_self, ht]
        exact ⟨fun hh => Or.inl ⟨rfl, hh⟩, fun hh => hh.elim (fun a => a.2) fun a => a.elim⟩
      · rw [upd_ne _ e]
        exact ⟨Or.inr, fun hh => hh.elim (fun a => absurd a.1 e) id⟩
    refine ⟨L, F, h.inv, fun q => ?_, h.nodup.erase p, fun a b q ha hb => ?_, fun a q ha => ?_, fun u => ?_, fun u => ?_, fun u d hd => ?_⟩
    · rw [h.own]
      simp only [hH, hmem]
      constructor
      · rintro (a | ⟨u, a⟩)
        · by_cases e : q = p
          · exact Or.inr ⟨t, Or.inl ⟨rfl, e.symm⟩⟩
          · exact Or.inl ⟨e, a⟩
        · exact Or.inr ⟨u, Or.inr a⟩
      · rintro (a | ⟨u, ⟨_, a⟩ | a⟩)
        · exact Or.inl a.2
        · exact Or.inl (a ▸ hl)
        · exact Or.inr ⟨u, a⟩
    · rcases (hH _ _).1 ha with a1 | a1 <;> rcases (hH _ _).1 hb with b1 | b1
      · rw [a1.1, b1.1]
      · exact absurd hl (a1.2 ▸ h.apart b q b1)
      · exact absurd hl (b1.2 ▸ h.apart a q a1)
      · exact h.uniq a b q a1 b1
    · show q ∉ s.live.erase p
      rw [hmem]
      rcases (hH _ _).1 ha with a1 | a1
      · exact fun hh => hh.1 a1.2.symm
      · exact fun hh => h.apart a q a1 hh.2
    · show InLock (upd s.th t _ u) ↔ s.lock = some u
      by_cases e : u = t
      · subst e
        rw [upd_self, ← h.lk u, ht]
        exact Iff.rfl
      · rw [upd_ne _ e]; exact h.lk u
    · show TOk c s.pool F s.mem (upd s.th t _ u)
      by_cases e : u = t
      · subst e; rw [upd_self]; trivial
      · rw [upd_ne _ e]; exact h.prog u
    · show PendOK c (s.live.erase p) s.mem (upd s.th t _ u) d
      by_cases e : u = t
      · subst e; dsimp only at hd; rw [hp] at hd; cases hd
      · rw [upd_ne _ e]
        have := h.pd u d hd
        exact ⟨this.own.imp id fun a => ⟨a.1, (hmem _).2 ⟨hn u d hd, a.2⟩⟩, this.pg, this.loc, this.snap⟩
  | lockFree t p r r' ht hp hl hf hc =>
    refine ⟨L, F, ?_⟩
    have hpt : Holder (s.th t) p := by rw [ht]; rfl
    obtain ⟨r0, k, r0', hr0, hkS, e0, hf0, _⟩ := canFree hv h.inv (h.heldMem hpt)
    rw [hf] at hf0
    cases hf0
    generalize hst : TSt.inFree p { s.pool with ranges := putRange s.pool.ranges r', head := percpuToFreeList c p }
      (freeP c r p s.pool.head) = st
    have hH : ∀ u q, Holder (upd s.th t st u) q ↔ Holder (s.th u) q := by
      intro u q
      by_cases e : u = t
      · subst e; subst hst; rw [upd_self, ht]; exact Iff.rfl
      · rw [upd_ne _ e]
    refine ⟨h.inv, fun p => ?_, h.nodup, fun a b p ha hb => ?_, fun a p ha => ?_, fun u => ?_, fun u => ?_, h.pdMove hp⟩
    · rw [h.own]; simp only [hH]
    · exact h.uniq a b p ((hH _ _).1 ha) ((hH _ _).1 hb)
    · exact h.apart a p ((hH _ _).1 ha)
    · show InLock (upd s.th t st u) ↔ some t = some u
      by_cases e : u = t
      · subst e; subst hst; rw [upd_self]; exact iff_of_true trivial rfl
      · rw [upd_ne _ e]
        refine iff_of_false (fun hh => ?_) (fun hh => e (Option.some.inj hh).symm)
        have := (h.lk u).1 hh
        rw [hl] at this
        cases this
    · show TOk c s.pool F s.mem (upd s.th t st u)
      by_cases e : u = t
      · subst e
        subst hst
        rw [upd_self]
        refine ⟨⟨r, r', hf, hc, rfl⟩, ?_⟩
        have hs : Slot c s.pool.ranges p := h.inv.slotL (h.heldMem hpt)
        have := ok_freeP hv h.inv.ranges hr0 hkS (head := s.pool.head) h.inv.wf (by rw [← e0]; exact IShape.of_shape h.inv.shape hs)
        rw [← e0] at this
        exact this
      · rw [upd_ne _ e]; exact h.prog u
  | freeAbort t p ht hp hl hf =>
    have hpt : Holder (s.th t) p := by rw [ht]; rfl
    obtain ⟨r0, k, r0', hr0, hkS, e0, hf0, hc0⟩ := canFree hv h.inv (h.heldMem hpt)
    rw [hf r0 hf0] at hc0
    cases hc0
  | readFree t p pool' x k ht hp =>
    have hpt := h.prog t
    rw [ht] at hpt
    refine ⟨L, F, h.same (fun p => ?_) ?_ h.inv ⟨hpt.1, hpt.2 _ (Rely.refl _)⟩ (fun u _ => h.prog u) (h.pdMove hp)⟩
    · rw [ht]; exact Iff.rfl
    · rw [ht]; exact Iff.rfl
  | writeFree t p pool' x b k ht hp hx =>
    have hpt := h.prog t
    rw [ht] at hpt
    refine ⟨L, F, h.ownWrite hv (t := t) (p := p) (by rw [ht]; rfl) hp hpt.2.1 (fun p => ?_) ?_
      ⟨hpt.1, hpt.2.2 _ (Rely.refl _)⟩⟩
    · rw [ht]; exact Iff.rfl
    · rw [ht]; exact Iff.rfl
  | unlockFree t p pool' ht hp =>
    have hpt := h.prog t
    have hh : Holder (s.th t) p := by rw [ht]; rfl
    rw [ht] at hpt
    obtain ⟨⟨r, r', hf, hc, rfl⟩, hq⟩ := hpt
    have hpL := h.heldMem hh
    have hinv := freed_inv hv h.inv hpL hf hc (hq _ (Rely.refl _)).node fun _ => hq _ (Rely.refl _)
    have hLn : L.Nodup := (List.nodup_append.1 h.inv.nodup).1
    refine ⟨L.erase p, p :: F, h.leave hv (h.holdsLock (by rw [ht]; trivial)) hp id hinv (fun q => ?_) ?_ ?_ trivial
      fun P _ => Rely.refl _⟩
    · rw [hLn.mem_erase_iff, h.own]
      constructor
      · rintro ⟨hne, a | ⟨u, a⟩⟩
        · exact Or.inl a
        · refine Or.inr (Or.inr ⟨u, ?_, a⟩)
          rintro rfl
          rw [ht] at a
          exact hne a.symm
      · rintro (a | a | ⟨u, hu, a⟩)
        · refine ⟨?_, Or.inl a⟩
          rintro rfl
          exact h.apart t q hh a
        · exact a.elim
        · refine ⟨?_, Or.inr ⟨u, a⟩⟩
          rintro rfl
          exact hu (h.uniq u t q a hh)
    · intro u q _ hq; exact hq.elim
    · intro q hq; exact hq.elim
  | store t p cpu o b ht hp hl hcpu ho hx => exact ⟨L, F, h.storeStep hv hl hcpu ho⟩
  | snapStore t p cpu o q ht hp hl hcpu ho hsp hx =>
    have hle := ncpu_le_nCols c
    exact ⟨L, F, h.snapStep hv hsafe hsp ((h.own p).2 (Or.inl hl)) ⟨cpu, o, by omega, ho, rfl⟩ hx (Or.inr ⟨ht, hl⟩)⟩
  | snapFill t fill p x b k q ht hp hsp hx =>
    have hpt := h.prog t
    have hh : Holder (s.th t) p := by rw [ht]; rfl
    rw [ht] at hpt
    exact ⟨L, F, h.snapStep hv hsafe hsp (h.heldMem hh) hpt.1 hx (Or.inl hh)⟩
  | snapFree t p pool' x b k q ht hp hsp hx =>
    have hpt := h.prog t
    have hh : Holder (s.th t) p := by rw [ht]; rfl
    rw [ht] at hpt
    exact ⟨L, F, h.snapStep hv hsafe hsp (h.heldMem hh) hpt.2.1 hx (Or.inl hh)⟩
  | install t d hd =>
    have hf : ∀ W, Frame c.pg W s.mem (installAt c.pg s.mem d) :=
      fun W => install_frame hv.pg_pos h.inv.wf (h.pd t d hd).snap W
    have hrd : ∀ x, (installAt c.pg s.mem d).read c.pg x = s.mem.read c.pg x :=
      fun x => (hf fun _ => False).rd h.inv.wf x id id
    refine ⟨L, F, h.quiet hv (h.inv.frameLive hv (h.pendMem hd) (hf _)) (fun P hP => ⟨(hf fun _ => False).wf, fun q _ _ _ _ _ => (hf fun _ => False).res _, fun q _ _ _ _ _ => hrd _⟩) ?_⟩
    intro u d' hd'
    by_cases e : u = t
    · subst e; rw [upd_self] at hd'; cases hd'
    · rw [upd_ne _ e] at hd'; exact hd'
  | ext m' hm =>
    exact ⟨L, F, h.quiet hv (ext_inv hv h.inv hm) (fun P hP => rely_of_ext hm hP) fun u d hd => hd⟩

theorem cinv_of_reach (hv : Valid c) {split : Bool} (hsafe : FaultSafe c split) (h : CReach c split s) :
    ∃ L F, CInv c s L F := by
  induction h with
  | create m0 env r m hwf henv h =>
    refine ⟨[], [], create_inv hv hwf henv h, fun p => ?_, List.nodup_nil, ?_, ?_, ?_, ?_, ?_⟩
    · refine iff_of_false List.not_mem_nil ?_
      rintro (a | ⟨_, a⟩)
      · exact List.not_mem_nil a
      · exact a
    · intro _ _ _ a; exact a.elim
    · intro _ _ a; exact a.elim
    · intro t; exact iff_of_false id (by simp)
    · intro _; trivial
    · intro _ _ a; cases a
  | step _ hs ih =>
    obtain ⟨L, F, hC⟩ := ih
    exact hC.step hv hsafe hs

end Verif.PoolConc
