import Verif.PoolConcWeakStep
/-
From steps of the pool machine to histories of the atomic allocator.  Helper lemmas only.
-/
namespace Verif.PoolConc
open Verif Verif.Mem Verif.Mempool MProg

variable [Abi]

variable {c : Config} {s : CState} {L F : List Nat} {e : List Event}

/-- The changes of a thread's state that the steps make. -/
inductive TMove : TSt → TSt → Prop
  | callAlloc {fill : Fill} : TMove .idle (.wantAlloc fill)
  | lock {fill : Fill} {k : MProg Found} : TMove (.wantAlloc fill) (.inAlloc fill k)
  | search {fill : Fill} {k k' : MProg Found} : TMove (.inAlloc fill k) (.inAlloc fill k')
  | took {fill : Fill} {k : MProg Found} {p : Nat} {k' : MProg Unit} : TMove (.inAlloc fill k) (.filling fill p k')
  | refused {fill : Fill} {k : MProg Found} : TMove (.inAlloc fill k) .idle
  | allocDies {fill : Fill} {k : MProg Found} : TMove (.inAlloc fill k) .dead
  | fill {fill : Fill} {p : Nat} {k k' : MProg Unit} : TMove (.filling fill p k) (.filling fill p k')
  | ret {fill : Fill} {p : Nat} {k : MProg Unit} : TMove (.filling fill p k) .idle
  | callFree {p : Nat} : TMove .idle (.wantFree p)
  | lockFree {p : Nat} {pool' : Pool} {k : MProg Unit} : TMove (.wantFree p) (.inFree p pool' k)
  | freeDies {p : Nat} : TMove (.wantFree p) .dead
  | free {p : Nat} {pool' : Pool} {k k' : MProg Unit} : TMove (.inFree p pool' k) (.inFree p pool' k')
  | gave {p : Nat} {pool' : Pool} {k : MProg Unit} : TMove (.inFree p pool' k) .idle

theorem tmove_upd {t t' : Nat} {b : TSt} (h : TMove (s.th t) b) : upd s.th t b t' = s.th t' ∨ TMove (s.th t') (upd s.th t b t') := by
  by_cases e : t' = t
  · subst e
    right
    rw [upd_self]
    exact h
  · exact Or.inl (upd_ne _ e _)

theorem step_moves {split : Bool} {lab : Lab} {s' : CState} (hs : CStep c split s lab s') (t : Nat) :
    s'.th t = s.th t ∨ TMove (s.th t) (s'.th t) := by
  cases hs with
  | alloc u fill h => exact tmove_upd (h ▸ .callAlloc)
  | lockAlloc u fill h => exact tmove_upd (h ▸ .lock)
  | readAlloc u fill x k h => exact tmove_upd (h ▸ .search)
  | take u fill r off addr pool' r' off' p s1 h => exact tmove_upd (h ▸ .took)
  | takeAbort u fill r off addr pool' w h => exact tmove_upd (h ▸ .allocDies)
  | create u fill env r m r' off' p s1 h => exact tmove_upd (h ▸ .took)
  | createAbort u fill env r m w h => exact tmove_upd (h ▸ .allocDies)
  | createNull u fill env h => exact tmove_upd (h ▸ .refused)
  | allocAbort u fill h =>
    rcases h with h | h
    · exact tmove_upd (h ▸ .allocDies)
    · exact tmove_upd (h ▸ .allocDies)
  | readFill u fill p x k h => exact tmove_upd (h ▸ .fill)
  | writeFill u fill p x b k h => exact tmove_upd (h ▸ .fill)
  | returned u fill p h => exact tmove_upd (h ▸ .ret)
  | free u p h => exact tmove_upd (h ▸ .callFree)
  | lockFree u p r r' h => exact tmove_upd (h ▸ .lockFree)
  | freeAbort u p h => exact tmove_upd (h ▸ .freeDies)
  | readFree u p pool' x k h => exact tmove_upd (h ▸ .free)
  | writeFree u p pool' x b k h => exact tmove_upd (h ▸ .free)
  | unlockFree u p pool' h => exact tmove_upd (h ▸ .gave)
  | store => exact Or.inl rfl
  | snapStore => exact Or.inl rfl
  | snapFill => exact Or.inl rfl
  | snapFree => exact Or.inl rfl
  | install => exact Or.inl rfl
  | ext => exact Or.inl rfl

/-- How far a thread is. -/
def AtMode (l : List Act) (st : TSt) : Prop := ∃ md, Calls l md ∧ (st = .dead ∨ st.mode = some md)

theorem AtMode.move {l : List Act} {a b : TSt} (h : AtMode l a) (hm : b = a ∨ TMove a b) : AtMode (l ++ acts a b) b := by
  rcases hm with rfl | hm
  · rw [acts_self, List.append_nil]; exact h
  · obtain ⟨md, hc, hmd⟩ := h
    have e0 : ∀ {l' : List Act}, l' = [] → Calls (l ++ l') md := fun h0 => by rw [h0, List.append_nil]; exact hc
    cases hm <;> (rcases hmd with hmd | hmd <;> cases hmd)
    case inr.callAlloc.inr.refl => exact ⟨_, hc.callAlloc, Or.inr rfl⟩
    case inr.lock.inr.refl => exact ⟨.allocating, e0 rfl, Or.inr rfl⟩
    case inr.search.inr.refl => exact ⟨.allocating, e0 rfl, Or.inr rfl⟩
    case inr.took.inr.refl => exact ⟨_, hc.took, Or.inr rfl⟩
    case inr.refused.inr.refl =>
      refine ⟨.out, ?_, Or.inr rfl⟩
      have := hc.refused.retNull
      rw [List.append_assoc] at this
      exact this
    case inr.allocDies.inr.refl => exact ⟨_, e0 rfl, Or.inl rfl⟩
    case inr.fill.inr.refl => exact ⟨_, e0 rfl, Or.inr rfl⟩
    case inr.ret.inr.refl => exact ⟨_, hc.ret, Or.inr rfl⟩
    case inr.callFree.inr.refl => exact ⟨_, hc.callFree, Or.inr rfl⟩
    case inr.lockFree.inr.refl => exact ⟨_, e0 rfl, Or.inr rfl⟩
    case inr.freeDies.inr.refl => exact ⟨_, e0 rfl, Or.inl rfl⟩
    case inr.free.inr.refl => exact ⟨_, e0 rfl, Or.inr rfl⟩
    case inr.gave.inr.refl =>
      refine ⟨.out, ?_, Or.inr rfl⟩
      have := hc.gave.retFree
      rw [List.append_assoc] at this
      exact this

omit [Abi] in
theorem actsOf_append (t u : Nat) (l : List Act) : actsOf t (e ++ l.map (Prod.mk u)) = actsOf t e ++ if u = t then l else [] := by
  unfold actsOf
  rw [List.filter_append, List.map_append]
  congr 1
  by_cases h : u = t
  · subst h
    rw [if_pos rfl]
    induction l with
    | nil => rfl
    | cons a l ih => simpa using ih
  · rw [if_neg h]
    induction l with
    | nil => rfl
    | cons a l ih => simpa [h] using ih

omit [Abi] in
theorem effects_append (u : Nat) (l : List Act) :
    effects (e ++ l.map (Prod.mk u)) = effects e ++ (l.filter Act.effect).map (Prod.mk u) := by
  unfold effects
  rw [List.filter_append]
  congr 1
  induction l with
  | nil => rfl
  | cons a l ih =>
    rw [List.map_cons, List.filter_cons, List.filter_cons]
    split <;> rename_i h
    · rw [List.map_cons, ih]
    · exact ih

omit [Abi] in
/-- Every item ever taken is taken now or free. -/
theorem Atomic.taken (h : Atomic e L F) {u p : Nat} (hm : (u, Act.took p) ∈ e) : p ∈ L ∨ p ∈ F := by
  induction h with
  | nil => cases hm
  | reuse _ ih =>
    rcases List.mem_append.1 hm with hm | hm
    · rcases ih hm with a | a
      · exact Or.inl (List.mem_cons_of_mem _ a)
      · rcases List.mem_cons.1 a with rfl | a
        · exact Or.inl List.mem_cons_self
        · exact Or.inr a
    · rw [List.mem_singleton] at hm; cases hm; exact Or.inl List.mem_cons_self
  | fresh _ _ ih =>
    rcases List.mem_append.1 hm with hm | hm
    · exact (ih hm).imp (List.mem_cons_of_mem _) id
    · rw [List.mem_singleton] at hm; cases hm; exact Or.inl List.mem_cons_self
  | refuse _ ih =>
    rcases List.mem_append.1 hm with hm | hm
    · exact ih hm
    · rw [List.mem_singleton] at hm; cases hm
  | @give e' L' F' t q _ hp ih =>
    rcases List.mem_append.1 hm with hm | hm
    · by_cases e : p = q
      · exact Or.inr (e ▸ List.mem_cons_self)
      · rcases ih hm with a | a
        · exact Or.inl ((List.mem_erase_of_ne e).2 a)
        · exact Or.inr (List.mem_cons_of_mem _ a)
    · rw [List.mem_singleton] at hm; cases hm

omit [Abi] in
/-- Every item taken or free was taken at some time. -/
theorem Atomic.was (h : Atomic e L F) {p : Nat} (hp : p ∈ L ∨ p ∈ F) : ∃ u, (u, Act.took p) ∈ e := by
  induction h with
  | nil => rcases hp with hp | hp <;> cases hp
  | @reuse e' L' F' t q _ ih =>
    have : p ∈ L' ∨ p ∈ q :: F' := by
      rcases hp with hp | hp
      · rcases List.mem_cons.1 hp with rfl | hp
        · exact Or.inr List.mem_cons_self
        · exact Or.inl hp
      · exact Or.inr (List.mem_cons_of_mem _ hp)
    obtain ⟨u, hu⟩ := ih this
    exact ⟨u, List.mem_append_left _ hu⟩
  | @fresh e' L' t q _ _ ih =>
    rcases hp with hp | hp
    · rcases List.mem_cons.1 hp with rfl | hp
      · exact ⟨t, List.mem_append_right _ (List.mem_singleton.2 rfl)⟩
      · obtain ⟨u, hu⟩ := ih (Or.inl hp)
        exact ⟨u, List.mem_append_left _ hu⟩
    · cases hp
  | refuse _ ih =>
    obtain ⟨u, hu⟩ := ih hp
    exact ⟨u, List.mem_append_left _ hu⟩
  | @give e' L' F' t q _ hq ih =>
    have : p ∈ L' ∨ p ∈ F' := by
      rcases hp with hp | hp
      · exact Or.inl (List.mem_of_mem_erase hp)
      · rcases List.mem_cons.1 hp with rfl | hp
        · exact Or.inl hq
        · exact Or.inr hp
    obtain ⟨u, hu⟩ := ih this
    exact ⟨u, List.mem_append_left _ hu⟩

omit [Abi] in
theorem Atomic.nodup (h : Atomic e L F) : (L ++ F).Nodup := by
  induction h with
  | nil => exact List.nodup_nil
  | reuse _ ih => exact (List.perm_middle.nodup_iff).1 ih
  | fresh h hp ih =>
    rw [List.append_nil] at ih
    rw [List.append_nil, List.nodup_cons]
    refine ⟨fun hm => ?_, ih⟩
    obtain ⟨u, hu⟩ := h.was (Or.inl hm)
    exact hp u hu
  | refuse _ ih => exact ih
  | @give e' L' F' t q _ hq ih =>
    have hL := (List.nodup_append.1 ih).1
    refine (List.perm_middle.nodup_iff).2 ?_
    have : (L' ++ F').Perm (q :: (L'.erase q ++ F')) := (List.perm_cons_erase hq).append_right F'
    exact this.nodup_iff.1 ih

omit [Abi] in
/-- One more step of the allocator. -/
theorem Atomic.effect {L' F' : List Nat} {l : List Act} (h : Atomic e L F) (t : Nat) (hl : Effect L F l L' F') :
    Atomic (e ++ l.map (Prod.mk t)) L' F' := by
  cases hl with
  | none => rw [List.map_nil, List.append_nil]; exact h
  | reuse => exact h.reuse
  | fresh hp =>
    refine h.fresh fun u hu => ?_
    rcases h.taken hu with a | a
    · exact hp a
    · cases a
  | refuse => exact h.refuse
  | give hp => exact h.give hp

theorem hist_reach {split : Bool} (h : Hist c split e s) : CReach c split s := by
  induction h with
  | create m0 env r m hwf henv h => exact .create m0 env r m hwf henv h
  | step t _ hs _ ih => exact .step ih hs

/-- The effect is that of the thread that moved, whichever thread is looked at. -/
theorem WInv.stepAt (hv : Valid c) {split : Bool} (h : WInv c s L F) {lab : Lab} {s' : CState}
    (hs : CStep c split s lab s') {t : Nat} (ht : ∀ u, u ≠ t → s'.th u = s.th u) : ∃ L' F',
      Effect L F ((acts (s.th t) (s'.th t)).filter Act.effect) L' F' ∧ WInv c s' L' F' := by
  obtain ⟨t0, L', F', ht0, he, hw⟩ := h.stepLin hv hs
  by_cases e : t0 = t
  · subst e; exact ⟨L', F', he, hw⟩
  · rw [ht t0 e, acts_self] at he
    rw [ht0 t (fun hh => e hh.symm), acts_self]
    exact ⟨L', F', he, hw⟩

/-- The history of a reachable state is one of the atomic allocator. -/
theorem hist_atomic (hv : Valid c) {split : Bool} (h : Hist c split e s) : ∃ L F, Atomic (effects e) L F ∧ WInv c s L F := by
  induction h with
  | create m0 env r m hwf henv h =>
    refine ⟨[], [], .nil, create_inv hv hwf henv h, fun p hp => hp, fun _ _ hh => hh.elim, List.nodup_nil, ?_, ?_, ?_, fun _ => trivial⟩
    · intro _ _ _ a; exact a.elim
    · intro _ _ a; exact a.elim
    · intro _ a; exact a.elim
  | step t _ hs ht ih =>
    obtain ⟨L, F, ha, hw⟩ := ih
    obtain ⟨L', F', he, hw'⟩ := hw.stepAt hv hs ht
    rw [effects_append]
    exact ⟨L', F', ha.effect t he, hw'⟩

theorem hist_modes {split : Bool} (h : Hist c split e s) (t : Nat) : AtMode (actsOf t e) (s.th t) := by
  induction h with
  | create => exact ⟨.out, .nil, Or.inr rfl⟩
  | step u _ hs hu ih =>
    rw [actsOf_append]
    split
    · rename_i e
      subst e
      exact ih.move (step_moves hs u)
    · rename_i e
      rw [List.append_nil, hu t fun hh => e hh.symm]
      exact ih

omit [Abi] in
/-- While an item is not given back it stays taken. -/
theorem Atomic.stays {E : List Event} (h : Atomic E L F) {e1 e2 : List Event} {t p : Nat}
    (hE : E = e1 ++ (t, Act.took p) :: e2) (hn : ∀ v, (v, Act.gave p) ∉ e2) : p ∈ L := by
  induction h generalizing e2 with
  | nil => simp at hE
  | @reuse e' L' F' u q _ ih =>
    rcases List.eq_nil_or_concat e2 with rfl | ⟨e3, x, rfl⟩
    · have := (List.append_inj' hE rfl).2
      cases this
      exact List.mem_cons_self
    · rw [List.concat_eq_append] at hE hn
      rw [show e1 ++ (t, Act.took p) :: (e3 ++ [x]) = (e1 ++ (t, Act.took p) :: e3) ++ [x] by simp] at hE
      exact List.mem_cons_of_mem _ (ih (List.append_inj' hE rfl).1 fun v hv => hn v (List.mem_append_left _ hv))
  | @fresh e' L' u q _ _ ih =>
    rcases List.eq_nil_or_concat e2 with rfl | ⟨e3, x, rfl⟩
    · have := (List.append_inj' hE rfl).2
      cases this
      exact List.mem_cons_self
    · rw [List.concat_eq_append] at hE hn
      rw [show e1 ++ (t, Act.took p) :: (e3 ++ [x]) = (e1 ++ (t, Act.took p) :: e3) ++ [x] by simp] at hE
      exact List.mem_cons_of_mem _ (ih (List.append_inj' hE rfl).1 fun v hv => hn v (List.mem_append_left _ hv))
  | @refuse e' L' u _ ih =>
    rcases List.eq_nil_or_concat e2 with rfl | ⟨e3, x, rfl⟩
    · have := (List.append_inj' hE rfl).2
      cases this
    · rw [List.concat_eq_append] at hE hn
      rw [show e1 ++ (t, Act.took p) :: (e3 ++ [x]) = (e1 ++ (t, Act.took p) :: e3) ++ [x] by simp] at hE
      exact ih (List.append_inj' hE rfl).1 fun v hv => hn v (List.mem_append_left _ hv)
  | @give e' L' F' u q _ hq ih =>
    rcases List.eq_nil_or_concat e2 with rfl | ⟨e3, x, rfl⟩
    · have := (List.append_inj' hE rfl).2
      cases this
    · rw [List.concat_eq_append] at hE hn
      rw [show e1 ++ (t, Act.took p) :: (e3 ++ [x]) = (e1 ++ (t, Act.took p) :: e3) ++ [x] by simp] at hE
      have h1 := ih (List.append_inj' hE rfl).1 fun v hv => hn v (List.mem_append_left _ hv)
      have h2 := (List.append_inj' hE rfl).2
      have hne : p ≠ q := by
        rintro rfl
        cases h2
        exact hn u (List.mem_append_right _ (List.mem_singleton.2 rfl))
      exact (List.mem_erase_of_ne hne).2 h1

omit [Abi] in
/-- Initial parts of the allocator's histories are histories of it. -/
theorem Atomic.prefix {e1 e2 : List Event} (h : Atomic (e1 ++ e2) L F) : ∃ L0 F0, Atomic e1 L0 F0 := by
  induction hn : e2.length generalizing e2 L F with
  | zero =>
    rw [List.length_eq_zero_iff] at hn
    subst hn
    rw [List.append_nil] at h
    exact ⟨L, F, h⟩
  | succ n ih =>
    rcases List.eq_nil_or_concat e2 with rfl | ⟨e3, x, rfl⟩
    · cases hn
    · rw [List.concat_eq_append] at h hn
      rw [List.length_append] at hn
      rw [← List.append_assoc] at h
      have hlen : e3.length = n := by simpa using hn
      generalize hE : e1 ++ e3 ++ [x] = E at h
      cases h with
      | nil => simp at hE
      | reuse h => rw [← (List.append_inj' hE rfl).1] at h; exact ih h hlen
      | fresh h => rw [← (List.append_inj' hE rfl).1] at h; exact ih h hlen
      | refuse h => rw [← (List.append_inj' hE rfl).1] at h; exact ih h hlen
      | give h => rw [← (List.append_inj' hE rfl).1] at h; exact ih h hlen

omit [Abi] in
theorem outstanding_append (e e' : List Event) : outstanding (e ++ e') = outstanding e + outstanding e' := by
  unfold outstanding
  rw [List.map_append, List.sum_append]

omit [Abi] in
theorem outstanding_effects (e : List Event) : outstanding (effects e) = outstanding e := by
  induction e with
  | nil => rfl
  | cons x e ih =>
    have h1 : outstanding (x :: e) = outstanding [x] + outstanding e := outstanding_append [x] e
    rw [h1, ← ih]
    unfold effects
    rw [List.filter_cons]
    split <;> rename_i h
    · exact outstanding_append [x] _
    · have : outstanding [x] = 0 := by
        obtain ⟨t, a⟩ := x
        cases a <;> first | rfl | exact absurd rfl h
      rw [this, Int.zero_add]

omit [Abi] in
theorem Atomic.count (h : Atomic e L F) : outstanding e = L.length := by
  induction h with
  | nil => rfl
  | reuse _ ih => rw [outstanding_append, ih, List.length_cons]; rfl
  | fresh _ _ ih => rw [outstanding_append, ih, List.length_cons]; rfl
  | refuse _ ih => rw [outstanding_append, ih]; exact Int.add_zero _
  | @give e' L' F' t q _ hq ih =>
    rw [outstanding_append, ih, List.length_erase_of_mem hq]
    have : outstanding [(t, Act.gave q)] = -1 := rfl
    have := List.length_pos_of_mem hq
    omega

omit [Abi] in
/-- The items in use or free are as many as were in use at some earlier time. -/
theorem Atomic.peak (h : Atomic e L F) : ∃ e', e' <+: e ∧ outstanding e' = (L.length + F.length : Nat) := by
  induction h with
  | nil => exact ⟨[], List.prefix_rfl, rfl⟩
  | @reuse e' L' F' t p _ ih =>
    obtain ⟨e1, h1, h2⟩ := ih
    refine ⟨e1, h1.trans (List.prefix_append ..), ?_⟩
    rw [h2, List.length_cons, List.length_cons]
    congr 1
    omega
  | @fresh e' L' t p h hp ih => exact ⟨_, List.prefix_rfl, (h.fresh hp).count⟩
  | refuse _ ih =>
    obtain ⟨e1, h1, h2⟩ := ih
    exact ⟨e1, h1.trans (List.prefix_append ..), h2⟩
  | @give e' L' F' t p _ hp ih =>
    obtain ⟨e1, h1, h2⟩ := ih
    refine ⟨e1, h1.trans (List.prefix_append ..), ?_⟩
    have := List.length_pos_of_mem hp
    rw [h2, List.length_erase_of_mem hp, List.length_cons]
    congr 1
    omega

omit [Abi] in
theorem nodup_length_le {l l' : List Nat} (h : l.Nodup) (hs : ∀ x ∈ l, x ∈ l') : l.length ≤ l'.length := by
  induction l generalizing l' with
  | nil => exact Nat.zero_le _
  | cons a l ih =>
    rw [List.nodup_cons] at h
    have ha := hs a List.mem_cons_self
    have := ih (l' := l'.erase a) h.2 fun x hx =>
      (List.mem_erase_of_ne (fun e : x = a => h.1 (e ▸ hx))).2 (hs x (List.mem_cons_of_mem _ hx))
    rw [List.length_erase_of_mem ha] at this
    have := List.length_pos_of_mem ha
    rw [List.length_cons]
    omega

/-- All item addresses of some ranges. -/
def slotsOf (c : Config) (l : List Range) : List Nat :=
  l.flatMap fun r => (List.range (c.stride / c.itemLen)).map fun k => r.base + k * c.itemLen

theorem slotsOf_length (c : Config) (l : List Range) : (slotsOf c l).length = l.length * (c.stride / c.itemLen) := by
  induction l with
  | nil => simp [slotsOf]
  | cons r l ih =>
    unfold slotsOf at ih ⊢
    rw [List.flatMap_cons, List.length_append, ih, List.length_map, List.length_range, List.length_cons, Nat.succ_mul, Nat.add_comm]

theorem slot_lt {c : Config} {k : Nat} (hk : k < c.stride / c.itemLen) : k * c.itemLen + c.itemLen ≤ c.stride := by
  have h1 : (k + 1) * c.itemLen ≤ c.stride / c.itemLen * c.itemLen := Nat.mul_le_mul_right _ hk
  have h2 := Nat.div_mul_le_self c.stride c.itemLen
  rw [Nat.succ_mul] at h1
  omega

theorem slotsOf_nodup (hv : Valid c) {l l0 : List Range} (h : RangesInv c l0) (hsub : ∀ r ∈ l, r ∈ l0)
    (hn : (l.map (·.base)).Nodup) : (slotsOf c l).Nodup := by
  induction l with
  | nil => exact List.nodup_nil
  | cons r l ih =>
    have hI := hv.item_pos
    rw [List.map_cons, List.nodup_cons] at hn
    unfold slotsOf
    rw [List.flatMap_cons, List.nodup_append]
    refine ⟨?_, ih (fun r' hr' => hsub r' (List.mem_cons_of_mem _ hr')) hn.2, ?_⟩
    · rw [List.nodup_iff_pairwise_ne, List.pairwise_map]
      refine List.Pairwise.imp ?_ (List.nodup_iff_pairwise_ne.1 List.nodup_range)
      intro a b hab e
      exact hab (Nat.eq_of_mul_eq_mul_right hI (Nat.add_left_cancel e))
    · intro p hp q hq hpq
      obtain ⟨k, hk, rfl⟩ := List.mem_map.1 hp
      obtain ⟨r2, hr2, hq⟩ := List.mem_flatMap.1 hq
      obtain ⟨k2, hk2, rfl⟩ := List.mem_map.1 hq
      have hk1 := slot_lt (List.mem_range.1 hk)
      have hk3 := slot_lt (List.mem_range.1 hk2)
      have h1 := slot_base hv h (hsub r List.mem_cons_self) hk1
      have h2 := slot_base hv h (hsub r2 (List.mem_cons_of_mem _ hr2)) hk3
      have hpq' : r.base + k * c.itemLen = r2.base + k2 * c.itemLen := hpq
      rw [hpq', h2] at h1
      refine hn.1 (List.mem_map.2 ⟨r2, hr2, ?_⟩)
      show r2.base = r.base
      omega

/-- Full ranges hold at least that many used items. -/
theorem full_le (hv : Valid c) {uaf : Bool} {st : State} (h : Inv c uaf st L F) {l : List Range} (hsub : l.Sublist st.pool.ranges)
    (hf : ∀ r ∈ l, r.nextUnused = c.stride) : l.length * (c.stride / c.itemLen) ≤ L.length + F.length := by
  rw [← slotsOf_length, ← List.length_append]
  refine nodup_length_le (slotsOf_nodup hv h.ranges (fun r hr => hsub.subset hr) (h.ranges.nodup.sublist (hsub.map _))) fun p hp => ?_
  obtain ⟨r, hr, hp⟩ := List.mem_flatMap.1 hp
  obtain ⟨k, hk, rfl⟩ := List.mem_map.1 hp
  have hk1 := slot_lt (List.mem_range.1 hk)
  have hI := hv.item_pos
  exact List.mem_append.2 ((h.used _).1 ⟨r, hsub.subset hr, k, by rw [hf r hr]; omega, rfl⟩)

theorem refused_upd {t u : Nat} {b : TSt} (hr : Act.refused ∈ acts (s.th t) (upd s.th u b t)) :
    u = t ∧ Act.refused ∈ acts (s.th u) b := by
  by_cases e : t = u
  · subst e; rw [upd_self] at hr; exact ⟨rfl, hr⟩
  · rw [upd_ne _ e, acts_self] at hr; cases hr

theorem refused_none {a b : TSt} (h : (acts a b).contains .refused = false) : Act.refused ∉ acts a b := by
  intro hm
  rw [List.contains_iff_mem.2 hm] at h
  cases h

/-- The state in which a request is refused. -/
theorem WInv.refusedAt (hv : Valid c) {split : Bool} (h : WInv c s L F) {lab : Lab} {s' : CState}
    (hs : CStep c split s lab s') {t : Nat} (hr : Act.refused ∈ acts (s.th t) (s'.th t)) : F = [] ∧ NoRoom c s.pool.ranges := by
  cases hs with
  | createNull u fill env ht henv hc => exact h.emptyNull hv ht henv hc
  | allocAbort u fill ht =>
    have h1 := (refused_upd hr).2
    rcases ht with ht | ht <;> (rw [ht] at h1; exact absurd h1 (refused_none rfl))
  | store => rw [acts_self] at hr; cases hr
  | snapStore => rw [acts_self] at hr; cases hr
  | snapFill => rw [acts_self] at hr; cases hr
  | snapFree => rw [acts_self] at hr; cases hr
  | install => rw [acts_self] at hr; cases hr
  | ext => rw [acts_self] at hr; cases hr
  | alloc _ _ ht | lockAlloc _ _ ht | readAlloc _ _ _ _ ht | take _ _ _ _ _ _ _ _ _ _ ht | takeAbort _ _ _ _ _ _ _ ht
  | create _ _ _ _ _ _ _ _ _ ht | createAbort _ _ _ _ _ _ ht | readFill _ _ _ _ _ ht | writeFill _ _ _ _ _ _ ht
  | returned _ _ _ ht | free _ _ ht | lockFree _ _ _ _ ht | freeAbort _ _ ht | readFree _ _ _ _ _ ht
  | writeFree _ _ _ _ _ _ ht | unlockFree _ _ _ ht =>
    have h1 := (refused_upd hr).2
    rw [ht] at h1
    exact absurd h1 (refused_none rfl)

end Verif.PoolConc
