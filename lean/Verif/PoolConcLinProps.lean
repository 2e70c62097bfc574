import Verif.PoolConcLinLemmas
import Verif.PoolConcInst
/-!
# Concurrent pool operations are atomic (C102)

`Hist c split e s`: `e` lists, oldest first, the calls, effects and returns of all threads up to the state `s` of the
machine of `PoolConc`.  No assumption about page faults is needed (`split` is arbitrary).
-/
namespace Verif.PoolConc
open Verif Verif.Mem Verif.Mempool

variable [Abi]

variable {c : Config} {s : CState} {e : List Event}

/-- Every reachable state has a history. -/
theorem reach_hist (hv : Valid c) {split : Bool} (h : CReach c split s) : ∃ e, Hist c split e s := by
  induction h with
  | create m0 env r m hwf henv h => exact ⟨[], .create m0 env r m hwf henv h⟩
  | step h hs ih =>
    obtain ⟨e, he⟩ := ih
    obtain ⟨L, F, hw⟩ := winv_of_reach hv h
    obtain ⟨t, _, _, ht, _⟩ := hw.stepLin hv hs
    exact ⟨_, .step t he hs ht⟩

/-- The effects, in the order in which they happened, form a history of the atomic allocator, and in each thread each
call has exactly one effect, between its call and its return, and the return reports it. -/
theorem pool_linearizable (hv : Valid c) {split : Bool} (h : Hist c split e s) :
    (∃ L F, Atomic (effects e) L F) ∧
    ∀ t, ∃ md, Calls (actsOf t e) md ∧ (s.th t = .dead ∨ (s.th t).mode = some md) := by
  obtain ⟨L, F, ha, _⟩ := hist_atomic hv h
  exact ⟨⟨L, F, ha⟩, hist_modes h⟩

/-- The free list in memory is that of the atomic allocator, and the items clients can use are among the taken ones. -/
theorem pool_refines_atomic (hv : Valid c) {split : Bool} (h : Hist c split e s) :
    ∃ L F, Atomic (effects e) L F ∧ Chain c s.mem s.pool.head F ∧ ∀ p ∈ s.live, p ∈ L := by
  obtain ⟨L, F, ha, hw⟩ := hist_atomic hv h
  exact ⟨L, F, ha, hw.inv.chain, hw.own⟩

/-- An item is not taken twice without being given back in between. -/
theorem taken_once (hv : Valid c) {split : Bool} (h : Hist c split e s) {e1 e2 e3 : List Event} {t u p : Nat}
    (he : effects e = e1 ++ (t, .took p) :: (e2 ++ (u, .took p) :: e3)) : ∃ v, (v, Act.gave p) ∈ e2 := by
  obtain ⟨L, F, ha, _⟩ := hist_atomic hv h
  rw [he, show e1 ++ (t, Act.took p) :: (e2 ++ (u, Act.took p) :: e3) =
    (e1 ++ (t, Act.took p) :: e2 ++ [(u, Act.took p)]) ++ e3 by simp] at ha
  obtain ⟨L1, F1, h1⟩ := ha.prefix
  refine Classical.byContradiction fun hn => ?_
  generalize hE : e1 ++ (t, Act.took p) :: e2 ++ [(u, Act.took p)] = E at h1
  have hn' : ∀ v, (v, Act.gave p) ∉ e2 := fun v hv => hn ⟨v, hv⟩
  cases h1 with
  | nil => simp at hE
  | reuse h1 =>
    have h2 := List.append_inj' hE rfl
    have hp := h1.stays h2.1.symm hn'
    have h3 := h1.nodup
    cases h2.2
    exact (List.nodup_append.1 h3).2.2 p hp p List.mem_cons_self rfl
  | fresh h1 hf =>
    have h2 := List.append_inj' hE rfl
    cases h2.2
    refine hf t ?_
    rw [← h2.1]
    simp
  | refuse h1 => cases (List.append_inj' hE rfl).2
  | give h1 => cases (List.append_inj' hE rfl).2

/-- The next allocation after a free takes the freed item; in particular it is not refused. -/
theorem last_in_first_out (hv : Valid c) {split : Bool} (h : Hist c split e s) {e1 e2 : List Event} {t u p : Nat} {a : Act}
    (he : effects e = e1 ++ (t, .gave p) :: (u, a) :: e2) : a = .took p ∨ ∃ q, a = .gave q ∧ q ≠ p := by
  obtain ⟨L, F, ha, _⟩ := hist_atomic hv h
  rw [he, show e1 ++ (t, Act.gave p) :: (u, a) :: e2 = (e1 ++ [(t, Act.gave p)] ++ [(u, a)]) ++ e2 by simp] at ha
  obtain ⟨L1, F1, h1⟩ := ha.prefix
  have key : ∀ {L' F' : List Nat}, Atomic (e1 ++ [(t, Act.gave p)]) L' F' → ∃ F0, F' = p :: F0 ∧ p ∉ L' := by
    intro L' F' h'
    have hnd := h'.nodup
    generalize hE : e1 ++ [(t, Act.gave p)] = E at h'
    cases h' with
    | nil => simp at hE
    | reuse => cases (List.append_inj' hE rfl).2
    | fresh => cases (List.append_inj' hE rfl).2
    | refuse => cases (List.append_inj' hE rfl).2
    | give h' hp =>
      cases (List.append_inj' hE rfl).2
      exact ⟨_, rfl, fun hm => (List.nodup_append.1 hnd).2.2 p hm p List.mem_cons_self rfl⟩
  generalize hE : e1 ++ [(t, Act.gave p)] ++ [(u, a)] = E at h1
  cases h1 with
  | nil => simp at hE
  | reuse h1 =>
    have h2 := List.append_inj' hE rfl
    rw [← h2.1] at h1
    obtain ⟨F0, e0, _⟩ := key h1
    cases e0
    cases h2.2
    exact Or.inl rfl
  | fresh h1 =>
    rw [← (List.append_inj' hE rfl).1] at h1
    obtain ⟨F0, e0, _⟩ := key h1
    cases e0
  | refuse h1 =>
    rw [← (List.append_inj' hE rfl).1] at h1
    obtain ⟨F0, e0, _⟩ := key h1
    cases e0
  | @give _ _ _ _ q h1 hq =>
    have h2 := List.append_inj' hE rfl
    rw [← h2.1] at h1
    obtain ⟨F0, _, hp⟩ := key h1
    cases h2.2
    exact Or.inr ⟨q, rfl, fun hh => hp (hh ▸ hq)⟩

/-- Items are reused before new ones are used: however long the pool is used, the different items handed out are no
more than were in use at one time. -/
theorem items_bounded_by_peak (hv : Valid c) {split : Bool} (h : Hist c split e s) {ps : List Nat} (hn : ps.Nodup)
    (hps : ∀ p ∈ ps, ∃ t, (t, Act.took p) ∈ e) : ∃ e', e' <+: e ∧ (ps.length : Int) ≤ outstanding e' := by
  obtain ⟨L, F, ha, _⟩ := hist_atomic hv h
  obtain ⟨e1, h1, h2⟩ := ha.peak
  obtain ⟨e', h3, rfl⟩ := List.prefix_filter_iff.1 h1
  refine ⟨e', h3, ?_⟩
  have h4 : outstanding e' = _ := (outstanding_effects e').symm.trans h2
  rw [h4, ← List.length_append]
  refine Int.ofNat_le.2 (nodup_length_le hn fun p hp => ?_)
  obtain ⟨t, ht⟩ := hps p hp
  exact List.mem_append.2 (ha.taken (List.mem_filter.2 ⟨ht, rfl⟩))

/-- Ranges are added only if needed: all ranges but one were once filled with items in use at the same time. -/
theorem ranges_bounded_by_peak (hv : Valid c) {split : Bool} (h : Hist c split e s) :
    ∃ e', e' <+: e ∧ (((s.pool.ranges.length - 1) * (c.stride / c.itemLen) : Nat) : Int) ≤ outstanding e' := by
  obtain ⟨L, F, ha, hw⟩ := hist_atomic hv h
  obtain ⟨e1, h1, h2⟩ := ha.peak
  obtain ⟨e', h3, rfl⟩ := List.prefix_filter_iff.1 h1
  refine ⟨e', h3, ?_⟩
  have h4 : outstanding e' = _ := (outstanding_effects e').symm.trans h2
  have h5 := full_le hv hw.inv (List.tail_sublist _) hw.inv.full
  rw [List.length_tail] at h5
  rw [h4]
  exact Int.ofNat_le.2 h5

/-- A request is refused only if every item of every range is in use at that moment. -/
theorem refused_only_when_full (hv : Valid c) {split : Bool} (h : Hist c split e s) {lab : Lab} {s' : CState}
    (hs : CStep c split s lab s') {t : Nat}
    (hr : Act.refused ∈ acts (s.th t) (s'.th t)) :
    outstanding e = ((s.pool.ranges.length * (c.stride / c.itemLen) : Nat) : Int) ∧
    ∀ p, Slot c s.pool.ranges p → ∃ u, (u, Act.took p) ∈ e := by
  obtain ⟨L, F, ha, hw⟩ := hist_atomic hv h
  obtain ⟨hF, hN⟩ := hw.refusedAt hv hs hr
  subst hF
  have hle := full_le hv hw.inv (List.Sublist.refl _) hN
  have hI := hv.item_pos
  refine ⟨?_, fun p hp => ?_⟩
  · rw [← outstanding_effects, ha.count]
    congr 1
    refine Nat.le_antisymm ?_ (by simpa using hle)
    rw [← slotsOf_length]
    refine nodup_length_le (List.nodup_append.1 hw.inv.nodup).1 fun p hp => ?_
    obtain ⟨r, hr, k, hk, rfl⟩ := (hw.inv.used p).2 (Or.inl hp)
    refine List.mem_flatMap.2 ⟨r, hr, List.mem_map.2 ⟨k, List.mem_range.2 ?_, rfl⟩⟩
    have hR := hw.inv.ranges.each r hr
    have := Nat.le_trans (lt_item_of_lt hR.nud hk) hR.nu
    rw [Nat.lt_iff_add_one_le, Nat.le_div_iff_mul_le hI, Nat.succ_mul]
    exact this
  · obtain ⟨r, hr, k, hk, rfl⟩ := hp
    obtain ⟨u, hu⟩ := ha.was ((hw.inv.used _).1 ⟨r, hr, k, by rw [hN r hr]; omega, rfl⟩)
    exact ⟨u, (List.mem_filter.1 hu).1⟩

end Verif.PoolConc

/-! ### A concrete history: two threads share a pool of one item -/

namespace Verif.PoolConc
open Verif Verif.Mem Verif.Mempool MProg

attribute [local instance] le64

/-- One item per range, one range. -/
def oneC : Config :=
  { pg := 4096, order := 12, stride := 4096, ncpu := 1, cow := false, robust := false, poison := none
    maxRanges := 1, initSet := false, global := false }

theorem oneC_valid : Valid oneC :=
  ⟨by decide, by decide, ⟨12, by decide⟩, ⟨12, by decide⟩, by decide, by decide, fun h => (by cases h), fun h => by cases h⟩

def oneRange (nu : Nat) : Range :=
  { base := 8192, header := 0, init := none, nextUnused := nu, mmapAddr := 0, mmapLen := 12288, bitmap := none, canary := 0#8 }

def oneMem : Mem := mapRange oneC 8192 raceMem

theorem one_hist0 : Hist oneC true []
    { mem := oneMem, pool := ⟨[oneRange 0], 0, 1⟩, lock := none, th := fun _ => .idle, pend := fun _ => none, live := [] } := by
  refine Hist.create (c := oneC) (split := true) raceMem { base := some 8192 } (oneRange 0) oneMem
    (fun _ _ h => by cases h) ⟨fun b e => ?_, fun _ _ _ h => by cases h⟩ rfl
  cases e
  exact ⟨by decide, by decide, by decide, fun r hr => (by cases hr), fun x hx => hx⟩

/-- Thread 0 takes the item; thread 1 is about to be refused. -/
theorem one_full : ∃ e s, Hist oneC true e s ∧ e = [(0, .callAlloc), (1, .callAlloc), (0, .took 8192), (0, .ret 8192)] ∧
    s.th 0 = .idle ∧ s.pool = ⟨[oneRange 4096], 0, 1⟩ ∧ s.th 1 = .inAlloc .zero (.ret .create) ∧ s.lock = some 1 ∧
    (∀ t, s.pend t = none) ∧ s.live = [8192] := by
  have h1 := Hist.step 0 one_hist0 (CStep.alloc 0 (.plain 8) rfl rfl (by decide)) (fun u hu => upd_ne _ hu _)
  have h2 := Hist.step 1 h1 (CStep.alloc 1 .zero rfl rfl (by decide)) (fun u hu => upd_ne _ hu _)
  have h3 := Hist.step 0 h2 (CStep.lockAlloc 0 (.plain 8) rfl rfl) (fun u hu => upd_ne _ hu _)
  have h4 := Hist.step 0 h3 (CStep.take 0 (.plain 8) (oneRange 4096) 0 8192 ⟨[oneRange 4096], 0, 1⟩ (oneRange 4096) 0 8192
    { pool := ⟨[oneRange 4096], 0, 1⟩, mem := oneMem } rfl rfl) (fun u hu => upd_ne _ hu _)
  have h5 := Hist.step 1 h4 (CStep.lockAlloc 1 .zero rfl rfl) (fun u hu => upd_ne _ hu _)
  have h6 := Hist.step 0 h5 (CStep.returned 0 (.plain 8) 8192 rfl rfl) (fun u hu => upd_ne _ hu _)
  exact ⟨_, _, h6, rfl, rfl, rfl, rfl, rfl, fun _ => rfl, rfl⟩

/-- Thread 1 is refused while the item is in use; later thread 0 gives it back and thread 1 gets it. -/
def oneHist : List Event :=
  [(0, .callAlloc), (1, .callAlloc), (0, .took 8192), (0, .ret 8192), (1, .refused), (1, .retNull), (0, .callFree 8192),
   (0, .gave 8192), (0, .retFree), (1, .callAlloc), (1, .took 8192)]

theorem one_hist : ∃ s, Hist oneC true oneHist s ∧ s.live = [] := by
  have h1 := Hist.step 0 one_hist0 (CStep.alloc 0 (.plain 8) rfl rfl (by decide)) (fun u hu => upd_ne _ hu _)
  have h2 := Hist.step 1 h1 (CStep.alloc 1 (.plain 8) rfl rfl (by decide)) (fun u hu => upd_ne _ hu _)
  have h3 := Hist.step 0 h2 (CStep.lockAlloc 0 (.plain 8) rfl rfl) (fun u hu => upd_ne _ hu _)
  have h4 := Hist.step 0 h3 (CStep.take 0 (.plain 8) (oneRange 4096) 0 8192 ⟨[oneRange 4096], 0, 1⟩ (oneRange 4096) 0 8192
    { pool := ⟨[oneRange 4096], 0, 1⟩, mem := oneMem } rfl rfl) (fun u hu => upd_ne _ hu _)
  have h5 := Hist.step 1 h4 (CStep.lockAlloc 1 (.plain 8) rfl rfl) (fun u hu => upd_ne _ hu _)
  have h6 := Hist.step 0 h5 (CStep.returned 0 (.plain 8) 8192 rfl rfl) (fun u hu => upd_ne _ hu _)
  have h7 := Hist.step 1 h6 (CStep.createNull 1 (.plain 8) { base := none } rfl (ex_env ..) rfl) (fun u hu => upd_ne _ hu _)
  have h8 := Hist.step 0 h7 (CStep.free 0 8192 rfl rfl List.mem_cons_self (fun u d h => by cases h)) (fun u hu => upd_ne _ hu _)
  have h9 := Hist.step 0 h8 (CStep.lockFree 0 8192 (oneRange 4096) (oneRange 4096) rfl rfl rfl rfl rfl) (fun u hu => upd_ne _ hu _)
  have w0 := Hist.step 0 h9 (CStep.writeFree 0 8192 _ _ _ _ rfl rfl (fun _ => rfl)) (fun u hu => upd_ne _ hu _)
  have w1 := Hist.step 0 w0 (CStep.writeFree 0 8192 _ _ _ _ rfl rfl (fun _ => rfl)) (fun u hu => upd_ne _ hu _)
  have w2 := Hist.step 0 w1 (CStep.writeFree 0 8192 _ _ _ _ rfl rfl (fun _ => rfl)) (fun u hu => upd_ne _ hu _)
  have w3 := Hist.step 0 w2 (CStep.writeFree 0 8192 _ _ _ _ rfl rfl (fun _ => rfl)) (fun u hu => upd_ne _ hu _)
  have w4 := Hist.step 0 w3 (CStep.writeFree 0 8192 _ _ _ _ rfl rfl (fun _ => rfl)) (fun u hu => upd_ne _ hu _)
  have w5 := Hist.step 0 w4 (CStep.writeFree 0 8192 _ _ _ _ rfl rfl (fun _ => rfl)) (fun u hu => upd_ne _ hu _)
  have w6 := Hist.step 0 w5 (CStep.writeFree 0 8192 _ _ _ _ rfl rfl (fun _ => rfl)) (fun u hu => upd_ne _ hu _)
  have w7 := Hist.step 0 w6 (CStep.writeFree 0 8192 _ _ _ _ rfl rfl (fun _ => rfl)) (fun u hu => upd_ne _ hu _)
  have g0 := Hist.step 0 w7 (CStep.unlockFree 0 8192 _ rfl rfl) (fun u hu => upd_ne _ hu _)
  have g1 := Hist.step 1 g0 (CStep.alloc 1 (.plain 8) rfl rfl (by decide)) (fun u hu => upd_ne _ hu _)
  have g2 := Hist.step 1 g1 (CStep.lockAlloc 1 (.plain 8) rfl rfl) (fun u hu => upd_ne _ hu _)
  have r0 := Hist.step 1 g2 (CStep.readAlloc 1 (.plain 8) _ _ rfl) (fun u hu => upd_ne _ hu _)
  have r1 := Hist.step 1 r0 (CStep.readAlloc 1 (.plain 8) _ _ rfl) (fun u hu => upd_ne _ hu _)
  have r2 := Hist.step 1 r1 (CStep.readAlloc 1 (.plain 8) _ _ rfl) (fun u hu => upd_ne _ hu _)
  have r3 := Hist.step 1 r2 (CStep.readAlloc 1 (.plain 8) _ _ rfl) (fun u hu => upd_ne _ hu _)
  have r4 := Hist.step 1 r3 (CStep.readAlloc 1 (.plain 8) _ _ rfl) (fun u hu => upd_ne _ hu _)
  have r5 := Hist.step 1 r4 (CStep.readAlloc 1 (.plain 8) _ _ rfl) (fun u hu => upd_ne _ hu _)
  have r6 := Hist.step 1 r5 (CStep.readAlloc 1 (.plain 8) _ _ rfl) (fun u hu => upd_ne _ hu _)
  have r7 := Hist.step 1 r6 (CStep.readAlloc 1 (.plain 8) _ _ rfl) (fun u hu => upd_ne _ hu _)
  have g3 := Hist.step 1 r7 (CStep.take 1 (.plain 8) (oneRange 4096) 0 8192 ⟨[oneRange 4096], 0, 1⟩ (oneRange 4096) 0 8192
    { pool := ⟨[oneRange 4096], 0, 1⟩, mem := _ } rfl rfl) (fun u hu => upd_ne _ hu _)
  exact ⟨_, g3, rfl⟩

/-- `pool_linearizable`, `pool_refines_atomic`. -/
example : (∃ L F, Atomic [(0, .took 8192), (1, .refused), (0, .gave 8192), (1, .took 8192)] L F) ∧
    ∃ md, Calls [.callAlloc, .refused, .retNull, .callAlloc, .took 8192] md := by
  obtain ⟨s, h, _⟩ := one_hist
  obtain ⟨h1, h2⟩ := pool_linearizable oneC_valid h
  obtain ⟨md, h3, _⟩ := h2 1
  exact ⟨h1, md, h3⟩

/-- The atomic allocator does not allow every history: not the same item twice, not a refusal while an item is free. -/
example : (¬ ∃ L F, Atomic [(0, .took 8192), (1, .took 8192)] L F) ∧
    ¬ ∃ L F, Atomic [(0, .took 8192), (0, .gave 8192), (1, .refused)] L F := by
  refine ⟨?_, ?_⟩
  · rintro ⟨L, F, h⟩
    have h1 := h.count
    generalize hE : ([(0, .took 8192), (1, .took 8192)] : List Event) = E at h
    cases h with
    | nil => cases hE
    | @reuse e L F t p h =>
      have h2 := List.append_inj' (s₁ := [(0, Act.took 8192)]) (t₁ := [(1, Act.took 8192)]) hE rfl
      cases h2.2
      have h3 := h.peak
      obtain ⟨e', ⟨e2, he⟩, hc⟩ := h3
      have h4 := h.count
      rw [← h2.1] at h4 he
      have h5 : L.length = 1 := by have : outstanding [(0, Act.took 8192)] = 1 := rfl; omega
      have h6 : outstanding e' ≤ 1 := by
        rcases e' with _ | ⟨x, _ | ⟨y, e'⟩⟩
        · decide
        · cases he; decide
        · cases he
      simp only [List.length_cons] at hc
      omega
    | fresh h hp =>
      have h2 := List.append_inj' (s₁ := [(0, Act.took 8192)]) (t₁ := [(1, Act.took 8192)]) hE rfl
      cases h2.2
      exact hp 0 (by rw [← h2.1]; simp)
    | refuse => cases (List.append_inj' (s₁ := [(0, Act.took 8192)]) (t₁ := [(1, Act.took 8192)]) hE rfl).2
    | give => cases (List.append_inj' (s₁ := [(0, Act.took 8192)]) (t₁ := [(1, Act.took 8192)]) hE rfl).2
  · rintro ⟨L, F, h⟩
    generalize hE : ([(0, .took 8192), (0, .gave 8192), (1, .refused)] : List Event) = E at h
    cases h with
    | nil => cases hE
    | reuse =>
      cases (List.append_inj' (s₁ := [(0, Act.took 8192), (0, .gave 8192)]) (t₁ := [(1, Act.refused)]) hE rfl).2
    | fresh =>
      cases (List.append_inj' (s₁ := [(0, Act.took 8192), (0, .gave 8192)]) (t₁ := [(1, Act.refused)]) hE rfl).2
    | give =>
      cases (List.append_inj' (s₁ := [(0, Act.took 8192), (0, .gave 8192)]) (t₁ := [(1, Act.refused)]) hE rfl).2
    | refuse h =>
      have h2 := List.append_inj' (s₁ := [(0, Act.took 8192), (0, .gave 8192)]) (t₁ := [(1, Act.refused)]) hE rfl
      rcases h.taken (u := 0) (p := 8192) (by rw [← h2.1]; simp) with a | a
      · have h4 := h.count
        rw [← h2.1] at h4
        have : outstanding [(0, Act.took 8192), (0, .gave 8192)] = 0 := rfl
        have := List.length_pos_of_mem a
        omega
      · cases a

/-- `taken_once`. -/
example : ∃ v, (v, Act.gave 8192) ∈ ([(1, .refused), (0, .gave 8192)] : List Event) := by
  obtain ⟨s, h, _⟩ := one_hist
  exact taken_once oneC_valid h (e1 := []) (t := 0) (u := 1) (e3 := []) rfl

/-- `last_in_first_out`. -/
example : Act.took 8192 = .took 8192 ∨ ∃ q, Act.took 8192 = .gave q ∧ q ≠ 8192 := by
  obtain ⟨s, h, _⟩ := one_hist
  exact last_in_first_out oneC_valid h (e1 := [(0, .took 8192), (1, .refused)]) (t := 0) (u := 1) (e2 := []) rfl

/-- `items_bounded_by_peak`, `ranges_bounded_by_peak`. -/
example : (∃ e', e' <+: oneHist ∧ (([8192] : List Nat).length : Int) ≤ outstanding e') ∧ ∃ s : CState,
    ∃ e', e' <+: oneHist ∧ (((s.pool.ranges.length - 1) * (oneC.stride / oneC.itemLen) : Nat) : Int) ≤ outstanding e' := by
  obtain ⟨s, h, _⟩ := one_hist
  exact ⟨items_bounded_by_peak oneC_valid h (by simp) fun p hp => ⟨0, by rw [List.mem_singleton.1 hp]; simp [oneHist]⟩,
    s, ranges_bounded_by_peak oneC_valid h⟩

/-- `refused_only_when_full`. -/
example : outstanding [(0, .callAlloc), (1, .callAlloc), (0, .took 8192), (0, .ret 8192)] = (1 * (4096 / 4096) : Nat) := by
  obtain ⟨e, s, h, rfl, _, hpool, h1, _⟩ := one_full
  have hs := CStep.createNull (c := oneC) (split := true) (s := s) 1 .zero { base := none } h1 (ex_env ..) (by rw [hpool]; rfl)
  have := (refused_only_when_full oneC_valid h hs (t := 1) (by rw [h1]; exact List.mem_cons_self)).1
  rw [hpool] at this
  exact this

end Verif.PoolConc
