import Verif.CowTestProps
/-
C92: the cow-race test can always be brought to its end.
-/
namespace Verif.CowTest
open Verif Verif.Mem Verif.Mempool Verif.PoolConc MProg

section
variable [Abi]

variable {c : Config} {split : Bool} {f : Nat → Byte} {len : Nat} {v : Byte}

inductive PSteps (c : Config) (split : Bool) (f : Nat → Byte) (len : Nat) (v : Byte) : Prog → Prog → Prop
  | nil (p : Prog) : PSteps c split f len v p p
  | cons {p p1 p2 : Prog} (h : PStep c split f len v p p1) (hs : PSteps c split f len v p1 p2) : PSteps c split f len v p p2

/-- Some execution from here brings both threads to their end, or the test gives up for lack of memory. -/
def Ends (c : Config) (split : Bool) (f : Nat → Byte) (len : Nat) (v : Byte) (p : Prog) : Prop :=
  ∃ p', PSteps c split f len v p p' ∧ ((p'.ip = .done ∧ p'.wp = .done) ∨ p'.ip = .noMem)

theorem Ends.back {p p1 : Prog} (h : PStep c split f len v p p1) (he : Ends c split f len v p1) : Ends c split f len v p := by
  obtain ⟨p', h1, h2⟩ := he
  exact ⟨p', .cons h h1, h2⟩

theorem check_le {p : Prog} (h : PReach c split f len v p) : ∀ i, p.ip = .check i → i ≤ len := by
  induction h with
  | init => intro i e; cases e
  | step _ hs ih =>
    intro i e
    cases hs with
    | ret2 => cases e; exact Nat.zero_le _
    | checkOk hi hc hlt _ => cases e; exact hlt
    | stop => exact ih i e
    | begin => exact ih i e
    | exit => exact ih i e
    | stay => exact ih i e
    | store => exact ih i e
    | snap => exact ih i e
    | badStore => exact ih i e
    | reset => exact ih i e
    | inside => exact ih i e
    | _ => cases e

/-- The init thread, inside a pool operation, proceeds to the end of the operation. -/
theorem op_ends (hv : Valid c) (hsafe : FaultSafe c split) (hlen : len ≤ c.itemLen) (X : IPc)
    (hret : ∀ (p : Prog) (s s' : CState) (fill : Fill) (q : Nat), PReach c split f len v p → p.stopInit = true → p.ip = X →
      p.cs = some s → CStep c split s (.returned 0 fill q) s' → Ends c split f len v p)
    (hidle : ∀ (p : Prog) (s : CState), PReach c split f len v p → p.stopInit = true → p.ip = X → p.cs = some s → s.th 0 = .idle →
      Ends c split f len v p) :
    ∀ (n : Nat) (p : Prog) (s : CState), PReach c split f len v p → p.stopInit = true → p.ip = X → p.cs = some s →
      Left c s.mem (s.pend 0) n (s.th 0) → Ends c split f len v p := by
  intro n
  induction n with
  | zero =>
    intro p s hp hst hi hc hl
    have hinv := pinv_of_reach hv hlen hp
    have h := hinv.reach s hc
    by_cases hop : InOp (s.th 0)
    · exfalso
      have hr : Ready s 0 := by
        cases e : s.lock with
        | none => exact Or.inl e
        | some u =>
          by_cases hu : u = 0
          · exact Or.inr (Or.inl (by rw [e, hu]))
          · rcases (conc_lock hv hsafe h u).2 e with ⟨_, _, e'⟩ | ⟨_, _, _, e'⟩ <;> rw [hinv.others s hc u hu] at e' <;> cases e'
      obtain ⟨s', ⟨lab, hs⟩, h1, h2, _, _⟩ := solo_step hv hsafe h hop hr
      obtain ⟨L, F, hW⟩ := winv_of_reach hv h
      rcases hl.step hv hW hs hop with ⟨e1, e2, _⟩ | ⟨e, _⟩
      · rcases h1 with h1 | h1
        · exact absurd e1 h1
        · exact absurd e2 h1
      · omega
    · exact hidle p s hp hst hi hc (Classical.byContradiction fun e => hop ⟨e, conc_no_abort hv hsafe h 0⟩)
  | succ n ih =>
    intro p s hp hst hi hc hl
    have hinv := pinv_of_reach hv hlen hp
    have h := hinv.reach s hc
    by_cases hop : InOp (s.th 0)
    · have hr : Ready s 0 := by
        cases e : s.lock with
        | none => exact Or.inl e
        | some u =>
          by_cases hu : u = 0
          · exact Or.inr (Or.inl (by rw [e, hu]))
          · rcases (conc_lock hv hsafe h u).2 e with ⟨_, _, e'⟩ | ⟨_, _, _, e'⟩ <;> rw [hinv.others s hc u hu] at e' <;> cases e'
      obtain ⟨s1, ⟨lab, hs⟩, h1, h2, _, _⟩ := solo_step hv hsafe h hop hr
      obtain ⟨L, F, hW⟩ := winv_of_reach hv h
      have hl1 : Left c s1.mem (s1.pend 0) n (s1.th 0) := by
        rcases hl.step hv hW hs hop with ⟨e1, e2, _⟩ | ⟨_, e⟩
        · rcases h1 with h1 | h1
          · exact absurd e1 h1
          · exact absurd e2 h1
        · exact e
      cases lab with
      | tau =>
        have hq : Quiet s s1 := by
          intro u hu
          have hne : u ≠ 0 := fun e => hop.1 (e ▸ hu)
          obtain ⟨a, b⟩ := h2 u hne
          exact ⟨a.trans hu, fun e => b.trans e⟩
        have hstep : PStep c split f len v p { p with cs := some s1 } := PStep.inside hc hs hq
        exact Ends.back hstep (ih _ s1 (PReach.step hp hstep) hst hi rfl hl1)
      | returned u fill q =>
        have hu : u = 0 := by
          refine Classical.byContradiction fun hu => ?_
          have := hinv.others s hc u hu
          cases hs with
          | returned _ _ _ ht _ => rw [ht] at this; cases this
        subst hu
        exact hret p s s1 fill q hp hst hi hc hs
      | freeCall u q =>
        exfalso
        cases hs with
        | free _ _ ht _ _ _ =>
          have hne : u ≠ 0 := fun e => hop.1 (e ▸ ht)
          have := (h2 u hne).1
          have this : upd s.th u (.wantFree q) u = s.th u := this
          rw [upd_self, ht] at this
          cases this
      | stored u q i o b =>
        exfalso
        cases hs with
        | store =>
          rcases h1 with h1 | h1
          · exact h1 rfl
          · exact h1 rfl
    · exact hidle p s hp hst hi hc (Classical.byContradiction fun e => hop ⟨e, conc_no_abort hv hsafe h 0⟩)

section
variable (hv : Valid c) (hsafe : FaultSafe c split) (hlen : len ≤ c.itemLen)
include hv hsafe hlen

/-- An operation of the init thread ends (`op_ends` with the bound of C91). -/
theorem op_ends' (X : IPc)
    (hret : ∀ (p : Prog) (s s' : CState) (fill : Fill) (q : Nat), PReach c split f len v p → p.stopInit = true → p.ip = X →
      p.cs = some s → CStep c split s (.returned 0 fill q) s' → Ends c split f len v p)
    (hidle : ∀ (p : Prog) (s : CState), PReach c split f len v p → p.stopInit = true → p.ip = X → p.cs = some s → s.th 0 = .idle →
      Ends c split f len v p)
    {p : Prog} {s : CState} (hp : PReach c split f len v p) (hst : p.stopInit = true) (hi : p.ip = X) (hc : p.cs = some s) :
    Ends c split f len v p :=
  op_ends hv hsafe hlen X hret hidle _ p s hp hst hi hc (reach_left hv ((pinv_of_reach hv hlen hp).reach s hc) 0)

theorem end_done {p : Prog} (hp : PReach c split f len v p) (hi : p.ip = .done) : Ends c split f len v p := by
  have hl := (pinv_of_reach hv hlen hp).loc
  unfold At at hl
  rw [hi] at hl
  obtain ⟨_, h1, h2, h3⟩ := hl
  have test : ∀ {q : Prog}, q.ip = .done → q.wp = .test → q.stopWriter = true → Ends c split f len v q := fun {q} a b d =>
    Ends.back (PStep.exit b d) ⟨_, .nil _, Or.inl ⟨a, rfl⟩⟩
  rcases h3 with e | e | e
  · exact Ends.back (PStep.begin e h1) (test hi rfl h2)
  · exact test hi e h2
  · exact ⟨p, .nil p, Or.inl ⟨hi, e⟩⟩

theorem end_stopPhase {p : Prog} (hp : PReach c split f len v p) (hi : p.ip = .stopPhase) : Ends c split f len v p :=
  have hs : PStep c split f len v p _ := PStep.stopPhase hi
  Ends.back hs (end_done hv hsafe hlen (PReach.step hp hs) rfl)

theorem end_stopWriter {p : Prog} (hp : PReach c split f len v p) (hi : p.ip = .stopWriter) : Ends c split f len v p :=
  have hs : PStep c split f len v p _ := PStep.stopWriter hi
  Ends.back hs (end_stopPhase hv hsafe hlen (PReach.step hp hs) rfl)

theorem end_head {p : Prog} (hp : PReach c split f len v p) (hi : p.ip = .head) (hst : p.stopInit = true) : Ends c split f len v p :=
  have hs : PStep c split f len v p _ := PStep.leave hi hst
  Ends.back hs (end_stopWriter hv hsafe hlen (PReach.step hp hs) rfl)

theorem end_destroy {p : Prog} (hp : PReach c split f len v p) (hi : p.ip = .destroy) (hst : p.stopInit = true) :
    Ends c split f len v p := by
  have hl := (pinv_of_reach hv hlen hp).loc
  unfold At at hl
  rw [hi] at hl
  obtain ⟨_, s, hc, _⟩ := hl
  by_cases hm : s.live = [] ∧ (∀ t, s.th t = .idle) ∧ ∀ t, s.pend t = none
  · have hs : PStep c split f len v p _ := PStep.destroy hi hc hm
    exact Ends.back hs (end_head hv hsafe hlen (PReach.step hp hs) rfl hst)
  · exact absurd rfl (cow_test_legal hv hlen (PReach.step hp (PStep.badDestroy hi hc hm))).1

theorem end_free1 {p : Prog} (hp : PReach c split f len v p) (hi : p.ip = .free1) (hst : p.stopInit = true) :
    Ends c split f len v p := by
  have hl := (pinv_of_reach hv hlen hp).loc
  unfold At at hl
  rw [hi] at hl
  obtain ⟨_, s, hc, _⟩ := hl
  refine op_ends' hv hsafe hlen .free1 (fun p s s' fill q hp _ hi hc hs => ?_) (fun p s hp hst hi hc ht => ?_) hp hst hi hc
  · have hl := (pinv_of_reach hv hlen hp).loc
    unfold At at hl
    rw [hi] at hl
    obtain ⟨_, s1, hc1, _, h1⟩ := hl
    cases hc.symm.trans hc1
    cases hs with
    | returned _ _ _ ht _ => rw [ht] at h1; exact h1.elim
  · have hs : PStep c split f len v p _ := PStep.freed1 hi hc ht
    exact Ends.back hs (end_destroy hv hsafe hlen (PReach.step hp hs) rfl hst)

theorem end_callFree1 {p : Prog} (hp : PReach c split f len v p) (hi : p.ip = .callFree1) (hst : p.stopInit = true) :
    Ends c split f len v p := by
  have hinv := pinv_of_reach hv hlen hp
  have hl := hinv.loc
  unfold At at hl
  rw [hi] at hl
  obtain ⟨_, s, hc, h1⟩ := hl
  by_cases hm : MayFree s p.ptr1
  · have hs : PStep c split f len v p _ := PStep.callFree1 hi hc hm (CStep.free 0 p.ptr1 h1.1 (hinv.pend0 s hc h1.1) hm.1 hm.2)
    exact Ends.back hs (end_free1 hv hsafe hlen (PReach.step hp hs) rfl hst)
  · exact absurd rfl (cow_test_legal hv hlen (PReach.step hp (PStep.badFree1 hi hc hm))).1

theorem end_free2 {p : Prog} (hp : PReach c split f len v p) (hi : p.ip = .free2) (hst : p.stopInit = true) :
    Ends c split f len v p := by
  have hl := (pinv_of_reach hv hlen hp).loc
  unfold At at hl
  rw [hi] at hl
  obtain ⟨_, s, hc, _⟩ := hl
  refine op_ends' hv hsafe hlen .free2 (fun p s s' fill q hp _ hi hc hs => ?_) (fun p s hp hst hi hc ht => ?_) hp hst hi hc
  · have hl := (pinv_of_reach hv hlen hp).loc
    unfold At at hl
    rw [hi] at hl
    obtain ⟨_, s1, hc1, _, h1⟩ := hl
    cases hc.symm.trans hc1
    cases hs with
    | returned _ _ _ ht _ => rw [ht] at h1; exact h1.elim
  · have hs : PStep c split f len v p _ := PStep.freed2 hi hc ht
    exact Ends.back hs (end_callFree1 hv hsafe hlen (PReach.step hp hs) rfl hst)

theorem end_callFree2 {p : Prog} (hp : PReach c split f len v p) (hi : p.ip = .callFree2) (hst : p.stopInit = true) :
    Ends c split f len v p := by
  have hinv := pinv_of_reach hv hlen hp
  have hl := hinv.loc
  unfold At at hl
  rw [hi] at hl
  obtain ⟨_, s, hc, h1⟩ := hl
  by_cases hm : MayFree s p.ptr2
  · have hs : PStep c split f len v p _ := PStep.callFree2 hi hc hm (CStep.free 0 p.ptr2 h1.1 (hinv.pend0 s hc h1.1) hm.1 hm.2)
    exact Ends.back hs (end_free2 hv hsafe hlen (PReach.step hp hs) rfl hst)
  · exact absurd rfl (cow_test_legal hv hlen (PReach.step hp (PStep.badFree2 hi hc hm))).1

theorem end_wait_phase {p : Prog} (hp : PReach c split f len v p) (hi : p.ip = .wait) (hst : p.stopInit = true)
    (hph : p.phase = false) : Ends c split f len v p :=
  have hs : PStep c split f len v p _ := PStep.waited hi hph
  Ends.back hs (end_callFree2 hv hsafe hlen (PReach.step hp hs) rfl hst)

theorem end_wait_reset {p : Prog} (hp : PReach c split f len v p) (hi : p.ip = .wait) (hst : p.stopInit = true)
    (hw : p.wp = .reset) : Ends c split f len v p :=
  have hs : PStep c split f len v p _ := PStep.reset hw
  Ends.back hs (end_wait_phase hv hsafe hlen (PReach.step hp hs) hi hst rfl)

theorem end_wait_private {p : Prog} {s : CState} (hp : PReach c split f len v p) (hi : p.ip = .wait) (hst : p.stopInit = true)
    (hw : p.wp = .store) (hc : p.cs = some s) (hn : s.pend 1 = none)
    (hx : CanStore c split s.mem (cpuAddr c p.ptr1 0 + 0)) : Ends c split f len v p := by
  have hinv := pinv_of_reach hv hlen hp
  obtain ⟨s', hc', hl⟩ := hinv.loc.store hw
  cases hc.symm.trans hc'
  have hpos : 0 < c.itemLen := Nat.lt_of_lt_of_le wb_pos hv.item_ge
  have hs : PStep c split f len v p _ := PStep.store hw hc ⟨hl, hv.ncpu_pos, hpos⟩
    (CStep.store 1 p.ptr1 0 0 v (hinv.others s hc 1 (by decide)) hn hl hv.ncpu_pos hpos hx)
  exact Ends.back hs (end_wait_reset hv hsafe hlen (PReach.step hp hs) hi hst rfl)

theorem end_wait_store {p : Prog} {s : CState} (hp : PReach c split f len v p) (hi : p.ip = .wait) (hst : p.stopInit = true)
    (hw : p.wp = .store) (hc : p.cs = some s) (hn : s.pend 1 = none) : Ends c split f len v p := by
  by_cases hx : CanStore c split s.mem (cpuAddr c p.ptr1 0 + 0)
  · exact end_wait_private hv hsafe hlen hp hi hst hw hc hn hx
  · have hinv := pinv_of_reach hv hlen hp
    obtain ⟨s', hc', hl⟩ := hinv.loc.store hw
    cases hc.symm.trans hc'
    have hpos : 0 < c.itemLen := Nat.lt_of_lt_of_le wb_pos hv.item_ge
    have hsp : split = true := Classical.byContradiction fun e => hx fun e' => absurd e' e
    cases hq : s.mem.src ((cpuAddr c p.ptr1 0 + 0) / c.pg) with
    | none => exact absurd (fun _ => hq) hx
    | some q =>
      have hs : PStep c split f len v p _ := PStep.snap hw hc ⟨hl, hv.ncpu_pos, hpos⟩ (hinv.others s hc 1 (by decide)) hn hsp hq
      refine Ends.back hs ?_
      have hp1 := PReach.step hp hs
      have hs2 := PStep.inside (c := c) (split := split) (f := f) (len := len) (v := v) (p := { p with cs := some { s with
        pend := upd s.pend 1 (some ⟨p.ptr1, cpuAddr c p.ptr1 0 + 0, snapOf c.pg s.mem (cpuAddr c p.ptr1 0 + 0)⟩) } })
        rfl (CStep.install 1 _ (upd_self s.pend 1 _)) (quiet_install _)
      refine Ends.back hs2 ?_
      exact end_wait_private hv hsafe hlen (PReach.step hp1 hs2) hi hst hw rfl (by dsimp only; exact upd_self _ 1 _) fun _ => install_private

theorem end_wait {p : Prog} (hp : PReach c split f len v p) (hi : p.ip = .wait) (hst : p.stopInit = true) :
    Ends c split f len v p := by
  have at' : ∀ {q : Prog}, PReach c split f len v q → q.ip = .wait → q.stopInit = true → q.wp = .store → Ends c split f len v q := by
    intro q hp hi hst hw
    have hinv := pinv_of_reach hv hlen hp
    obtain ⟨s, hc, hl⟩ := hinv.loc.store hw
    cases hn : s.pend 1 with
    | none => exact end_wait_store hv hsafe hlen hp hi hst hw hc hn
    | some d =>
      have hs : PStep c split f len v q _ := PStep.inside hc (CStep.install 1 d hn) (quiet_install _)
      exact Ends.back hs (end_wait_store hv hsafe hlen (PReach.step hp hs) hi hst hw rfl (upd_self s.pend 1 _))
  have test : ∀ {q : Prog}, PReach c split f len v q → q.ip = .wait → q.stopInit = true → q.wp = .test → q.stopWriter = false →
      Ends c split f len v q := by
    intro q hp hi hst hw hsw
    have hs : PStep c split f len v q _ := PStep.stay hw hsw
    exact Ends.back hs (at' (PReach.step hp hs) hi hst rfl)
  have hl := (pinv_of_reach hv hlen hp).loc
  unfold At at hl
  rw [hi] at hl
  obtain ⟨⟨h1, h2⟩, _⟩ := hl
  by_cases hph : p.phase = false
  · exact end_wait_phase hv hsafe hlen hp hi hst hph
  · rcases h2 with e | ⟨_, e | e | e⟩
    · have hs : PStep c split f len v p _ := PStep.begin e (by simpa using hph)
      exact Ends.back hs (test (PReach.step hp hs) hi hst rfl h1)
    · exact test hp hi hst e h1
    · exact at' hp hi hst e
    · exact end_wait_reset hv hsafe hlen hp hi hst e

theorem end_check : ∀ (n : Nat) {p : Prog} {i : Nat}, PReach c split f len v p → p.ip = .check i → p.stopInit = true → len - i = n →
    Ends c split f len v p := by
  intro n
  induction n with
  | zero =>
    intro p i hp hi hst hn
    have := check_le hp i hi
    have e : i = len := by omega
    subst e
    have hs : PStep c split f i v p _ := PStep.checked hi
    exact Ends.back hs (end_wait hv hsafe hlen (PReach.step hp hs) rfl hst)
  | succ n ih =>
    intro p i hp hi hst hn
    obtain ⟨s, hc, _, hsh⟩ := cow_test_shown_partial hv hsafe hlen hp (Or.inr ⟨i, hi⟩)
    have hs : PStep c split f len v p _ := PStep.checkOk hi hc (by omega) (hsh i (by omega))
    exact Ends.back hs (ih (PReach.step hp hs) rfl hst (by omega))

theorem end_malloc2 {p : Prog} (hp : PReach c split f len v p) (hi : p.ip = .malloc2) (hst : p.stopInit = true) :
    Ends c split f len v p := by
  have hl := (pinv_of_reach hv hlen hp).loc
  unfold At at hl
  rw [hi] at hl
  obtain ⟨_, s, hc, _⟩ := hl
  refine op_ends' hv hsafe hlen .malloc2 (fun p s s' fill q hp hst hi hc hs => ?_) (fun p s hp hst hi hc ht => ?_) hp hst hi hc
  · have hl := (pinv_of_reach hv hlen hp).loc
    unfold At at hl
    rw [hi] at hl
    obtain ⟨_, s1, hc1, _, h1⟩ := hl
    cases hc.symm.trans hc1
    have e : fill = .init f len := by
      cases hs with
      | returned _ _ _ ht _ => rw [ht] at h1; exact h1
    subst e
    have hs' : PStep c split f len v p _ := PStep.ret2 hi hc hs
    exact Ends.back hs' (end_check hv hsafe hlen _ (PReach.step hp hs') rfl hst rfl)
  · exact Ends.back (PStep.null2 hi hc ht) ⟨_, .nil _, Or.inr rfl⟩

theorem end_call2 {p : Prog} (hp : PReach c split f len v p) (hi : p.ip = .call2) (hst : p.stopInit = true) :
    Ends c split f len v p := by
  have hl := (pinv_of_reach hv hlen hp).loc
  unfold At at hl
  rw [hi] at hl
  obtain ⟨_, s, hc, _⟩ := hl
  have hs : PStep c split f len v p _ := PStep.call2 hi hc
  exact Ends.back hs (end_malloc2 hv hsafe hlen (PReach.step hp hs) rfl hst)

theorem end_publish {p : Prog} (hp : PReach c split f len v p) (hi : p.ip = .publish) (hst : p.stopInit = true) :
    Ends c split f len v p :=
  have hs : PStep c split f len v p _ := PStep.publish hi
  Ends.back hs (end_call2 hv hsafe hlen (PReach.step hp hs) rfl hst)

theorem end_malloc1 {p : Prog} (hp : PReach c split f len v p) (hi : p.ip = .malloc1) (hst : p.stopInit = true) :
    Ends c split f len v p := by
  have hl := (pinv_of_reach hv hlen hp).loc
  unfold At at hl
  rw [hi] at hl
  obtain ⟨_, s, hc, _⟩ := hl
  refine op_ends' hv hsafe hlen .malloc1 (fun p s s' fill q hp hst hi hc hs => ?_) (fun p s hp hst hi hc ht => ?_) hp hst hi hc
  · have hl := (pinv_of_reach hv hlen hp).loc
    unfold At at hl
    rw [hi] at hl
    obtain ⟨_, s1, hc1, _, h1⟩ := hl
    cases hc.symm.trans hc1
    have e : fill = .plain 0 := by
      cases hs with
      | returned _ _ _ ht _ => rw [ht] at h1; exact h1
    subst e
    have hs' : PStep c split f len v p _ := PStep.ret1 hi hc hs
    exact Ends.back hs' (end_publish hv hsafe hlen (PReach.step hp hs') rfl hst)
  · exact Ends.back (PStep.null1 hi hc ht) ⟨_, .nil _, Or.inr rfl⟩

theorem end_call1 {p : Prog} (hp : PReach c split f len v p) (hi : p.ip = .call1) (hst : p.stopInit = true) :
    Ends c split f len v p := by
  have hl := (pinv_of_reach hv hlen hp).loc
  unfold At at hl
  rw [hi] at hl
  obtain ⟨_, s, hc, _⟩ := hl
  have hs : PStep c split f len v p _ := PStep.call1 hi hc
  exact Ends.back hs (end_malloc1 hv hsafe hlen (PReach.step hp hs) rfl hst)

/-- C92, partial (as `cow_test_passes_partial`): the two threads cannot block each other.  From every state of every
execution some continuation brings both threads to their end, unless an allocation fails. -/
theorem cow_test_can_end_partial {p : Prog} (h : PReach c split f len v p) :
    ∃ p', PSteps c split f len v p p' ∧ ((p'.ip = .done ∧ p'.wp = .done) ∨ p'.ip = .noMem) := by
  have hs : PStep c split f len v p _ := PStep.stop
  refine Ends.back hs ?_
  suffices key : ∀ {p : Prog}, PReach c split f len v p → p.stopInit = true → Ends c split f len v p from key (PReach.step h hs) rfl
  intro p hp hst
  cases hi : p.ip with
  | head => exact end_head hv hsafe hlen hp hi hst
  | call1 => exact end_call1 hv hsafe hlen hp hi hst
  | malloc1 => exact end_malloc1 hv hsafe hlen hp hi hst
  | publish => exact end_publish hv hsafe hlen hp hi hst
  | call2 => exact end_call2 hv hsafe hlen hp hi hst
  | malloc2 => exact end_malloc2 hv hsafe hlen hp hi hst
  | check i => exact end_check hv hsafe hlen _ hp hi hst rfl
  | wait => exact end_wait hv hsafe hlen hp hi hst
  | callFree2 => exact end_callFree2 hv hsafe hlen hp hi hst
  | free2 => exact end_free2 hv hsafe hlen hp hi hst
  | callFree1 => exact end_callFree1 hv hsafe hlen hp hi hst
  | free1 => exact end_free1 hv hsafe hlen hp hi hst
  | destroy => exact end_destroy hv hsafe hlen hp hi hst
  | stopWriter => exact end_stopWriter hv hsafe hlen hp hi
  | stopPhase => exact end_stopPhase hv hsafe hlen hp hi
  | done => exact end_done hv hsafe hlen hp hi
  | noMem => exact ⟨_, .nil _, Or.inr hi⟩
  | unexpected => exact absurd hi (cow_test_passes_partial hv hsafe hlen hp).1
  | misuse => exact absurd hi (cow_test_legal hv hlen hp).1

end

end

attribute [local instance] le64

/-- The hypotheses hold in the configuration of the test, in the middle of an iteration. -/
example : ∃ p', PSteps testC false testF 256 0x33#8
    { cs := some (testS testMem 512 tb2 none (.filling testInit 131328 (fillP testC (testRange 512 tb2) 256 testInit)) none [131072])
      phase := true, stopInit := false, stopWriter := false, ptr1 := 131072, ptr2 := 0, ip := .malloc2, wp := .wait } p' ∧
    ((p'.ip = .done ∧ p'.wp = .done) ∨ p'.ip = .noMem) :=
  cow_test_can_end_partial testC_valid (Or.inl rfl) (by decide) (test_filling false)

end Verif.CowTest
