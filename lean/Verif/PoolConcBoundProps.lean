import Verif.PoolConcBound
/-
C91: operations on a pool used by any number of threads end.

`opBound` is written in terms of the item length, the number of CPUs and the word size; a thread never
takes more than that many steps of its own between the call and the return of one operation, whatever
the other threads do and whatever values it loads (`conc_op_bounded`).  The only wait is for the lock
(`conc_can_step`), and from every reachable state every operation can be completed by running at most
two threads (`conc_finishes`): there is no deadlock.
-/
namespace Verif.PoolConc
open Verif Verif.Mem Verif.Mempool MProg

variable [Abi]

variable {c : Config} {split : Bool} {s s' : CState}

/-- The bound on the number of steps of an operation: lock, one word of the free list and the poison of
every copy (allocation), decision, three accesses per byte stored (page fault included) and one per byte
compared, return. -/
def opBound (c : Config) : Nat := (5 * c.ncpu + 4) * c.itemLen + 3 * wb + 3

/-- An execution during which thread `t` is inside one operation, with the number of steps of `t`: those
which change what `t` is doing or its page fault. -/
inductive OwnSteps (c : Config) (split : Bool) (t : Nat) : CState → Nat → CState → Prop
  | nil (s : CState) : OwnSteps c split t s 0 s
  | own {s s1 s2 : CState} {lab : Lab} {n : Nat} (hop : InOp (s.th t)) (h : CStep c split s lab s1)
      (hc : s1.th t ≠ s.th t ∨ s1.pend t ≠ s.pend t) (hr : OwnSteps c split t s1 n s2) : OwnSteps c split t s (n + 1) s2
  | other {s s1 s2 : CState} {lab : Lab} {n : Nat} (hop : InOp (s.th t)) (h : CStep c split s lab s1)
      (h1 : s1.th t = s.th t) (h2 : s1.pend t = s.pend t) (hr : OwnSteps c split t s1 n s2) : OwnSteps c split t s n s2

theorem bound_alloc (c : Config) : wb + (c.ncpu + 1) * c.itemLen + fillMax c + 3 ≤ opBound c := by
  unfold fillMax opBound
  rw [Nat.add_assoc wb, ← Nat.add_mul, show c.ncpu + 1 + (3 + 4 * c.ncpu) = 5 * c.ncpu + 4 by omega]
  omega

theorem bound_free (c : Config) : fillMax c + 3 * wb + 2 ≤ opBound c := by
  have : fillMax c ≤ (5 * c.ncpu + 4) * c.itemLen := Nat.mul_le_mul_right _ (by omega)
  unfold opBound
  omega

theorem reach_left (hv : Valid c) (h : CReach c split s) (t : Nat) : Left c s.mem (s.pend t) (opBound c) (s.th t) := by
  induction h with
  | create => trivial
  | @step s s' l h hs ih =>
    obtain ⟨L, F, hW⟩ := winv_of_reach hv h
    have mono : ∀ n m st pd, Left c m pd (n - 1) st → Left c m pd n st := by
      intro n m st pd hl
      cases st with
      | idle => trivial
      | dead => trivial
      | wantAlloc => exact ⟨hl.1, hl.2.1, by have := hl.2.2; omega⟩
      | inAlloc => obtain ⟨h1, h2, a, h3, h4⟩ := hl; exact ⟨h1, h2, a, h3, by omega⟩
      | filling => obtain ⟨h1, a, h3, h4⟩ := hl; exact ⟨h1, a, h3, by omega⟩
      | wantFree => exact ⟨hl.1, by have := hl.2; omega⟩
      | inFree => obtain ⟨h1, a, h3, h4⟩ := hl; exact ⟨h1, a, h3, by omega⟩
    by_cases hop : InOp (s.th t)
    · rcases ih.step hv hW hs hop with h1 | h1
      · exact h1.2.2
      · exact mono _ _ _ _ h1.2
    · have hid : s.th t = .idle ∨ s.th t = .dead := by
        unfold InOp at hop
        by_cases e : s.th t = .idle
        · exact Or.inl e
        · exact Or.inr (Classical.byContradiction fun e' => hop ⟨e, e'⟩)
      have keep : ∀ (u : Nat) (st : TSt) (m : Mem) (pd : Option Pend), (t = u → Left c m pd (opBound c) st) →
          Left c m pd (opBound c) (upd s.th u st t) := by
        intro u st m pd hst
        by_cases e : t = u
        · subst e; rw [upd_self]; exact hst rfl
        · rw [upd_ne _ e]; rcases hid with e | e <;> rw [e] <;> trivial
      have stay : ∀ (m : Mem) (pd : Option Pend), Left c m pd (opBound c) (s.th t) := by
        intro m pd; rcases hid with e | e <;> rw [e] <;> trivial
      have no : ∀ (u : Nat) (st : TSt) {P : Prop}, s.th u = st → InOp st → t = u → P := by
        intro u st P e1 e2 e3
        subst e3
        exact absurd (e1 ▸ e2) hop
      cases hs with
      | alloc u fill hu hp hl => exact keep _ _ _ _ fun e => ⟨hl, e ▸ hp, bound_alloc c⟩
      | free u p hu hp hl hn => exact keep _ _ _ _ fun e => ⟨e ▸ hp, bound_free c⟩
      | lockAlloc u fill hu hl => exact keep _ _ _ _ (no u _ hu ⟨by simp, by simp⟩)
      | readAlloc u fill x k hu => exact keep _ _ _ _ (no u _ hu ⟨by simp, by simp⟩)
      | take u fill r off addr pool' r' off' p s1 hu ht => exact keep _ _ _ _ (no u _ hu ⟨by simp, by simp⟩)
      | create u fill env r m r' off' p s1 hu => exact keep _ _ _ _ (no u _ hu ⟨by simp, by simp⟩)
      | readFill u fill p x k hu => exact keep _ _ _ _ (no u _ hu ⟨by simp, by simp⟩)
      | writeFill u fill p x b k hu => exact keep _ _ _ _ (no u _ hu ⟨by simp, by simp⟩)
      | lockFree u p r r' hu => exact keep _ _ _ _ (no u _ hu ⟨by simp, by simp⟩)
      | readFree u p pool' x k hu => exact keep _ _ _ _ (no u _ hu ⟨by simp, by simp⟩)
      | writeFree u p pool' x b k hu => exact keep _ _ _ _ (no u _ hu ⟨by simp, by simp⟩)
      | takeAbort => exact keep _ _ _ _ fun _ => trivial
      | createAbort => exact keep _ _ _ _ fun _ => trivial
      | createNull => exact keep _ _ _ _ fun _ => trivial
      | allocAbort => exact keep _ _ _ _ fun _ => trivial
      | returned => exact keep _ _ _ _ fun _ => trivial
      | freeAbort => exact keep _ _ _ _ fun _ => trivial
      | unlockFree => exact keep _ _ _ _ fun _ => trivial
      | store => exact stay _ _
      | snapStore => exact stay _ _
      | snapFill => exact stay _ _
      | snapFree => exact stay _ _
      | install => exact stay _ _
      | ext => exact stay _ _

theorem own_bounded (hv : Valid c) {t n k : Nat} (ht : OwnSteps c split t s k s') (h : CReach c split s)
    (hl : Left c s.mem (s.pend t) n (s.th t)) : k ≤ n := by
  induction ht generalizing n with
  | nil => exact Nat.zero_le _
  | own hop hs hc hr ih =>
    obtain ⟨L, F, hW⟩ := winv_of_reach hv h
    rcases hl.step hv hW hs hop with ⟨h1, h2, _⟩ | ⟨h1, h2⟩
    · rcases hc with hc | hc
      · exact absurd h1 hc
      · exact absurd h2 hc
    · have := ih (CReach.step h hs) h2
      omega
  | other hop hs e1 e2 hr ih =>
    obtain ⟨L, F, hW⟩ := winv_of_reach hv h
    rcases hl.step hv hW hs hop with ⟨_, _, h3⟩ | ⟨h1, h2⟩
    · exact ih (CReach.step h hs) h3
    · have := ih (CReach.step h hs) h2
      omega

/-- C91: between the call and the return of an operation a thread takes at most `opBound c` steps of its
own, whatever the other threads do in between (they cannot make it retry), page faults included. -/
theorem conc_op_bounded (hv : Valid c) (h : CReach c split s) {t n : Nat} (ht : OwnSteps c split t s n s') :
    n ≤ opBound c := own_bounded hv ht h (reach_left hv h t)

/-! ### No deadlock -/

omit [Abi] in
theorem rd_ne {α : Type} {x : Nat} {k : Byte → MProg α} (b : Byte) : k b ≠ .rd x k := by
  have : ∀ q : MProg α, ∀ x k, q = .rd x k → ∀ b, k b ≠ q := by
    intro q
    induction q with
    | ret a => intro x k e; cases e
    | wr x b k ih => intro x k e; cases e
    | rd x k ih =>
      intro x' k' e b e'
      cases e
      exact ih b x k e' b rfl
  exact this _ x k rfl b

omit [Abi] in
theorem wr_ne {α : Type} {x : Nat} {b : Byte} {k : MProg α} : k ≠ .wr x b k := by
  have : ∀ q : MProg α, ∀ x b k, q = .wr x b k → k ≠ q := by
    intro q
    induction q with
    | ret a => intro x b k e; cases e
    | rd x k ih => intro x b k e; cases e
    | wr x b k ih =>
      intro x' b' k' e e'
      cases e
      exact ih x b k e' rfl
  exact this _ x b k rfl

/-- The thread does not wait for another one: the lock is free or its own, or it is past the lock. -/
def Ready (s : CState) (t : Nat) : Prop :=
  s.lock = none ∨ s.lock = some t ∨ ∃ fill p k, s.th t = .filling fill p k

/-- A step of `t` alone. -/
structure Solo (c : Config) (split : Bool) (t : Nat) (s s' : CState) : Prop where
  step : ∃ lab, CStep c split s lab s'
  changed : s'.th t ≠ s.th t ∨ s'.pend t ≠ s.pend t
  others : ∀ u, u ≠ t → s'.th u = s.th u ∧ s'.pend u = s.pend u
  lock : s.lock = none ∨ s.lock = some t → s'.lock = none ∨ s'.lock = some t
  past : (∃ fill p k, s.th t = .filling fill p k) → s'.lock = s.lock ∧ ((∃ fill p k, s'.th t = .filling fill p k) ∨ s'.th t = .idle)

theorem upd_changed {f : Nat → TSt} {t : Nat} {st st' : TSt} (h : f t = st) (hne : st' ≠ st) : upd f t st' t ≠ f t := by
  rw [upd_self, h]; exact hne

theorem solo_step (hv : Valid c) (hsafe : FaultSafe c split) (h : CReach c split s) {t : Nat} (hop : InOp (s.th t))
    (hr : Ready s t) : ∃ s', Solo c split t s s' := by
  obtain ⟨L, F, hC⟩ := cinv_of_reach hv hsafe h
  have hl := reach_left hv h t
  have hne := conc_no_abort hv hsafe h t
  have hlk := conc_lock hv hsafe h t
  have oth : ∀ (st : TSt) (u : Nat), u ≠ t → upd s.th t st u = s.th u := fun st u hu => upd_ne _ hu _
  -- a store of the allocator
  cases hst : s.th t with
  | idle => exact absurd hst hop.1
  | dead => exact absurd hst hop.2
  | wantAlloc fill =>
    have hfree : s.lock = none := by
      rcases hr with e | e | ⟨_, _, _, e⟩
      · exact e
      · rcases hlk.2 e with ⟨_, _, e'⟩ | ⟨_, _, _, e'⟩ <;> rw [hst] at e' <;> cases e'
      · rw [hst] at e; cases e
    exact ⟨_, ⟨_, CStep.lockAlloc t fill hst hfree⟩, Or.inl (upd_changed hst (by simp)), fun u hu => ⟨oth _ u hu, rfl⟩,
      fun _ => Or.inr rfl, fun ⟨_, _, _, e⟩ => by rw [hst] at e; cases e⟩
  | inAlloc fill k =>
    have nf : ∀ {P : Prop}, (∃ fill p k, s.th t = .filling fill p k) → P := fun ⟨_, _, _, e⟩ => by rw [hst] at e; cases e
    cases k with
    | rd x k =>
      exact ⟨_, ⟨_, CStep.readAlloc t fill x k hst⟩, Or.inl (upd_changed hst fun e => by
        injection e with _ e; exact rd_ne _ e), fun u hu => ⟨oth _ u hu, rfl⟩, id, nf⟩
    | wr x b k =>
      have hpt := hC.prog t
      rw [hst] at hpt
      exact hpt.2.1.elim
    | ret a =>
      cases a with
      | take r off addr pool' =>
        cases hk : takeSlot c { pool := pool', mem := s.mem } r off addr with
        | ub => unfold takeSlot at hk; split at hk <;> cases hk
        | aborted w =>
          exact absurd (upd_self ..) (conc_no_abort hv hsafe (CReach.step h (CStep.takeAbort t fill r off addr pool' w hst hk)) t)
        | ok x =>
          obtain ⟨ch, s1⟩ := x
          cases ch with
          | null e => unfold takeSlot at hk; split at hk <;> cases hk
          | item r' off' p =>
            exact ⟨_, ⟨_, CStep.take t fill r off addr pool' r' off' p s1 hst hk⟩, Or.inl (upd_changed hst (by simp)),
              fun u hu => ⟨oth _ u hu, rfl⟩, fun _ => Or.inl rfl, nf⟩
      | create =>
        refine ⟨_, ⟨_, CStep.createNull t fill { base := none } hst (ex_env ..) ?_⟩, Or.inl (upd_changed hst (by simp)),
          fun u hu => ⟨oth _ u hu, rfl⟩, fun _ => Or.inl rfl, nf⟩
        unfold rangeCreate
        split <;> rfl
      | poisoned =>
        exact absurd (upd_self ..) (conc_no_abort hv hsafe (CReach.step h (CStep.allocAbort t fill (Or.inl hst))) t)
      | ub =>
        exact absurd (upd_self ..) (conc_no_abort hv hsafe (CReach.step h (CStep.allocAbort t fill (Or.inr hst))) t)
  | filling fill p k =>
    cases hpn : s.pend t with
    | some d =>
      exact ⟨_, ⟨_, CStep.install t d hpn⟩, Or.inr (by show upd s.pend t none t ≠ _; rw [upd_self, hpn]; simp),
        fun u hu => ⟨rfl, upd_ne _ hu _⟩, id, fun hf => ⟨rfl, Or.inl hf⟩⟩
    | none =>
      cases k with
      | ret a =>
        cases a
        exact ⟨_, ⟨_, CStep.returned t fill p hst hpn⟩, Or.inl (upd_changed hst (by simp)),
          fun u hu => ⟨oth _ u hu, rfl⟩, id, fun _ => ⟨rfl, Or.inr (upd_self ..)⟩⟩
      | rd x k =>
        exact ⟨_, ⟨_, CStep.readFill t fill p x k hst hpn⟩, Or.inl (upd_changed hst fun e => by
          injection e with _ _ e; exact rd_ne _ e), fun u hu => ⟨oth _ u hu, rfl⟩, id,
          fun _ => ⟨rfl, Or.inl ⟨_, _, _, upd_self ..⟩⟩⟩
      | wr x b k =>
        by_cases hx : CanStore c split s.mem x
        · exact ⟨_, ⟨_, CStep.writeFill t fill p x b k hst hpn hx⟩, Or.inl (upd_changed hst fun e => by
            injection e with _ _ e; exact wr_ne e), fun u hu => ⟨oth _ u hu, rfl⟩, id,
            fun _ => ⟨rfl, Or.inl ⟨_, _, _, upd_self ..⟩⟩⟩
        · unfold CanStore at hx
          have h1 : split = true := by
            cases split
            · exact absurd (fun e => by cases e) hx
            · rfl
          cases hsrc : s.mem.src (x / c.pg) with
          | none => exact absurd (fun _ => hsrc) hx
          | some q =>
            exact ⟨_, ⟨_, CStep.snapFill t fill p x b k q hst hpn h1 hsrc⟩, Or.inr (by
              show upd s.pend t _ t ≠ _; rw [upd_self, hpn]; simp), fun u hu => ⟨rfl, upd_ne _ hu _⟩, id,
              fun hf => ⟨rfl, Or.inl hf⟩⟩
  | wantFree p =>
    have hfree : s.lock = none := by
      rcases hr with e | e | ⟨_, _, _, e⟩
      · exact e
      · rcases hlk.2 e with ⟨_, _, e'⟩ | ⟨_, _, _, e'⟩ <;> rw [hst] at e' <;> cases e'
      · rw [hst] at e; cases e
    rw [hst] at hl
    have hpL : p ∈ L := hC.heldMem (t := t) (by rw [hst]; rfl)
    obtain ⟨r, k, r', _, _, _, hf, hc⟩ := canFree hv hC.inv hpL
    exact ⟨_, ⟨_, CStep.lockFree t p r r' hst hl.1 hfree hf hc⟩, Or.inl (upd_changed hst (by simp)),
      fun u hu => ⟨oth _ u hu, rfl⟩, fun _ => Or.inr rfl, fun ⟨_, _, _, e⟩ => by rw [hst] at e; cases e⟩
  | inFree p pool' k =>
    have nf : ∀ {P : Prop}, (∃ fill p k, s.th t = .filling fill p k) → P := fun ⟨_, _, _, e⟩ => by rw [hst] at e; cases e
    cases hpn : s.pend t with
    | some d =>
      exact ⟨_, ⟨_, CStep.install t d hpn⟩, Or.inr (by show upd s.pend t none t ≠ _; rw [upd_self, hpn]; simp),
        fun u hu => ⟨rfl, upd_ne _ hu _⟩, id, nf⟩
    | none =>
      cases k with
      | ret a =>
        cases a
        exact ⟨_, ⟨_, CStep.unlockFree t p pool' hst hpn⟩, Or.inl (upd_changed hst (by simp)),
          fun u hu => ⟨oth _ u hu, rfl⟩, fun _ => Or.inl rfl, nf⟩
      | rd x k =>
        exact ⟨_, ⟨_, CStep.readFree t p pool' x k hst hpn⟩, Or.inl (upd_changed hst fun e => by
          injection e with _ _ e; exact rd_ne _ e), fun u hu => ⟨oth _ u hu, rfl⟩, id, nf⟩
      | wr x b k =>
        by_cases hx : CanStore c split s.mem x
        · exact ⟨_, ⟨_, CStep.writeFree t p pool' x b k hst hpn hx⟩, Or.inl (upd_changed hst fun e => by
            injection e with _ _ e; exact wr_ne e), fun u hu => ⟨oth _ u hu, rfl⟩, id, nf⟩
        · unfold CanStore at hx
          have h1 : split = true := by
            cases split
            · exact absurd (fun e => by cases e) hx
            · rfl
          cases hsrc : s.mem.src (x / c.pg) with
          | none => exact absurd (fun _ => hsrc) hx
          | some q =>
            exact ⟨_, ⟨_, CStep.snapFree t p pool' x b k q hst hpn h1 hsrc⟩, Or.inr (by
              show upd s.pend t _ t ≠ _; rw [upd_self, hpn]; simp), fun u hu => ⟨rfl, upd_ne _ hu _⟩, id, nf⟩

/-- C91: a thread inside an operation can take a step unless it waits for the lock while another thread
is inside the locked part. -/
theorem conc_can_step (hv : Valid c) (hsafe : FaultSafe c split) (h : CReach c split s) {t : Nat} (hop : InOp (s.th t)) :
    (∃ lab s', CStep c split s lab s' ∧ (s'.th t ≠ s.th t ∨ s'.pend t ≠ s.pend t) ∧
      ∀ u, u ≠ t → s'.th u = s.th u ∧ s'.pend u = s.pend u) ∨
    (∃ u, u ≠ t ∧ s.lock = some u ∧ ((∃ fill, s.th t = .wantAlloc fill) ∨ ∃ p, s.th t = .wantFree p)) := by
  by_cases hr : Ready s t
  · obtain ⟨s', ⟨lab, hs⟩, h1, h2, _, _⟩ := solo_step hv hsafe h hop hr
    exact Or.inl ⟨lab, s', hs, h1, h2⟩
  · right
    unfold Ready at hr
    cases hl : s.lock with
    | none => exact absurd (Or.inl hl) hr
    | some u =>
      have hne : u ≠ t := fun e => hr (Or.inr (Or.inl (hl.trans (by rw [e]))))
      refine ⟨u, hne, rfl, ?_⟩
      have hlk := (conc_lock hv hsafe h t).1
      cases hst : s.th t with
      | idle => exact absurd hst hop.1
      | dead => exact absurd hst hop.2
      | wantAlloc fill => exact Or.inl ⟨fill, rfl⟩
      | wantFree p => exact Or.inr ⟨p, rfl⟩
      | filling fill p k => exact absurd (Or.inr (Or.inr ⟨fill, p, k, hst⟩)) hr
      | inAlloc fill k =>
        have := hlk (Or.inl ⟨fill, k, hst⟩)
        rw [hl] at this
        exact absurd (Option.some.inj this) hne
      | inFree p pool' k =>
        have := hlk (Or.inr ⟨p, pool', k, hst⟩)
        rw [hl] at this
        exact absurd (Option.some.inj this) hne

theorem solo_run (hv : Valid c) (hsafe : FaultSafe c split) {t : Nat} : ∀ (n : Nat) (s : CState), CReach c split s →
    Ready s t → Left c s.mem (s.pend t) n (s.th t) →
    ∃ labs s', CTrace c split s labs s' ∧ CReach c split s' ∧ labs.length ≤ n ∧ s'.th t = .idle ∧
      (∀ u, u ≠ t → s'.th u = s.th u ∧ s'.pend u = s.pend u) ∧
      (s.lock = none ∨ s.lock = some t → s'.lock = none) := by
  intro n
  induction n with
  | zero =>
    intro s h hr hl
    by_cases hop : InOp (s.th t)
    · obtain ⟨s', ⟨lab, hs⟩, h1, h2, _, _⟩ := solo_step hv hsafe h hop hr
      obtain ⟨L, F, hW⟩ := winv_of_reach hv h
      rcases hl.step hv hW hs hop with ⟨e1, e2, _⟩ | ⟨e, _⟩
      · rcases h1 with h1 | h1
        · exact absurd e1 h1
        · exact absurd e2 h1
      · omega
    · have hid : s.th t = .idle := Classical.byContradiction fun e => hop ⟨e, conc_no_abort hv hsafe h t⟩
      refine ⟨[], s, .nil s, h, Nat.le_refl _, hid, fun u _ => ⟨rfl, rfl⟩, fun hlk => ?_⟩
      rcases hlk with e | e
      · exact e
      · rcases (conc_lock hv hsafe h t).2 e with ⟨_, _, e'⟩ | ⟨_, _, _, e'⟩ <;> rw [hid] at e' <;> cases e'
  | succ n ih =>
    intro s h hr hl
    by_cases hop : InOp (s.th t)
    · obtain ⟨s1, ⟨lab, hs⟩, h1, h2, h3, h4⟩ := solo_step hv hsafe h hop hr
      obtain ⟨L, F, hW⟩ := winv_of_reach hv h
      have hl1 : Left c s1.mem (s1.pend t) n (s1.th t) := by
        rcases hl.step hv hW hs hop with ⟨e1, e2, _⟩ | ⟨_, e⟩
        · rcases h1 with h1 | h1
          · exact absurd e1 h1
          · exact absurd e2 h1
        · exact e
      by_cases hid : s1.th t = .idle
      · refine ⟨[lab], s1, .cons hs (.nil _), CReach.step h hs, by simp, hid, h2, fun hlk => ?_⟩
        rcases h3 hlk with e | e
        · exact e
        · rcases (conc_lock hv hsafe (CReach.step h hs) t).2 e with ⟨_, _, e'⟩ | ⟨_, _, _, e'⟩ <;> rw [hid] at e' <;> cases e'
      · have hr1 : Ready s1 t := by
          rcases hr with e | e | e
          · rcases h3 (Or.inl e) with e | e
            · exact Or.inl e
            · exact Or.inr (Or.inl e)
          · rcases h3 (Or.inr e) with e | e
            · exact Or.inl e
            · exact Or.inr (Or.inl e)
          · rcases (h4 e).2 with e | e
            · exact Or.inr (Or.inr e)
            · exact absurd e hid
        obtain ⟨labs, s', a1, a2, a3, a4, a5, a6⟩ := ih s1 (CReach.step h hs) hr1 hl1
        refine ⟨lab :: labs, s', .cons hs a1, a2, by rw [List.length_cons]; omega, a4,
          fun u hu => ⟨(a5 u hu).1.trans (h2 u hu).1, (a5 u hu).2.trans (h2 u hu).2⟩, fun hlk => a6 (h3 hlk)⟩
    · have hid : s.th t = .idle := Classical.byContradiction fun e => hop ⟨e, conc_no_abort hv hsafe h t⟩
      refine ⟨[], s, .nil s, h, Nat.zero_le _, hid, fun u _ => ⟨rfl, rfl⟩, fun hlk => ?_⟩
      rcases hlk with e | e
      · exact e
      · rcases (conc_lock hv hsafe h t).2 e with ⟨_, _, e'⟩ | ⟨_, _, _, e'⟩ <;> rw [hid] at e' <;> cases e'

theorem CTrace.append {s s1 s2 : CState} {l1 l2 : List Lab} (h1 : CTrace c split s l1 s1) (h2 : CTrace c split s1 l2 s2) :
    CTrace c split s (l1 ++ l2) s2 := by
  induction h1 with
  | nil => exact h2
  | cons h _ ih => exact .cons h (ih h2)

/-- C91: from every reachable state, whatever every thread is in the middle of, the operation of `t` can
be completed within `2 * opBound c` steps: first the thread inside the locked part, if any, finishes,
then `t` runs alone.  All other threads stay where they are: nobody else is needed. -/
theorem conc_finishes (hv : Valid c) (hsafe : FaultSafe c split) (h : CReach c split s) (t : Nat) :
    ∃ labs s', CTrace c split s labs s' ∧ labs.length ≤ 2 * opBound c ∧ s'.th t = .idle ∧
      ∀ u, u ≠ t → s.lock ≠ some u → s'.th u = s.th u ∧ s'.pend u = s.pend u := by
  by_cases hr : Ready s t
  · obtain ⟨labs, s', a1, _, a3, a4, a5, _⟩ := solo_run hv hsafe _ s h hr (reach_left hv h t)
    exact ⟨labs, s', a1, by omega, a4, fun u hu _ => a5 u hu⟩
  · cases hl : s.lock with
    | none => exact absurd (Or.inl hl) hr
    | some u =>
      obtain ⟨l1, s1, a1, a2, a3, a4, a5, a6⟩ :=
        solo_run hv hsafe _ s h (Or.inr (Or.inl hl)) (reach_left hv h u)
      obtain ⟨l2, s2, b1, _, b3, b4, b5, _⟩ :=
        solo_run hv hsafe (t := t) _ s1 a2 (Or.inl (a6 (Or.inr hl))) (reach_left hv a2 t)
      refine ⟨l1 ++ l2, s2, a1.append b1, by rw [List.length_append]; omega, b4, fun v hv' hlv => ?_⟩
      have hvu : v ≠ u := fun e => hlv (by rw [e])
      exact ⟨(b5 v hv').1.trans (a5 v hvu).1, (b5 v hv').2.trans (a5 v hvu).2⟩

end Verif.PoolConc

/-! ### A concrete case: thread 0 is inside the locked part, thread 1 waits for the lock -/

namespace Verif.PoolConc
open Verif Verif.Mem Verif.Mempool MProg

attribute [local instance] le64

/-- Threads 0 and 1 have called zmalloc, thread 0 has the lock. -/
def waitS : CState :=
  { mem := raceMem1, pool := ⟨[raceRange 0], 0, 1⟩, lock := some 0
    th := upd (upd (upd (fun _ => .idle) 0 (.wantAlloc .zero)) 1 (.wantAlloc .zero)) 0
      (.inAlloc .zero (lockedP raceC ⟨[raceRange 0], 0, 1⟩))
    pend := fun _ => none, live := [] }

theorem wait_init : CReach raceC false
    { mem := raceMem1, pool := ⟨[raceRange 0], 0, 1⟩, lock := none, th := fun _ => .idle, pend := fun _ => none, live := [] } := by
  refine CReach.create (c := raceC) (split := false) raceMem { base := some 8192 } (raceRange 0) raceMem1
    (fun _ _ h => by cases h) ⟨fun b e => ?_, fun _ _ _ h => by cases h⟩ rfl
  cases e
  exact ⟨by decide, by decide, by decide, fun r hr => (by cases hr), fun x hx => hx⟩

theorem wait_reach : CReach raceC false waitS := by
  have h1 := CReach.step wait_init (CStep.alloc 0 .zero rfl rfl (by decide))
  have h2 := CReach.step h1 (CStep.alloc 1 .zero rfl rfl (by decide))
  exact CReach.step h2 (CStep.lockAlloc 0 .zero rfl rfl)

/-- Thread 1 is inside an operation and cannot step by itself: the second case of `conc_can_step`. -/
example : InOp (waitS.th 1) ∧ ¬ Ready waitS 1 := by
  refine ⟨⟨by show TSt.wantAlloc _ ≠ _; simp, by show TSt.wantAlloc _ ≠ _; simp⟩, ?_⟩
  rintro (e | e | ⟨_, _, _, e⟩)
  · cases e
  · cases e
  · have e : TSt.wantAlloc .zero = _ := e
    cases e

/-- Thread 0 can step. -/
example : InOp (waitS.th 0) ∧ Ready waitS 0 :=
  ⟨⟨by show TSt.inAlloc _ _ ≠ _; simp, by show TSt.inAlloc _ _ ≠ _; simp⟩, Or.inr (Or.inl rfl)⟩

/-- Both operations can be completed; at most 198 steps for items of 8 bytes on one CPU. -/
example : opBound raceC = 99 ∧ ∃ labs s', CTrace raceC false waitS labs s' ∧ labs.length ≤ 2 * 99 ∧ s'.th 1 = .idle := by
  obtain ⟨labs, s', h1, h2, h3, _⟩ := conc_finishes raceC_valid (Or.inl rfl) wait_reach 1
  exact ⟨rfl, labs, s', h1, h2, h3⟩

/-- An execution with two steps of thread 0's operation and one step of another thread between them. -/
example : ∃ s', OwnSteps raceC false 0 waitS 2 s' := by
  refine ⟨_, .own ⟨by show TSt.inAlloc _ _ ≠ _; simp, by show TSt.inAlloc _ _ ≠ _; simp⟩
    (CStep.take 0 .zero (raceRange 8) 0 8192 ⟨[raceRange 8], 0, 1⟩ (raceRange 8) 0 8192
      { pool := ⟨[raceRange 8], 0, 1⟩, mem := raceMem1 } rfl rfl) (Or.inl ?_)
    (.other ⟨by show TSt.filling _ _ _ ≠ _; simp, by show TSt.filling _ _ _ ≠ _; simp⟩
      (CStep.alloc 2 (.plain 8) rfl rfl (by decide)) rfl rfl
      (.own ⟨by show TSt.filling _ _ _ ≠ _; simp, by show TSt.filling _ _ _ ≠ _; simp⟩
        (CStep.writeFill 0 .zero 8192 12288 0#8 _ rfl rfl fun e => by cases e) (Or.inl ?_) (.nil _)))⟩
  · show TSt.filling _ _ _ ≠ TSt.inAlloc _ _
    simp
  · intro e
    exact wr_ne (TSt.filling.inj e).2.2

end Verif.PoolConc
