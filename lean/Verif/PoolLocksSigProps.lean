import Verif.PoolLocksProps

/-!
C110: library calls made by signal handlers return: false for every function that takes a lock (F52).
-/

namespace Verif.Locks

open Relation (TransGen)

variable {W : Program}

/-- A signal may interrupt a thread anywhere, also while it holds a lock or waits for one; its handler makes one of the calls
in `H`, and the thread goes on when the call has returned. Handlers that make several calls are several signals. -/
inductive SReach (W : Program) (H : Call → Prop) : State → Prop
  | init : SReach W H { todo := fun _ => [], holder := fun _ => none }
  | step {s s' : State} {t : Nat} (h : SReach W H s) (hs : Step W s t s') : SReach W H s'
  | signal {s : State} (t : Nat) {c : Call} (h : SReach W H s) (hc : H c) :
      SReach W H { s with todo := upd s.todo t (.call c :: s.todo t) }

/-- Any number of steps and signals. -/
inductive SSteps (W : Program) (H : Call → Prop) : State → State → Prop
  | refl (s : State) : SSteps W H s s
  | cons {s s1 s' : State} {t : Nat} (h : Step W s t s1) (r : SSteps W H s1 s') : SSteps W H s s'
  | signal {s s' : State} (t : Nat) {c : Call} (hc : H c)
      (r : SSteps W H { s with todo := upd s.todo t (.call c :: s.todo t) } s') : SSteps W H s s'

theorem SReach.steps {H : Call → Prop} {s s' : State} (h : SReach W H s) (hs : Steps W s s') : SReach W H s' := by
  induction hs with
  | refl => exact h
  | cons h1 _ ih => exact ih (h.step h1)

/-- Whether the first thing done to `l` is to lock it. -/
def locksFirst (l : Lock) : List Act → Prop
  | [] => False
  | .lock l' :: r => l' = l ∨ locksFirst l r
  | .unlock l' :: r => l' ≠ l ∧ locksFirst l r
  | .callback _ :: r => locksFirst l r
  | .call _ :: r => locksFirst l r

theorem locksFirst_body (l : Lock) {c : Call} {b r : List Act} (hb : Body W c b) (h : locksFirst l r) : locksFirst l (b ++ r) := by
  have pair : ∀ {l' : Lock} {q : List Act}, locksFirst l q → locksFirst l (.lock l' :: .unlock l' :: q) := fun {l' q} h => by
    by_cases e : l' = l
    · exact .inl e
    · exact .inr ⟨e, h⟩
  cases hb with
  | mallocRange i =>
    by_cases e : Lock.pool i = l
    · exact .inl e
    · exact .inr ⟨e, h⟩
  | mallocInvalid | createFails | destroy | registerDone | createRange => exact h
  | mallocRoom | free | setAdd | setNone | setFound | setAgain | register => exact pair h

theorem locksFirst_calls (l : Lock) {r : List Act} (h : locksFirst l r) : ∀ cs : List Call, locksFirst l (cs.map .call ++ r)
  | [] => h
  | _ :: cs => locksFirst_calls l h cs

/-- A thread that holds a lock and takes it again before it releases it. -/
def Again (l : Lock) (t : Nat) (s : State) : Prop := s.holder l = some t ∧ locksFirst l (s.todo t)

theorem again_step {l : Lock} {t u : Nat} {s s' : State} (h : Again l t s) (hs : Step W s u s') : Again l t s' := by
  obtain ⟨ho, hl⟩ := h
  by_cases e : u = t
  · subst e
    cases hs with
    | start c h => rw [h] at hl; cases hl
    | call c r b h hb => rw [h] at hl; exact ⟨ho, by dsimp only; rw [upd_same]; exact locksFirst_body l hb hl⟩
    | callback i r cs h hc => rw [h] at hl; exact ⟨ho, by dsimp only; rw [upd_same]; exact locksFirst_calls l (r := r) hl cs⟩
    | lock l' r h hf =>
      have hne : l ≠ l' := fun e => by rw [← e, ho] at hf; cases hf
      rw [h] at hl
      refine ⟨by dsimp only; rw [upd_other _ _ hne]; exact ho, ?_⟩
      dsimp only
      rw [upd_same]
      exact hl.resolve_left fun e => hne e.symm
    | unlock l' r h _ =>
      rw [h] at hl
      refine ⟨by dsimp only; rw [upd_other _ _ (Ne.symm hl.1)]; exact ho, ?_⟩
      dsimp only
      rw [upd_same]
      exact hl.2
  · have e' : t ≠ u := Ne.symm e
    cases hs with
    | start | call | callback => exact ⟨ho, by dsimp only; rw [upd_other _ _ e']; exact hl⟩
    | lock l' r h hf =>
      have hne : l ≠ l' := fun e => by rw [← e, ho] at hf; cases hf
      exact ⟨by dsimp only; rw [upd_other _ _ hne]; exact ho, by dsimp only; rw [upd_other _ _ e']; exact hl⟩
    | unlock l' r h h' =>
      have hne : l ≠ l' := fun e2 => by rw [← e2, ho] at h'; injection h' with h'; exact e' h'
      exact ⟨by dsimp only; rw [upd_other _ _ hne]; exact ho, by dsimp only; rw [upd_other _ _ e']; exact hl⟩

theorem again_lasts {H : Call → Prop} {l : Lock} {t : Nat} {s s' : State} (h : Again l t s) (hs : SSteps W H s s') : Again l t s' := by
  induction hs with
  | refl => exact h
  | cons h1 _ ih => exact ih (again_step h h1)
  | @signal s _ u c _ _ ih =>
    refine ih ⟨h.1, ?_⟩
    dsimp only
    by_cases e : t = u
    · subst e; rw [upd_same]; exact h.2
    · rw [upd_other _ _ e]; exact h.2

/-- Every lock is held at some time by a thread that has nothing else to do than to release it. -/
theorem hold (W : Program) (H : Call → Prop) (l : Lock) (t : Nat) : ∃ s, SReach W H s ∧ s.todo t = [.unlock l] ∧
    (∀ u, u ≠ t → s.todo u = []) ∧ s.holder l = some t ∧ ∀ l', l' ≠ l → s.holder l' = none := by
  obtain ⟨c, hc⟩ := call_for (W := W) l
  have q1 := (SReach.init (W := W) (H := H)).step (.start (t := t) c rfl)
  have q2 := q1.step (.call c [] _ (upd_same _ _ _) hc)
  have q3 := q2.step (.lock l _ (upd_same _ _ _) rfl)
  refine ⟨_, q3, upd_same _ _ _, fun u hu => ?_, upd_same _ _ _, fun l' hl => ?_⟩ <;> dsimp only
  · rw [upd_other _ _ hu, upd_other _ _ hu, upd_other _ _ hu]
  · rw [upd_other _ _ hl]

/-- A handler that makes a call that takes a lock: if it interrupts a call (of the same thread) that has the lock, the call
never returns, whatever else happens. -/
theorem handler_blocks {H : Call → Prop} {c : Call} {l : Lock} (hc : H c) (ht : Takes W c l) (t : Nat) :
    ∃ s, SReach W H s ∧ (∀ u, u ≠ t → s.todo u = []) ∧ (∃ r, s.todo t = .lock l :: r) ∧ s.holder l = some t ∧
      ∀ s', SSteps W H s s' → s'.todo t ≠ [] ∧ s'.holder l = some t := by
  obtain ⟨s0, h0, e0, hu0, ho, hf⟩ := hold W H l t
  have h1 := h0.signal t hc
  obtain ⟨s, r, h2, m⟩ := to_lock (s := { s0 with todo := upd s0.todo t (.call c :: s0.todo t) }) (t := t) ht (upd_same _ _ _)
    fun i e j => hf _ (by rw [e]; intro h; cases h)
  refine ⟨s, h1.steps h2, fun u hu => ?_, ⟨r, m.here⟩, (m.holder l).trans ho, fun s' hs => ?_⟩
  · rw [m.other u hu]
    dsimp only
    rw [upd_other _ _ hu]
    exact hu0 u hu
  · obtain ⟨q1, q2⟩ := again_lasts (l := l) (t := t) ⟨(m.holder l).trans ho, by rw [m.here]; exact .inl rfl⟩ hs
    exact ⟨fun e => by rw [e] at q2; exact q2, q1⟩

theorem SReach.inv {H : Call → Prop} (hH : ∀ c, H c → ∀ l, ¬ Takes W c l) {s : State} (h : SReach W H s) : Inv W s := by
  induction h with
  | init => exact Reach.init.inv
  | step _ hs ih => exact ih.step hs
  | @signal s t c _ hc ih =>
    refine ⟨fun u => ?_, fun u => ?_, fun u l => ?_, fun u l hl => ?_, ?_⟩
    · dsimp only
      by_cases e : u = t
      · subst e; rw [upd_same]; exact .call c (ih.shape u)
      · rw [upd_other _ _ e]; exact ih.shape u
    · dsimp only
      by_cases e : u = t
      · subst e; rw [upd_same]; exact ih.nodup u
      · rw [upd_other _ _ e]; exact ih.nodup u
    · dsimp only
      by_cases e : u = t
      · subst e; rw [upd_same]; exact ih.own u l
      · rw [upd_other _ _ e]; exact ih.own u l
    · dsimp only at hl ⊢
      by_cases e : u = t
      · subst e
        rw [upd_same]
        obtain ⟨pre, post, e1, e2⟩ := ih.under u l hl
        refine ⟨.call c :: pre, post, by rw [e1]; rfl, fun a ha l' hl' => ?_⟩
        rcases List.mem_cons.1 ha with rfl | ha
        · exact absurd hl' (hH c hc l')
        · exact e2 a ha l' hl'
      · rw [upd_other _ _ e]; exact ih.under u l hl
    · obtain ⟨M, hM⟩ := ih.few
      refine ⟨max M (t + 1), fun u hu => ?_⟩
      dsimp only
      rw [upd_other _ _ (show u ≠ t by omega)]
      exact hM u (by omega)

/-- Handlers that make only calls that take no lock (destroy; creation with callbacks that take none) are harmless. (Others are not:
`handlers_iff`.) -/
theorem handlers_return_partial {H : Call → Prop} (hac : ∀ l, ¬ TransGen (Edge W) l l) (hH : ∀ c, H c → ∀ l, ¬ Takes W c l) {s : State}
    (hr : SReach W H s) : ∃ s', Steps W s s' ∧ Idle s' := by
  have hi := hr.inv hH
  obtain ⟨M, hM⟩ := hi.few
  exact drain hac _ M s hi hM (Nat.le_refl _)

theorem Steps.signals {H : Call → Prop} {s s' : State} (h : Steps W s s') : SSteps W H s s' := by
  induction h with
  | refl => exact .refl _
  | cons h _ ih => exact .cons h ih

/-- The condition is necessary. -/
theorem handlers_iff (H : Call → Prop) (hac : ∀ l, ¬ TransGen (Edge W) l l) :
    (∀ s, SReach W H s → ∃ s', SSteps W H s s' ∧ Idle s') ↔ ∀ c, H c → ∀ l, ¬ Takes W c l := by
  refine ⟨fun h c hc l ht => ?_, fun hH s hr => ?_⟩
  · obtain ⟨s, hr, _, _, _, hn⟩ := handler_blocks hc ht 0
    obtain ⟨s', h1, h2⟩ := h s hr
    exact (hn s' h1).1 (h2.1 0)
  · obtain ⟨s', h1, h2⟩ := handlers_return_partial hac hH hr
    exact ⟨s', h1.signals, h2⟩

/-- In particular no handler may allocate or free, register, or use a pool set. -/
theorem handler_calls (H : Call → Prop) (hac : ∀ l, ¬ TransGen (Edge W) l l) (h : ∀ s, SReach W H s → ∃ s', SSteps W H s s' ∧ Idle s') :
    ∀ c, H c → (∃ i, c = .destroy i) ∨ ∃ i, c = .create i := by
  intro c hc
  have := (handlers_iff H hac).1 h c hc
  cases c with
  | malloc i => exact absurd (.malloc i) (this _)
  | free i => exact absurd (.free i) (this _)
  | create i => exact .inr ⟨i, rfl⟩
  | destroy i => exact .inl ⟨i, rfl⟩
  | setAdd j => exact absurd (.setAdd j) (this _)
  | setMalloc j => exact absurd (.setMalloc j) (this _)
  | register => exact absurd .register (this _)

/-! ### The hypotheses can be met -/

theorem exProgram_acyclic : ∀ l, ¬ TransGen (Edge exProgram) l l :=
  (calls_return_iff exProgram).1 fun _ hr => ordered_no_deadlock _ exProgram_ordered hr

/-- Handlers that destroy pools and create pool 0, whose callback makes no calls. -/
example : ∀ s, SReach exProgram (fun c => (∃ i, c = .destroy i) ∨ c = .create 0) s →
    ∃ s', SSteps exProgram (fun c => (∃ i, c = .destroy i) ∨ c = .create 0) s s' ∧ Idle s' :=
  (handlers_iff _ exProgram_acyclic).2 fun c hc l ht => by
    rcases hc with ⟨i, rfl⟩ | rfl
    · cases ht
    · cases ht with
      | create hcb _ => exact absurd hcb.1 (by decide)

/-- A handler that frees. -/
example : ∃ s, SReach exProgram (· = .free 3) s ∧ s.holder (.pool 3) = some 9 ∧ ∀ s', SSteps exProgram (· = .free 3) s s' → s'.todo 9 ≠ [] := by
  obtain ⟨s, h1, _, _, h2, h3⟩ := handler_blocks (W := exProgram) (H := (· = .free 3)) rfl (.free 3) 9
  exact ⟨s, h1, h2, fun s' hs => (h3 s' hs).1⟩

/-- A handler that destroys pool 3 interrupts an allocation from pool 1 that holds the lock. -/
example : ∃ s s', SReach exProgram (· = .destroy 3) s ∧ s.todo 7 = [.call (.destroy 3), .unlock (.pool 1)] ∧ Steps exProgram s s' ∧ Idle s' := by
  obtain ⟨s0, h0, e0, _⟩ := hold exProgram (· = .destroy 3) (.pool 1) 7
  have h1 := h0.signal 7 (c := .destroy 3) rfl
  obtain ⟨s', h2, h3⟩ := handlers_return_partial exProgram_acyclic (fun c hc l ht => by subst hc; cases ht) h1
  exact ⟨_, s', h1, by dsimp only; rw [upd_same, e0], h2, h3⟩

/-- A handler that registers: not all calls can return. -/
example : ¬ ∀ s, SReach exProgram (· = .register) s → ∃ s', SSteps exProgram (· = .register) s s' ∧ Idle s' := fun h => by
  rcases handler_calls _ exProgram_acyclic h .register rfl with ⟨_, e⟩ | ⟨_, e⟩ <;> cases e

end Verif.Locks
