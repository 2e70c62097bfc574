import Verif.PoolLocksProps

/-!
C109: in the child of a `fork`, library calls return: false if another thread held a lock at that time (F51).
-/

namespace Verif.Locks

open Relation (TransGen)

variable {W : Program}

/-- A lock that another thread held when the process forked stays locked in the child; a thread of the child that tries to take it
waits for ever, whatever the child does, with any number of new threads. -/
theorem child_waits {s : State} (hr : Reach W s) {t u : Nat} {l : Lock} (ho : s.holder l = some u) (hu : u ≠ t) {s' : State}
    (h : Steps W (child s t) s') : s'.holder l ≠ none ∧ ∀ v r, s'.todo v = .lock l :: r →
      ∀ s'', Steps W s' s'' → s''.todo v = .lock l :: r := by
  have q := (lost_steps (child_lost hr.inv ho hu) h).1
  exact ⟨q.1, fun v r e s'' h'' => (lost_steps q h'').2 v r e⟩

/-- All calls of the child can always return, if no other thread held a lock (for instance: was in a library call) at the time of
the fork. (Without this it is false: `child_returns_iff`.) -/
theorem child_returns_partial (hac : ∀ l, ¬ TransGen (Edge W) l l) {s : State} (hr : Reach W s) {t : Nat}
    (h : ∀ l u, s.holder l = some u → u = t) {s' : State} (hs : Steps W (child s t) s') : ∃ s'', Steps W s' s'' ∧ Idle s'' := by
  have hi := (child_inv hr.inv h).steps hs
  obtain ⟨M, hM⟩ := hi.few
  exact drain hac _ M s' hi hM (Nat.le_refl _)

/-- The condition is necessary. -/
theorem child_returns_iff (hac : ∀ l, ¬ TransGen (Edge W) l l) {s : State} (hr : Reach W s) (t : Nat) :
    (∀ s', Steps W (child s t) s' → ∃ s'', Steps W s' s'' ∧ ∀ v, s''.todo v = []) ↔ ∀ l u, s.holder l = some u → u = t := by
  refine ⟨fun h l u ho => ?_, fun h s' hs => ?_⟩
  · refine Classical.byContradiction fun hu => ?_
    obtain ⟨s1, h1, e1⟩ := h _ (.refl _)
    obtain ⟨c, hc⟩ := call_for (W := W) l
    have g1 : Step W s1 t _ := .start c (e1 t)
    have g2 : Step W _ t _ := .call (s := { s1 with todo := upd s1.todo t [.call c] }) c [] _ (upd_same _ _ _) hc
    have h2 : Steps W (child s t) _ := h1.trans (.cons g1 (.cons g2 (.refl _)))
    obtain ⟨s3, h3, e3⟩ := h _ h2
    have := (child_waits hr ho hu h2).2 t [.unlock l] (upd_same _ _ _) s3 h3
    rw [e3 t] at this
    cases this
  · obtain ⟨s'', h1, h2⟩ := child_returns_partial hac hr h hs
    exact ⟨s'', h1, h2.1⟩

/-- Destroying pools and pool sets in the child, as mempool.h:530-533 allows, always returns: it takes no lock. -/
theorem child_destroys {s : State} {t : Nat} (i : Nat) {s' : State} (hs : Steps W (child s t) s') {v : Nat} (hv : s'.todo v = []) :
    (∀ b, Body W (.destroy i) b → b = []) ∧ (∃ s'', Step W s' v s'' ∧ s''.todo v = [.call (.destroy i)] ∧ ∃ s3, Step W s'' v s3 ∧ s3.todo v = []) ∧
    ∀ l, ¬ Takes W (.destroy i) l :=
  ⟨fun b hb => (by cases hb; rfl), ⟨_, .start _ hv, upd_same _ _ _, _, .call _ [] _ (upd_same _ _ _) (.destroy i), upd_same _ _ _⟩,
    fun l h => (by cases h)⟩

/-- For every program and every lock there is a moment at which a fork gives a child in which the lock is lost. -/
theorem child_loses_lock (W : Program) (l : Lock) (t : Nat) : ∃ s, Reach W s ∧ s.todo t = [] ∧ ∃ s', Steps W (child s t) s' ∧
    ∀ s'', Steps W s' s'' → s''.todo t ≠ [] := by
  obtain ⟨c, hc⟩ := call_for (W := W) l
  have hne : t ≠ t + 1 := by omega
  have q1 := (Reach.init (W := W)).step (.start (t := t + 1) c rfl)
  have q2 := q1.step (.call c [] _ (upd_same _ _ _) hc)
  have q3 := q2.step (.lock l _ (upd_same _ _ _) rfl)
  refine ⟨_, q3, ?_, ?_⟩
  · dsimp only
    rw [upd_other _ _ hne, upd_other _ _ hne, upd_other _ _ hne]
  · generalize hS : (State.mk _ _ : State) = S at q3
    have ho : S.holder l = some (t + 1) := by rw [← hS]; exact upd_same _ _ _
    have ht : S.todo t = [] := by
      rw [← hS]
      dsimp only
      rw [upd_other _ _ hne, upd_other _ _ hne, upd_other _ _ hne]
    have g1 : Step W (child S t) t _ := .start c (by show (if t = t then _ else _) = _; rw [if_pos rfl]; exact ht)
    have g2 : Step W _ t _ := .call (s := { child S t with todo := upd (child S t).todo t [.call c] }) c [] _ (upd_same _ _ _) hc
    have h2 : Steps W (child S t) _ := .cons g1 (.cons g2 (.refl _))
    refine ⟨_, h2, fun s'' h'' e => ?_⟩
    have := (child_waits q3 ho (by omega) h2).2 t [.unlock l] (upd_same _ _ _) s'' h''
    rw [e] at this
    cases this

/-! ### The hypotheses can be met -/

/-- The good program of C108 while thread 7 runs a callback with the lock of pool 1 held: a fork by thread 7 itself is harmless, a fork
by thread 2 is not. -/
example : ∃ s, Reach exProgram s ∧ s.todo 7 ≠ [] ∧
    (∀ s', Steps exProgram (child s 7) s' → ∃ s'', Steps exProgram s' s'' ∧ ∀ v, s''.todo v = []) ∧
    ¬ ∀ s', Steps exProgram (child s 2) s' → ∃ s'', Steps exProgram s' s'' ∧ ∀ v, s''.todo v = [] := by
  have hac := (calls_return_iff exProgram).1 fun s hr => ordered_no_deadlock _ exProgram_ordered hr
  have q1 := (Reach.init (W := exProgram)).step (.start (t := 7) (.malloc 1) rfl)
  have q2 := q1.step (.call (.malloc 1) [] _ (upd_same _ _ _) (.mallocRange 1 (.inr rfl)))
  have q3 := q2.step (.lock (.pool 1) _ (upd_same _ _ _) rfl)
  refine ⟨_, q3, fun h => (by cases h), (child_returns_iff hac q3 7).2 fun l u ho => ?_, fun h => ?_⟩
  · dsimp only at ho
    by_cases e : l = .pool 1
    · subst e; rw [upd_same] at ho; injection ho with ho; exact ho.symm
    · rw [upd_other _ _ e] at ho; cases ho
  · have := (child_returns_iff hac q3 2).1 h (.pool 1) 7 rfl
    omega

example : ∃ s'', Step exProgram (child ⟨fun _ => [], fun _ => some 3⟩ 0) 0 s'' ∧ s''.todo 0 = [.call (.destroy 4)] ∧
    ∃ s3, Step exProgram s'' 0 s3 ∧ s3.todo 0 = [] :=
  (child_destroys 4 (.refl _) rfl).2.1

/-- Thread 7 has the lock of pool 1 when thread 2 forks; when thread 7 does, its child can go on. -/
example : ∃ s, Reach exProgram s ∧ (∀ s', Steps exProgram (child s 2) s' → s'.holder (.pool 1) ≠ none) := by
  obtain ⟨s, hr, _, ho⟩ := exProgram_busy
  exact ⟨s, hr, fun s' h => (child_waits hr ho (by omega) h).1⟩

example : ∃ s'', Steps exProgram (child { todo := fun _ => [], holder := fun _ => none } 2) s'' ∧ Idle s'' :=
  child_returns_partial ((calls_return_iff exProgram).1 fun s hr => ordered_no_deadlock _ exProgram_ordered hr) .init
    (fun _ _ h => by cases h) (.refl _)

example : ∃ s, Reach exProgram s ∧ s.todo 4 = [] ∧ ∃ s', Steps exProgram (child s 4) s' ∧ ∀ s'', Steps exProgram s' s'' → s''.todo 4 ≠ [] :=
  child_loses_lock exProgram (.set 5) 4

end Verif.Locks
