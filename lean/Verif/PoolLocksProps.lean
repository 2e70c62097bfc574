import Verif.PoolLocksLemmas

/-!
C108: calls of the library made by any number of threads do not block each other for ever: false, because init callbacks run
with the lock of the pool held. The theorems say exactly for which programs it holds.
-/

namespace Verif.Locks

open Relation (TransGen)

/-- A program can deadlock exactly if its init callbacks lead from the lock of a pool back to the same lock. -/
theorem deadlock_iff (W : Program) : (∃ s D, Reach W s ∧ Deadlocked s D) ↔ ∃ l, TransGen (Edge W) l l :=
  ⟨fun ⟨_, _, hr, hd⟩ => deadlock_cycle hr.inv hd, fun ⟨_, h⟩ => cycle_deadlock h⟩

/-- Threads in a deadlock never take a step again, whatever the others do. -/
theorem deadlock_lasts {W : Program} {s s' : State} {D : Nat → Prop} (hd : Deadlocked s D) (hs : Steps W s s') :
    Deadlocked s' D ∧ ∀ t, D t → s'.todo t = s.todo t := by
  induction hs with
  | refl => exact ⟨hd, fun _ _ => rfl⟩
  | cons h _ ih =>
    obtain ⟨_, h1, h2⟩ := deadlock_step hd h
    obtain ⟨g1, g2⟩ := ih h1
    exact ⟨g1, fun t ht => (g2 t ht).trans (h2 t ht)⟩

/-- All calls can always return, provided that no chain of init callbacks leads from the lock of a pool back to it. (Without this
it is false: `calls_return_iff`.) -/
theorem calls_return_partial {W : Program} (hac : ∀ l, ¬ TransGen (Edge W) l l) {s : State} (hr : Reach W s) :
    ∃ s', Steps W s s' ∧ Idle s' := by
  obtain ⟨M, hM⟩ := hr.inv.few
  exact drain hac _ M s hr.inv hM (Nat.le_refl _)

/-- The condition is necessary. -/
theorem calls_return_iff (W : Program) : (∀ s, Reach W s → ∃ s', Steps W s s' ∧ Idle s') ↔ ∀ l, ¬ TransGen (Edge W) l l := by
  refine ⟨fun h l hl => ?_, fun h s hr => calls_return_partial h hr⟩
  obtain ⟨s, D, hr, hd⟩ := cycle_deadlock hl
  obtain ⟨s', h1, h2⟩ := h s hr
  obtain ⟨⟨⟨t, ht⟩, g⟩, _⟩ := deadlock_lasts hd h1
  obtain ⟨l, r, u, e, _⟩ := g t ht
  rw [h2.1 t] at e
  cases e

/-- Without deadlock, some thread that is in a call can always take a step. -/
theorem someone_steps_partial {W : Program} (hac : ∀ l, ¬ TransGen (Edge W) l l) {s : State} (hr : Reach W s) (hb : ¬ Idle s) :
    ∃ t s', s.todo t ≠ [] ∧ Step W s t s' := by
  refine Classical.byContradiction fun hn => ?_
  have hstuck : ∀ t, s.todo t ≠ [] → ∃ l r, s.todo t = .lock l :: r ∧ s.holder l ≠ none := fun t ht => by
    refine Classical.byContradiction fun h => ?_
    obtain ⟨s', _, h1, _⟩ := can_step hr.inv ht fun l r e => Classical.byContradiction fun h' => h ⟨l, r, e, h'⟩
    exact hn ⟨t, s', ht, h1⟩
  have hact : ∀ {l u}, s.holder l = some u → s.todo u ≠ [] := fun {l u} ho e => by
    have := (hr.inv.own u l).2 ho
    rw [e] at this
    cases this
  have hsome : ∃ t, s.todo t ≠ [] := by
    refine Classical.byContradiction fun h => hb ⟨fun t => Classical.byContradiction fun h' => h ⟨t, h'⟩, fun l => ?_⟩
    cases ho : s.holder l with
    | none => rfl
    | some u => exact absurd ⟨u, hact ho⟩ h
  obtain ⟨l, hl⟩ := deadlock_cycle hr.inv (D := fun t => s.todo t ≠ []) ⟨hsome, fun t ht => by
    obtain ⟨l, r, e, ho⟩ := hstuck t ht
    cases hu : s.holder l with
    | none => exact absurd hu ho
    | some u => exact ⟨l, r, u, e, hu, hact hu⟩⟩
  exact hac l hl

/-- Locks in an order that the callbacks follow: no deadlock. -/
theorem ordered_no_deadlock {W : Program} (rank : Lock → Nat) (h : ∀ l l', Edge W l l' → rank l < rank l') {s : State}
    (hr : Reach W s) : ∃ s', Steps W s s' ∧ Idle s' := by
  refine calls_return_partial (fun l hl => ?_) hr
  have : ∀ {a b}, TransGen (Edge W) a b → rank a < rank b := fun {a b} hab => by
    induction hab with
    | single e => exact h _ _ e
    | tail _ e ih => exact Nat.lt_trans ih (h _ _ e)
  exact Nat.lt_irrefl _ (this hl)

/-- If every pool has at most one range, or callbacks make no calls of the library: no deadlock, whatever pools and sets
the threads use. -/
theorem fixed_pools_no_deadlock {W : Program} (h : ∀ i c, W.grows i → ¬ W.cb i c) {s : State} (hr : Reach W s) :
    ∃ s', Steps W s s' ∧ Idle s' :=
  ordered_no_deadlock (fun _ => 0) (fun _ _ ⟨i, c, _, hg, hc, _⟩ => absurd hc (h i c hg)) hr

/-- Registration and adding to a pool set in a callback: no deadlock. -/
theorem leaf_calls_no_deadlock {W : Program} (h : ∀ i c, W.cb i c → c = .register ∨ ∃ j, c = .setAdd j) {s : State} (hr : Reach W s) :
    ∃ s', Steps W s s' ∧ Idle s' :=
  ordered_no_deadlock (fun l => match l with | .pool _ => 0 | _ => 1) (fun l l' ⟨i, c, e, _, hc, ht⟩ => by
    subst e
    rcases h i c hc with rfl | ⟨j, rfl⟩ <;> cases ht <;> exact Nat.zero_lt_one) hr

/-- F19: a callback that allocates from, or frees to, the pool it initializes blocks the thread that runs it, alone. -/
theorem callback_same_pool {W : Program} {i : Nat} {c : Call} (hg : W.grows i) (hc : W.cb i c) (ht : Takes W c (.pool i)) :
    ∃ s, Reach W s ∧ (∀ u, u ≠ i → s.todo u = []) ∧ Deadlocked s (· = i) := by
  obtain ⟨s0, hr0, h1, h2, h3⟩ := take_all (W := W) [i] fun j hj => by
    rcases List.mem_cons.1 hj with rfl | h
    · exact hg
    · cases h
  obtain ⟨s, hr, g1, g2, g3⟩ := wait_all hr0 h1 h3 (fun j hj => by
    rcases List.mem_cons.1 hj with rfl | h
    · exact ⟨c, _, hc, ht, j, .head _, rfl⟩
    · cases h) [i] fun _ h => h
  refine ⟨s, hr, fun u hu => ?_, ⟨i, rfl⟩, fun t e => ?_⟩
  · have hn : u ∉ [i] := fun h => hu (by simpa using h)
    rw [g3 u hn]
    exact (h2 u hn).1
  · subst e
    obtain ⟨k, r, hk, e⟩ := g2 t (.head _)
    have : k = t := by simpa using hk
    subst this
    exact ⟨.pool k, r, k, e, (g1 _).trans (h1 k (.head _)).2, rfl⟩

/-- Two pools whose callbacks use each other can block two threads. -/
theorem callback_cross {W : Program} {i j : Nat} {c d : Call} (hi : W.grows i) (hj : W.grows j) (hc : W.cb i c) (hd : W.cb j d)
    (htc : Takes W c (.pool j)) (htd : Takes W d (.pool i)) : ∃ s D, Reach W s ∧ Deadlocked s D :=
  (deadlock_iff W).2 ⟨.pool i, .tail (.single ⟨i, c, rfl, hi, hc, htc⟩) ⟨j, d, rfl, hj, hd, htd⟩⟩

/-- Also through a pool set that contains the pool. -/
theorem callback_set {W : Program} {i j : Nat} (hg : W.grows i) (hs : W.inSet j i) (hc : W.cb i (.setMalloc j)) :
    ∃ s, Reach W s ∧ (∀ u, u ≠ i → s.todo u = []) ∧ Deadlocked s (· = i) :=
  callback_same_pool hg hc (.setPool hs)

/-! ### The hypotheses can be met -/

/-- Pool 1 grows, and its callback allocates from pool 0, from set 5, which contains pool 0, and registers. -/
def exProgram : Program where
  cb := fun i c => i = 1 ∧ (c = .malloc 0 ∨ c = .setMalloc 5 ∨ c = .register)
  inSet := fun j i => j = 5 ∧ i = 0
  grows := fun i => i = 0 ∨ i = 1

/-- Another one, with pool 1 in set 5. -/
def exBad : Program := { exProgram with inSet := fun j i => j = 5 ∧ (i = 0 ∨ i = 1) }

theorem exProgram_ordered : ∀ l l', Edge exProgram l l' →
    (match l with | .pool 1 => 0 | _ => 1) < (match l' with | .pool 1 => 0 | _ => 1) := by
  rintro l l' ⟨i, c, rfl, _, ⟨rfl, hc⟩, ht⟩
  rcases hc with rfl | rfl | rfl
  · cases ht; decide
  · cases ht with
    | setMalloc => exact Nat.zero_lt_one
    | setPool h => obtain ⟨_, rfl⟩ := h; decide
  · cases ht; exact Nat.zero_lt_one

/-- A thread of the good program in the middle of the callback, with the lock held. -/
theorem exProgram_busy : ∃ s, Reach exProgram s ∧ s.todo 7 = [.call (.setMalloc 5), .unlock (.pool 1)] ∧
    s.holder (.pool 1) = some 7 := by
  have q1 := (Reach.init (W := exProgram)).step (.start (t := 7) (.malloc 1) rfl)
  have q2 := q1.step (.call (.malloc 1) [] _ (upd_same _ _ _) (.mallocRange 1 (.inr rfl)))
  have q3 := q2.step (.lock (.pool 1) _ (upd_same _ _ _) rfl)
  have q4 := q3.step (.callback 1 [.unlock (.pool 1)] [.setMalloc 5] (upd_same _ _ _) fun c hc => by
    rcases List.mem_cons.1 hc with rfl | h
    · exact ⟨rfl, .inr (.inl rfl)⟩
    · cases h)
  exact ⟨_, q4, rfl, rfl⟩

example : ∃ s s', Reach exProgram s ∧ ¬ Idle s ∧ Steps exProgram s s' ∧ Idle s' := by
  obtain ⟨s, hr, e, _⟩ := exProgram_busy
  obtain ⟨s', h1, h2⟩ := ordered_no_deadlock _ exProgram_ordered hr
  exact ⟨s, s', hr, fun h => (by rw [h.1 7] at e; cases e), h1, h2⟩

example : ∃ s t s', Reach exProgram s ∧ s.todo t ≠ [] ∧ Step exProgram s t s' := by
  obtain ⟨s, hr, e, _⟩ := exProgram_busy
  obtain ⟨t, s', h⟩ := someone_steps_partial ((calls_return_iff exProgram).1 fun s hr => ordered_no_deadlock _ exProgram_ordered hr) hr
    fun h => by rw [h.1 7] at e; cases e
  exact ⟨s, t, s', hr, h⟩

example : ¬ ∃ s D, Reach exProgram s ∧ Deadlocked s D := fun h => by
  obtain ⟨l, hl⟩ := (deadlock_iff _).1 h
  exact (calls_return_iff exProgram).1 (fun s hr => ordered_no_deadlock _ exProgram_ordered hr) l hl

example : ∃ s, Reach exBad s ∧ Deadlocked s (· = 1) ∧ ∀ s', Steps exBad s s' → ¬ Idle s' := by
  obtain ⟨s, hr, _, hd⟩ := callback_set (W := exBad) (i := 1) (j := 5) (.inr rfl) ⟨rfl, .inr rfl⟩ ⟨rfl, .inr (.inl rfl)⟩
  refine ⟨s, hr, hd, fun s' hs hi => ?_⟩
  obtain ⟨⟨_, g⟩, _⟩ := deadlock_lasts hd hs
  obtain ⟨l, r, u, e, _⟩ := g 1 rfl
  rw [hi.1 1] at e
  cases e

example : ∃ s', Steps exProgram { todo := fun _ => [], holder := fun _ => none } s' ∧ Idle s' :=
  calls_return_partial ((calls_return_iff exProgram).1 fun _ hr => ordered_no_deadlock _ exProgram_ordered hr) .init

/-- The callback of pool 1 allocates from a set that contains it: the thread waits for itself, alone. -/
example : ∃ s, Reach exBad s ∧ (∀ u, u ≠ 1 → s.todo u = []) ∧ Deadlocked s (· = 1) :=
  callback_same_pool (W := exBad) (i := 1) (.inr rfl) ⟨rfl, .inr (.inl rfl)⟩ (.setPool ⟨rfl, .inr rfl⟩)

/-- Two pools that allocate from each other; neither uses its own. -/
def exCross : Program where
  cb := fun i c => (i = 0 ∧ c = .malloc 1) ∨ (i = 1 ∧ c = .free 0)
  inSet := fun _ _ => False
  grows := fun _ => True

example : ∃ s D, Reach exCross s ∧ Deadlocked s D :=
  callback_cross (i := 0) (j := 1) trivial trivial (.inl ⟨rfl, rfl⟩) (.inr ⟨rfl, rfl⟩) (.malloc 1) (.free 0)

/-- With one range per pool the same callbacks are harmless. -/
def exFixed : Program := { exCross with grows := fun _ => False }

example : ∀ s, Reach exFixed s → ∃ s', Steps exFixed s s' ∧ Idle s' :=
  fun _ hr => fixed_pools_no_deadlock (W := exFixed) (fun _ _ h => False.elim h) hr

/-- A callback that adds a pool to a set. -/
def exLeaf : Program := { exCross with cb := fun i c => i = 3 ∧ c = .setAdd 2 }

example : ∀ s, Reach exLeaf s → ∃ s', Steps exLeaf s s' ∧ Idle s' :=
  fun _ hr => leaf_calls_no_deadlock (W := exLeaf) (fun _ _ h => .inr ⟨2, h.2⟩) hr

end Verif.Locks
