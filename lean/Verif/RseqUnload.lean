import Verif.RseqCtl
import Verif.RseqClient
/-
Unloading a library that contains critical sections: `rseq_prepare_unload()`, rseq.h:217-237.

The machine of `RseqConc` with sites that can go away (dlclose, JIT code reclaimed) and come (dlopen).  While the
descriptor or the code of a site is unmapped, the kernel must not find the address of its descriptor in the
`rseq_cs` field of a registered thread when it resumes the thread or delivers a signal: it would kill the thread, or
take whatever is mapped there for a descriptor.  Unregistered threads are included, because they may register later
(`Step.register` leaves `rseq_cs` alone, as older
kernels do).
-/

namespace Verif.Rseq

variable {n : Nat}

/-- Machine state, the sites whose descriptor and code are not mapped, and the steps so far, latest first. -/
structure UState (n : Nat) where
  s : State n
  gone : Nat → Prop
  hist : List (Ev n)

/-- In this step thread `t` executes an instruction of a site in `L`. -/
def Ev.Runs (e : Ev n) (t : Nat) (L : Nat → Prop) : Prop :=
  e.who = t ∧ e.lab = .exec ∧ ∃ f, (e.s.th t).top = some f ∧ L f.pid

/-- rseq.h:218-226: `t` has called `rseq_prepare_unload()` since its last critical section of `L`, if it ever
executed one. -/
def Prepared (t : Nat) (L : Nat → Prop) (h : List (Ev n)) : Prop :=
  (∃ h1 e h2, h = h1 ++ e :: h2 ∧ e.who = t ∧ e.lab = .clear ∧ ∀ e' ∈ h1, ¬ e'.Runs t L) ∨
  ∀ e ∈ h, ¬ e.Runs t L

/-- No call in progress of the thread is at a site in `L`. -/
def Outside (x : Thread n) (L : Nat → Prop) : Prop := ∀ d f, frameAt x d = some f → ¬ L f.pid

/-- Steps: those of `RseqConc`, where only mapped code is called; unloading and loading. -/
inductive UStep (T : Nat → Site n) (u : UState n) : UState n → Prop
  | run {t : Nat} {lab : Lab n} {s' : State n} (hs : Step T u.s t lab s')
      (hc : ∀ f, lab = .invoke f → ¬ u.gone f.pid) :
      UStep T u ⟨s', u.gone, ⟨u.s, t, lab, s'⟩ :: u.hist⟩
  | unload (L : Nat → Prop) (ho : ∀ t, Outside (u.s.th t) L) (hp : ∀ t, Prepared t L u.hist) :
      UStep T u ⟨u.s, fun i => u.gone i ∨ L i, u.hist⟩
  | load (L : Nat → Prop) : UStep T u ⟨u.s, fun i => u.gone i ∧ ¬ L i, u.hist⟩

/-- Reachable states; at the beginning every site is mapped or not. -/
inductive UReach (T : Nat → Site n) (m0 : Mem n) (g0 : Nat → Prop) : UState n → Prop
  | init : UReach T m0 g0 ⟨{ mem := m0, th := fun _ => thread0 }, g0, []⟩
  | step {u u' : UState n} (h : UReach T m0 g0 u) (hs : UStep T u u') : UReach T m0 g0 u'

variable {T : Nat → Site n} {m0 : Mem n} {g0 : Nat → Prop}

/-- A `rseq_cs` that is not null was stored by the last section since the last clearing. -/
theorem UReach.cs {u : UState n} (h : UReach T m0 g0 u) {t i : Nat} (hc : (u.s.th t).cs = some i) :
    ∃ h1 e h2, u.hist = h1 ++ e :: h2 ∧ e.Runs t (· = i) ∧
      ∀ e' ∈ h1, e'.who = t → e'.lab ≠ .clear := by
  induction h with
  | init => cases hc
  | @step u u' h hs ih =>
    cases hs with
    | unload => exact ih hc
    | load => exact ih hc
    | @run w lab s' hs =>
      dsimp only at hc ⊢
      have old : (u.s.th t).cs = some i → (w = t → lab ≠ .clear) →
          ∃ h1 e h2, (⟨u.s, w, lab, s'⟩ :: u.hist : List (Ev n)) = h1 ++ e :: h2 ∧ e.Runs t (· = i) ∧
            ∀ e' ∈ h1, e'.who = t → e'.lab ≠ .clear := by
        intro h1 h2
        obtain ⟨l1, e, l2, g1, g2, g3⟩ := ih h1
        refine ⟨⟨u.s, w, lab, s'⟩ :: l1, e, l2, by rw [g1]; rfl, g2, ?_⟩
        intro e' he
        rcases List.mem_cons.1 he with rfl | he
        · exact h2
        · exact g3 e' he
      by_cases hw : w = t
      · subst hw
        cases hs with
        | exec f j ins l' m' hr ht hp hcd he =>
          dsimp only at hc
          rw [updT_same] at hc
          dsimp only at hc
          by_cases hi : isCs ins = true
          · rw [if_pos hi] at hc
            injection hc with hc
            exact ⟨[], _, _, rfl, ⟨rfl, rfl, f, ht, hc⟩, by simp⟩
          · rw [if_neg hi] at hc
            exact old hc (by simp)
        | clear => simp [State.set, upd] at hc
        | resume =>
          simp only [State.set, updT_same, fixCs] at hc
          split at hc
          · cases hc
          · exact old hc (by simp)
        | signal =>
          simp only [State.set, updT_same, fixCs] at hc
          split at hc
          · cases hc
          · exact old hc (by simp)
        | user => exact old hc (by simp)
        | _ =>
          simp only [State.set, updT_same] at hc
          exact old hc (by simp)
      · rw [hs.other hw] at hc
        exact old hc (fun e => absurd e hw)

/-- The obligation does what it is for. -/
theorem UReach.prepared {u : UState n} (h : UReach T m0 g0 u) {t i : Nat} (hc : (u.s.th t).cs = some i)
    {L : Nat → Prop} (hp : Prepared t L u.hist) : ¬ L i := by
  intro hL
  obtain ⟨h1, e, h2, g1, ⟨r1, r2, f, r3, r4⟩, g3⟩ := h.cs hc
  have hr : e.Runs t L := ⟨r1, r2, f, r3, by rw [r4]; exact hL⟩
  rcases hp with ⟨k1, c, k2, p1, p2, p3, p4⟩ | hp
  · rw [g1] at p1
    rcases List.append_eq_append_iff.1 p1 with ⟨l, q1, q2⟩ | ⟨l, q1, q2⟩
    · cases l with
      | nil =>
        simp only [List.nil_append, List.cons.injEq] at q2
        rw [q2.1] at r2; rw [p3] at r2; cases r2
      | cons x l =>
        simp only [List.cons_append, List.cons.injEq] at q2
        exact p4 e (by rw [q1, q2.1]; simp) hr
    · cases l with
      | nil =>
        simp only [List.nil_append, List.cons.injEq] at q2
        rw [← q2.1, p3] at r2; cases r2
      | cons x l =>
        simp only [List.cons_append, List.cons.injEq] at q2
        exact g3 c (by rw [q1, q2.1]; simp) p2 p3
  · exact hp e (by rw [g1]; simp) hr

theorem UReach.frames {u : UState n} (h : UReach T m0 g0 u) : ∀ t, Outside (u.s.th t) u.gone := by
  induction h with
  | init => intro t d f hf; simp [frameAt, thread0] at hf
  | @step u u' h hs ih =>
    cases hs with
    | unload L ho hp =>
      intro t d f hf hg
      rcases hg with hg | hg
      · exact ih t d f hf hg
      · exact ho t d f hf hg
    | load L => exact fun t d f hf hg => ih t d f hf hg.1
    | @run w lab s' hs hc =>
      intro t d f hf
      by_cases hw : w = t
      · subst hw
        rcases frameAt_step hs d f hf with ⟨e, -⟩ | ⟨g, h1, h2, -⟩
        · exact hc f e
        · rw [h2]; exact ih w d g h1
      · rw [hs.other hw] at hf
        exact ih t d f hf

/-- `rseq_cs` of the threads and code that is not mapped.  A site that was never executed cannot be in
`rseq_cs`, so also sites absent from the beginning are safe. -/
theorem UReach.mapped {u : UState n} (h : UReach T m0 g0 u) :
    ∀ t i, (u.s.th t).cs = some i → ¬ u.gone i := by
  induction h with
  | init => intro t i hc; cases hc
  | @step u u' h hs ih =>
    cases hs with
    | unload L ho hp =>
      intro t i hc hg
      rcases hg with hg | hg
      · exact ih t i hc hg
      · exact h.prepared hc (hp t) hg
    | load L => exact fun t i hc hg => ih t i hc hg.1
    | @run w lab s' hs hc' =>
      intro t i hc
      dsimp only at hc ⊢
      by_cases hw : w = t
      · subst hw
        cases hs with
        | exec f j ins l' m' hr ht hp hcd he =>
          dsimp only at hc
          rw [updT_same] at hc
          dsimp only at hc
          by_cases hi : isCs ins = true
          · rw [if_pos hi] at hc
            injection hc with hc
            subst hc
            exact h.frames w _ f (by rw [frameAt_top rfl]; exact ht)
          · rw [if_neg hi] at hc
            exact ih w i hc
        | clear => simp [State.set, upd] at hc
        | resume =>
          simp only [State.set, updT_same, fixCs] at hc
          split at hc
          · cases hc
          · exact ih w i hc
        | signal =>
          simp only [State.set, updT_same, fixCs] at hc
          split at hc
          · cases hc
          · exact ih w i hc
        | user => exact ih w i hc
        | _ =>
          simp only [State.set, updT_same] at hc
          exact ih w i hc
      · rw [hs.other hw] at hc
        exact ih t i hc

/-- A thread that never got a CPU has executed nothing. -/
theorem UReach.idle {u : UState n} (h : UReach T m0 g0 u) (t : Nat) (hev : (u.s.th t).ev = 0) :
    (u.s.th t).run = false ∧ ∀ e ∈ u.hist, e.who = t → e.lab ≠ .exec := by
  induction h with
  | init => exact ⟨rfl, by simp⟩
  | @step u u' h hs ih =>
    cases hs with
    | unload => exact ih hev
    | load => exact ih hev
    | @run w lab s' hs hc =>
      dsimp only at hev ⊢
      by_cases hw : w = t
      · subst hw
        cases hs with
        | exec f j ins l' m' hr ht hp hcd he =>
          dsimp only at hev
          rw [updT_same] at hev
          have := (ih hev).1
          rw [hr] at this; cases this
        | resume => simp [State.set, upd] at hev
        | signal => simp [State.set, upd] at hev
        | user m' hr ht =>
          have := (ih hev).1
          rw [hr] at this; cases this
        | _ =>
          simp only [State.set, updT_same] at hev
          obtain ⟨h1, h2⟩ := ih hev
          simp_all
      · rw [hs.other hw] at hev ⊢
        obtain ⟨h1, h2⟩ := ih hev
        refine ⟨h1, fun e he hwho => ?_⟩
        rcases List.mem_cons.1 he with rfl | he
        · exact absurd hwho hw
        · exact h2 e he hwho

/-- Executions without unloading are those of `RseqConc`. -/
theorem AnyReach.unloaded {s : State n} (h : AnyReach T m0 s) :
    ∃ hist, UReach T m0 (fun _ => False) ⟨s, fun _ => False, hist⟩ := by
  induction h with
  | init => exact ⟨[], .init⟩
  | step _ hs ih =>
    obtain ⟨hist, hu⟩ := ih
    exact ⟨_, hu.step (.run hs fun _ _ h => h)⟩

end Verif.Rseq
