import Verif.RegInit
/-
C44: initialisation happens once and is visible.
-/
namespace Verif.Register.Init

/-- C44: under every interleaving of any number of threads the initialisation body runs at most once, and it has run once
before any thread gets out of `rseq_init`. -/
theorem init_exactly_once {s : Mach} (h : Reach s) : s.runs ≤ 1 ∧ ((∃ t, s.pc t = .done) → s.runs = 1) := by
  have hi := reach_inv h
  refine ⟨?_, ?_⟩
  · by_cases hf : s.flag = none
    · by_cases hb : ∃ t i, s.pc t = .body i
      · obtain ⟨t, i, hb⟩ := hb
        rw [hi.runs2 t i hb]
        omega
      · rw [hi.runs0 hf fun t i hh => hb ⟨t, i, hh⟩]
        omega
    · rw [hi.runs1 hf]
      omega
  · rintro ⟨t, ht⟩
    exact hi.runs1 (hi.doneView t ht).1

/-- C44: a thread that has returned from `rseq_init` can only read the initialised values of all four variables, on any
later load. -/
theorem init_visible {s : Mach} (h : Reach s) (t : Nat) (ht : s.pc t = .done) (i : Nat) (hi : i < 4) :
    ¬ MayReadOld s t i ∧ MayReadNew s t i := by
  have hv := reach_inv h
  obtain ⟨h1, h2⟩ := hv.doneView t ht
  unfold MayReadOld MayReadNew
  have := hv.flagWritten h1
  omega

/-- At most one thread is in the critical section of the initialisation. -/
theorem init_mutex {s : Mach} (h : Reach s) (t u : Nat) (i j : Nat) (h1 : s.pc t = .body i) (h2 : s.pc u = .body j) : t = u := by
  have hv := reach_inv h
  have a1 := (hv.ownerIff t).2 (Or.inr (Or.inl ⟨i, h1⟩))
  have a2 := (hv.ownerIff u).2 (Or.inr (Or.inl ⟨j, h2⟩))
  rw [a1] at a2
  exact Option.some.inj a2

/-- Without the acquire ordering the second half would fail: a thread that has not synchronised may read stale values even
after initialisation finished. -/
theorem unsynchronised_may_be_stale : ∃ s, Reach s ∧ s.flag ≠ none ∧ s.pc 2 = .outside ∧ MayReadOld s 2 0 ∧
    s.pc 0 = .done ∧ s.pc 1 = .done := by
  have h0 : Reach _ := .init
  have h1 := Reach.step _ _ h0 (.slow _ 0 rfl)
  have h2 := Reach.step _ _ h1 (.slow _ 1 rfl)
  have h3 := Reach.step _ _ h2 (.lock _ 0 rfl rfl)
  have h4 := Reach.step _ _ h3 (.start _ 0 rfl rfl)
  have h5 := Reach.step _ _ h4 (.store _ 0 0 rfl (by decide))
  have h6 := Reach.step _ _ h5 (.store _ 0 1 rfl (by decide))
  have h7 := Reach.step _ _ h6 (.store _ 0 2 rfl (by decide))
  have h8 := Reach.step _ _ h7 (.store _ 0 3 rfl (by decide))
  have h9 := Reach.step _ _ h8 (.release _ 0 rfl)
  have h10 := Reach.step _ _ h9 (.unlock _ 0 rfl)
  have h11 := Reach.step _ _ h10 (.lock _ 1 rfl rfl)
  have h12 := Reach.step _ _ h11 (.again _ 1 4 rfl rfl)
  have h13 := Reach.step _ _ h12 (.unlock _ 1 rfl)
  exact ⟨_, h13, by simp, rfl, Nat.le_refl _, rfl, rfl⟩

/-- C44 hypotheses: thread 2 then returns through the fast path while threads 0 and 1 went through the mutex. -/
example : ∃ s, Reach s ∧ s.pc 2 = .done ∧ s.pc 0 = .done ∧ s.pc 1 = .done := by
  obtain ⟨s, h, hf, h2, _, h0, h1⟩ := unsynchronised_may_be_stale
  cases hv : s.flag with
  | none => exact absurd hv hf
  | some v =>
    refine ⟨_, .step _ _ h (.fast s 2 v (Or.inl h2) hv), by simp [upd], ?_, ?_⟩
    · show upd s.pc 2 .done 0 = .done
      simp [upd, h0]
    · show upd s.pc 2 .done 1 = .done
      simp [upd, h1]

end Verif.Register.Init
