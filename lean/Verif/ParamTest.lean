/-
C90: the progress report in the loops of tests/param_test.c:479-488 and :587-602, for the numbers of repetitions
that the option `-r` accepts (:1811-1820: `opt_reps = atoll(argv[i + 1]); if (opt_reps < 0) goto error`).
-/

namespace Verif.ParamTest

/-- `i != 0 && !(i % (reps / 10))` (:484, :598), on `long long`. `none`: undefined behaviour, a division by zero
(C11 6.5.5). -/
def report (i reps : Int) : Option Bool :=
  if i = 0 then some false
  else if reps.tdiv 10 = 0 then none
  else some (decide (i.tmod (reps.tdiv 10) = 0))

/-- `for (i = 0; i < reps; i++) { ...; report }`: whether each iteration is reported. `none`: some iteration is
undefined. -/
def reports (reps : Nat) : Option (List Bool) := (List.range reps).mapM fun i => report (Int.ofNat i) reps

theorem report_none {i reps : Nat} : report i reps = none ↔ i ≠ 0 ∧ reps < 10 := by
  have h : (reps : Int).tdiv 10 = ((reps / 10 : Nat) : Int) := rfl
  unfold report
  rw [h]
  split
  · next h1 => simp; omega
  · next h1 =>
    split
    · next h2 => simp; omega
    · next h2 => simp; omega

theorem mapM_none {α β : Type} {f : α → Option β} {l : List α} : l.mapM f = none ↔ ∃ x ∈ l, f x = none := by
  induction l with
  | nil => simp
  | cons x l ih =>
    rw [List.mapM_cons]
    cases hx : f x with
    | none => simp [hx]
    | some y =>
      cases hl : l.mapM f with
      | none =>
        obtain ⟨z, hz, e⟩ := ih.1 hl
        exact ⟨fun _ => ⟨z, .tail _ hz, e⟩, fun _ => by simp [hl]⟩
      | some ys =>
        refine ⟨fun h => by simp [hl] at h, ?_⟩
        rintro ⟨z, hz, e⟩
        rcases List.mem_cons.1 hz with rfl | hz
        · rw [hx] at e; cases e
        · rw [ih.2 ⟨z, hz, e⟩] at hl; cases hl

/-- The loop divides by zero exactly for 2 to 9 repetitions (F39). -/
theorem reports_undefined (reps : Nat) : reports reps = none ↔ 2 ≤ reps ∧ reps ≤ 9 := by
  unfold reports
  rw [mapM_none]
  constructor
  · rintro ⟨i, hi, h⟩
    have := List.mem_range.1 hi
    have := report_none.1 h
    omega
  · intro h
    exact ⟨1, List.mem_range.2 (by omega), report_none.2 ⟨by decide, by omega⟩⟩

/-- With no or one repetition, or at least 10, it is defined. -/
theorem reports_defined_partial (reps : Nat) (h : reps < 2 ∨ 10 ≤ reps) : ∃ l, reports reps = some l := by
  cases e : reports reps with
  | some l => exact ⟨l, rfl⟩
  | none =>
    have := (reports_undefined reps).1 e
    omega

example : reports 5 = none := (reports_undefined 5).2 (by decide)

example : ∃ l, reports 5000 = some l := reports_defined_partial 5000 (by decide)

end Verif.ParamTest
