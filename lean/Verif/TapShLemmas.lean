import Verif.TapSh
import Verif.TapLemmas
/-
Lemmas about runs of run_param_test.tap.
-/

namespace Verif.Tap

open Verif.Smp (Str decimal)

/-! ### Specification -/

/-- What the exit status `st` of a program means for its test. -/
def Exe.check (e : Exe) (st : Nat) : Check :=
  match e with
  | .param | .twice => .plain (decide (st = 0))
  | .mmCid | .mmCidTwice => if st = 2 then .skipped else .plain (decide (st = 0))

/-- The checks of a list of runs, of which the first has number `k`. -/
def runChecks (ex : Nat → Nat) : Nat → List (Exe × List Str) → List Check
  | _, [] => []
  | k, r :: rs => r.1.check (ex k) :: runChecks ex (k + 1) rs

/-- Each of the configurations, each of the tests, each of the programs. -/
def allRuns (v : Version) (last : List Str) : List (Exe × List Str) :=
  allArgs.flatMap fun a => v.tests.flatMap fun t => v.exes.map fun e => (e, t ++ a ++ last)

theorem runChecks_append (ex : Nat → Nat) (k : Nat) (a b : List (Exe × List Str)) :
    runChecks ex k (a ++ b) = runChecks ex k a ++ runChecks ex (k + a.length) b := by
  induction a generalizing k with
  | nil => simp [runChecks]
  | cons c a ih => simp [runChecks, ih, Nat.add_assoc, Nat.add_comm 1]

theorem runChecks_length (ex : Nat → Nat) (k : Nat) (a : List (Exe × List Str)) :
    (runChecks ex k a).length = a.length := by
  induction a generalizing k with
  | nil => rfl
  | cons c a ih => simp [runChecks, ih]

/-! ### The state after a list of runs -/

/-- The state after the runs `rs`, with a plan of `n`. -/
def after (ex : Nat → Nat) (n : Nat) (rs : List (Exe × List Str)) : Script where
  sh := {
    planSet := true
    expected := n
    executed := rs.length
    failed := (runChecks ex 0 rs).countP Check.bad
    out := .plan n :: lines 0 (runChecks ex 0 rs) }
  runs := rs

variable {ex : Nat → Nat} {nthreads : Nat} {extra : List Str}

theorem runOne_after (n : Nat) (rs : List (Exe × List Str)) (args : List Str) (e : Exe) :
    runOne ex nthreads extra (after ex n rs) args e =
      .run (after ex n (rs ++ [(e, args ++ lastArgs nthreads extra)])) := by
  have hl := runChecks_length ex 0 rs
  have hp : ∀ b : Bool, (Exe.check e (ex rs.length) = .plain b) →
      lib ⟨(after ex n rs).sh, rs ++ [(e, args ++ lastArgs nthreads extra)]⟩
        (·.ok (if b then 0 else ex rs.length)) = .run (after ex n (rs ++ [(e, args ++ lastArgs nthreads extra)])) ∨
        (b = false ∧ ex rs.length = 0) := by
    intro b hb
    by_cases h0 : b = false ∧ ex rs.length = 0
    · exact .inr h0
    · left
      cases b with
      | true =>
        simp [lib, Sh.ok, after, runChecks_append, lines_append, runChecks, lines, hb, hl, Check.line, Check.bad,
          List.countP_append]
      | false =>
        have h1 : ex rs.length ≠ 0 := fun h => h0 ⟨rfl, h⟩
        simp [lib, Sh.ok, after, runChecks_append, lines_append, runChecks, lines, hb, hl, Check.line, Check.bad,
          List.countP_append, h1]
  by_cases h0 : ex rs.length = 0
  · have hb : Exe.check e (ex rs.length) = .plain true := by cases e <;> simp [Exe.check, h0]
    rcases hp true hb with h | h
    · cases e <;> simp [runOne, runExe, Sh.skip, after, h0] <;> simpa [after] using h
    · cases h.1
  · by_cases h2 : ex rs.length = 2 ∧ (e = .mmCid ∨ e = .mmCidTwice)
    · obtain ⟨h2, he⟩ := h2
      rcases he with rfl | rfl <;>
        simp [runOne, runExe, Sh.skip, Sh.skipLoop, after, h2, runChecks_append, lines_append, runChecks, lines, hl,
          Exe.check, Check.line, Check.bad, List.countP_append]
    · have hb : Exe.check e (ex rs.length) = .plain false := by
        cases e <;> simp [Exe.check, h0]
        · intro h; exact h2 ⟨h, .inl rfl⟩
        · intro h; exact h2 ⟨h, .inr rfl⟩
      rcases hp false hb with h | h
      · have h3 : (e = .mmCid ∨ e = .mmCidTwice) → ¬ ex rs.length = 2 := fun he h => h2 ⟨h, he⟩
        cases e <;> simp at h3 <;> simp [runOne, runExe, Sh.skip, after, h3] <;> simpa [after] using h
      · exact absurd h.2 h0

theorem doTest_after (v : Version) (n : Nat) (rs : List (Exe × List Str)) (args : List Str) :
    doTest ex nthreads extra v (after ex n rs) args =
      .run (after ex n (rs ++ v.exes.map fun e => (e, args ++ lastArgs nthreads extra))) := by
  unfold doTest
  generalize v.exes = es
  induction es generalizing rs with
  | nil => simp
  | cons e es ih =>
    rw [List.foldl_cons]
    show List.foldl _ (runOne ex nthreads extra (after ex n rs) args e) es = _
    rw [runOne_after, ih]
    simp

theorem doTests_after (v : Version) (n : Nat) (rs : List (Exe × List Str)) (args : List Str) :
    doTests ex nthreads extra v (after ex n rs) args =
      .run (after ex n (rs ++ v.tests.flatMap fun t => v.exes.map fun e => (e, t ++ args ++ lastArgs nthreads extra))) := by
  unfold doTests
  generalize v.tests = ts
  induction ts generalizing rs with
  | nil => simp
  | cons t ts ih =>
    rw [List.foldl_cons]
    show List.foldl _ (doTest ex nthreads extra v (after ex n rs) (t ++ args)) ts = _
    rw [doTest_after, ih]
    simp

theorem script_after (v : Version) (check : Nat) (hc : check ≠ 2) (hp : v.plan ≠ 0) :
    script ex nthreads extra v check = .run (after ex v.plan (allRuns v (lastArgs nthreads extra))) := by
  have h0 : lib {} (·.planTests v.plan) = .run (after ex v.plan []) := by
    simp [lib, Sh.planTests, hp, after, runChecks, lines]
  unfold script allRuns
  generalize allArgs = as
  rw [if_neg hc, h0]
  show List.foldl _ (ScOut.run (after ex v.plan [])) as = _
  have : ∀ rs : List (Exe × List Str),
      List.foldl (fun (x : ScOut) a => x.bind fun s => doTests ex nthreads extra v s a) (ScOut.run (after ex v.plan rs)) as =
        ScOut.run (after ex v.plan (rs ++ as.flatMap fun a => v.tests.flatMap fun t =>
          v.exes.map fun e => (e, t ++ a ++ lastArgs nthreads extra))) := by
    induction as with
    | nil => simp
    | cons a as ih =>
      intro rs
      rw [List.foldl_cons]
      show List.foldl _ (doTests ex nthreads extra v (after ex v.plan rs) a) as = _
      rw [doTests_after, ih]
      simp
  simpa using this []

theorem allRuns_length (v : Version) (last : List Str) : (allRuns v last).length = 37 * (v.tests.length * v.exes.length) := by
  have h1 : ∀ (ts : List (List Str)) (a : List Str),
      (ts.flatMap fun t => v.exes.map fun e => (e, t ++ a ++ last)).length = ts.length * v.exes.length := by
    intro ts a
    induction ts with
    | nil => simp
    | cons t ts ih =>
      rw [List.flatMap_cons, List.length_append, ih, List.length_map, List.length_cons, Nat.add_one_mul, Nat.add_comm]
  have h2 : ∀ as : List (List Str),
      (as.flatMap fun a => v.tests.flatMap fun t => v.exes.map fun e => (e, t ++ a ++ last)).length =
        as.length * (v.tests.length * v.exes.length) := by
    intro as
    induction as with
    | nil => simp
    | cons a as ih =>
      rw [List.flatMap_cons, List.length_append, ih, h1, List.length_cons, Nat.add_one_mul, Nat.add_comm]
  exact h2 allArgs

/-! ### What the driver makes of it -/

theorem plan_lines_success (n : Nat) (hn : n ≠ 0) (cs : List Check) (code : Nat) :
    Success (verdict (.plan (n : Int) :: lines 0 cs) code) ↔ cs.length = n ∧ (∀ c ∈ cs, c.good = true) ∧ code = 0 := by
  have hd : see {} (.plan (n : Int)) = { planned := n, seen := .early } := by
    have h1 : ¬ (n : Int) < 0 := by omega
    simp only [see, if_neg h1]
    simp [seePlan, hn]
  unfold verdict
  rw [List.foldl_cons, hd, success_iff]
  obtain ⟨c1, c2, c3⟩ := foldl_lines_count 0 cs { planned := n, seen := .early }
  by_cases hl : cs.length = n
  · have hf := foldl_lines cs { planned := n, seen := .early } (by simp) (by intro _; simp [hl])
    simp only at hf
    rw [hf]
    by_cases h0 : code = 0
    · subst h0
      simp [finish, hl]
      simpa using map_res_good cs
    · simp [finish, hl, h0]
  · constructor
    · rintro ⟨e1, -, -⟩
      exfalso
      apply e1
      unfold finish
      rw [c1, c2, c3]
      simp only [List.mem_append]
      left; right
      simp
      omega
    · rintro ⟨h, -⟩; exact absurd h hl

end Verif.Tap
