import Verif.TapShLemmas
import Verif.TapDriver
/-
What tests/run_param_test.tap and tests/run_param_test_cxx.tap run and report.
-/

namespace Verif.Tap

open Verif.Smp (Str decimal)

variable (ex : Nat → Nat) (nthreads : Nat) (extra : List Str)

theorem version_plan {v : Version} (hv : v ∈ [versionC, versionCxx]) :
    v.plan ≠ 0 ∧ v.plan = 37 * (v.tests.length * v.exes.length) := by
  simp only [List.mem_cons, List.not_mem_nil, or_false] at hv
  rcases hv with rfl | rfl
  · decide
  · decide

theorem runScript_eq {v : Version} (hv : v ∈ [versionC, versionCxx]) (check : Nat) (hc : check ≠ 2) :
    runScript ex nthreads extra v check =
      ((runChecks ex 0 (allRuns v (lastArgs nthreads extra))).countP Check.bad % 256,
        .plan v.plan :: lines 0 (runChecks ex 0 (allRuns v (lastArgs nthreads extra))),
        allRuns v (lastArgs nthreads extra)) := by
  obtain ⟨h1, h2⟩ := version_plan hv
  have hl : (allRuns v (lastArgs nthreads extra)).length = v.plan := by rw [allRuns_length, h2]
  unfold runScript
  rw [script_after v check hc h1]
  simp only [Sh.exit, Sh.exitStatus, Sh.cleanup, after, hl, Option.getD_none]
  simp

/-- **C99.** Each program is run once with each of the eight (seven) tests in each of the 37 configurations, and
the plan announces exactly that many tests, whatever the programs do. -/
theorem param_script_runs {v : Version} (hv : v ∈ [versionC, versionCxx]) (check : Nat) (hc : check ≠ 2) :
    (runScript ex nthreads extra v check).2.2 =
      (allArgs.flatMap fun a => v.tests.flatMap fun t => v.exes.map fun e => (e, t ++ a ++ lastArgs nthreads extra)) ∧
    (runScript ex nthreads extra v check).2.2.length = v.plan ∧
    (runScript ex nthreads extra v check).2.1.head? = some (.plan v.plan) ∧
    (runScript ex nthreads extra v check).2.1.length = v.plan + 1 := by
  rw [runScript_eq ex nthreads extra hv check hc]
  obtain ⟨h1, h2⟩ := version_plan hv
  have hl : (allRuns v (lastArgs nthreads extra)).length = v.plan := by rw [allRuns_length, h2]
  refine ⟨rfl, hl, rfl, ?_⟩
  have hlines : ∀ (k : Nat) (cs : List Check), (lines k cs).length = cs.length := by
    intro k cs
    induction cs generalizing k with
    | nil => rfl
    | cons c cs ih => simp [lines, ih]
  rw [List.length_cons, hlines, runChecks_length, hl]

/-- The status a run may end with: 0, and 2 ("not available") for the programs that use concurrency IDs. -/
def Accepted (e : Exe) (st : Nat) : Prop := st = 0 ∨ (st = 2 ∧ (e = .mmCid ∨ e = .mmCidTwice))

theorem check_good (e : Exe) (st : Nat) : (e.check st).good = true ↔ Accepted e st := by
  unfold Accepted
  cases e <;> simp only [Exe.check]
  · simp [Check.good]
  · simp [Check.good]
  · by_cases h : st = 2 <;> simp [h, Check.good]
  · by_cases h : st = 2 <;> simp [h, Check.good]

theorem runChecks_good (k : Nat) (rs : List (Exe × List Str)) :
    (∀ c ∈ runChecks ex k rs, c.good = true) ↔ ∀ i r, rs[i]? = some r → Accepted r.1 (ex (k + i)) := by
  induction rs generalizing k with
  | nil => simp [runChecks]
  | cons r rs ih =>
    simp only [runChecks, List.mem_cons, forall_eq_or_imp, check_good, ih]
    constructor
    · rintro ⟨h1, h2⟩ i r' hi
      cases i with
      | zero =>
        simp only [List.getElem?_cons_zero, Option.some.injEq] at hi
        subst hi; exact h1
      | succ i =>
        have := h2 i r' (by simpa using hi)
        rwa [show k + 1 + i = k + (i + 1) by omega] at this
    · intro h
      refine ⟨h 0 r rfl, fun i r' hi => ?_⟩
      have := h (i + 1) r' (by simpa using hi)
      rwa [show k + 1 + i = k + (i + 1) by omega]

theorem good_not_bad (cs : List Check) (h : ∀ c ∈ cs, c.good = true) : cs.countP Check.bad = 0 := by
  rw [List.countP_eq_zero]
  intro c hc hb
  have := h c hc
  cases c <;> simp_all [Check.good, Check.bad]

/-- **C99.** The driver accepts the script exactly if every run of a program ended with a status that it may end
with. -/
theorem param_script_success {v : Version} (hv : v ∈ [versionC, versionCxx]) (check : Nat) (hc : check ≠ 2)
    (code : Nat) (ls : List Line) (rs : List (Exe × List Str))
    (h : runScript ex nthreads extra v check = (code, ls, rs)) :
    Success (verdict ls code) ↔ ∀ i r, rs[i]? = some r → Accepted r.1 (ex i) := by
  rw [runScript_eq ex nthreads extra hv check hc] at h
  obtain ⟨h1, h2⟩ := version_plan hv
  have hl : (allRuns v (lastArgs nthreads extra)).length = v.plan := by rw [allRuns_length, h2]
  injection h with e1 e2
  injection e2 with e2 e3
  subst e1 e2 e3
  rw [plan_lines_success v.plan h1, runChecks_length, runChecks_good]
  simp only [Nat.zero_add]
  constructor
  · rintro ⟨-, h, -⟩; exact h
  · intro h
    refine ⟨hl, h, ?_⟩
    rw [good_not_bad _ ((runChecks_good ex 0 _).2 (by simpa using h))]

/-- **C99.** Without the system call no program is run and the driver reports a skip. -/
theorem param_script_skipped (v : Version) :
    ∃ ls, runScript ex nthreads extra v 2 = (0, ls, []) ∧ verdict ls 0 = .skip :=
  ⟨[.skipPlan], by simp [runScript, script, lib, Sh.planSkipAll, ScOut.bind, Sh.exit, Sh.cleanup], by decide⟩

/-- **C99, the exit status alone.** It is the number of failed runs modulo 256. -/
theorem param_script_exit_code {v : Version} (hv : v ∈ [versionC, versionCxx]) (check : Nat) (hc : check ≠ 2) :
    ∃ bad, bad = ((runScript ex nthreads extra v check).2.1.filter fun
        | .result ok _ _ => !ok
        | _ => false).length ∧
      (runScript ex nthreads extra v check).1 = bad % 256 := by
  rw [runScript_eq ex nthreads extra hv check hc]
  refine ⟨_, rfl, ?_⟩
  generalize hcs : runChecks ex 0 (allRuns v (lastArgs nthreads extra)) = cs
  have hp : ∀ c ∈ cs, ∀ b, c ≠ .todo b := by
    rw [← hcs]
    generalize allRuns v (lastArgs nthreads extra) = rs
    generalize 0 = k
    induction rs generalizing k with
    | nil => simp [runChecks]
    | cons r rs ih =>
      intro c hc b hb
      simp only [runChecks, List.mem_cons] at hc
      rcases hc with hc | hc
      · rw [hc] at hb
        revert hb
        cases r.1 <;> simp only [Exe.check] <;> first | (intro h; cases h) | (split <;> (intro h; cases h))
      · exact ih _ c hc b hb
  clear hcs
  show cs.countP Check.bad % 256 = _ % 256
  congr 1
  dsimp only
  rw [List.filter_cons_of_neg (by simp)]
  generalize 0 = k
  induction cs generalizing k with
  | nil => rfl
  | cons c cs ih =>
    have ih' := ih (fun c hc => hp c (List.mem_cons_of_mem _ hc)) (k + 1)
    rw [List.countP_cons, lines, List.filter_cons, ih']
    cases c with
    | plain ok => cases ok <;> simp [Check.line, Check.bad]
    | todo ok => exact absurd rfl (hp (.todo ok) (by simp) ok)
    | skipped => simp [Check.line, Check.bad]

theorem runChecks_bad (k n : Nat) (rs : List (Exe × List Str)) (h : n ≤ rs.length) :
    (runChecks (fun i => if i < k + n then 1 else 0) k rs).countP Check.bad = n := by
  induction rs generalizing k n with
  | nil => simp at h; subst h; rfl
  | cons r rs ih =>
    cases n with
    | zero =>
      have := ih (k + 1) 0 (by simp)
      have hz : ∀ (m : Nat), (fun i => if i < k + 0 then 1 else 0) (k + m) = (0 : Nat) := by
        intro m; show (if k + m < k + 0 then 1 else 0) = 0; rw [if_neg (by omega)]
      rw [good_not_bad]
      rw [runChecks_good]
      intro i r _
      left
      exact hz i
    | succ n =>
      simp only [runChecks, List.countP_cons]
      have h1 : (if k < k + (n + 1) then 1 else 0) = 1 := by rw [if_pos (by omega)]
      have e : (fun i => if i < k + (n + 1) then 1 else 0) = fun i => if i < k + 1 + n then 1 else 0 := by
        funext i; rw [show k + (n + 1) = k + 1 + n by omega]
      rw [h1, e, ih (k + 1) n (by simpa using h)]
      cases r.1 <;> simp [Exe.check, Check.bad]

/-- **C99, the negation for the exit status alone.** 256, 512, 768 or 1024 failed runs of the 1184: the script exits
with 0.  Its output tells the driver. -/
theorem param_script_exit_code_wraps (check : Nat) (hc : check ≠ 2) (k : Nat) (h1 : 0 < k) (h2 : k < 5) :
    (runScript (fun i => if i < 256 * k then 1 else 0) nthreads extra versionC check).1 = 0 ∧
      ¬ Success (verdict (runScript (fun i => if i < 256 * k then 1 else 0) nthreads extra versionC check).2.1 0) := by
  have hv : versionC ∈ [versionC, versionCxx] := by simp
  rw [runScript_eq _ nthreads extra hv check hc]
  have hl : (allRuns versionC (lastArgs nthreads extra)).length = 1184 := by rw [allRuns_length]; decide
  have hb := runChecks_bad 0 (256 * k) (allRuns versionC (lastArgs nthreads extra)) (by rw [hl]; omega)
  simp only [Nat.zero_add] at hb
  refine ⟨by simp only [hb]; omega, ?_⟩
  show ¬ Success (verdict (.plan ((versionC.plan : Nat) : Int) :: lines 0 _) 0)
  rw [plan_lines_success versionC.plan (by decide)]
  rintro ⟨-, hg, -⟩
  rw [good_not_bad _ hg] at hb
  omega

/-- **C99.** An option given to the script ends it before its first test; words after `--`, or a first word that is
no option, reach the programs. -/
theorem script_arguments (a : Str) (rest : List Str) :
    sourced (a :: rest) =
      (if a = [45, 45] then some rest
       else if a.head? = some 45 ∧ 2 ≤ a.length then none else some (a :: rest)) := by
  simp only [sourced]
  by_cases h : a = [45, 45]
  · simp [h]
  · rw [if_neg h, if_neg h]
    split
    · rename_i c t
      rw [if_pos (by simp)]
    · rename_i h2
      rw [if_neg]
      rintro ⟨h3, h4⟩
      match a, h3, h4 with
      | x :: y :: t, h3, h4 =>
        simp only [List.head?_cons, Option.some.injEq] at h3
        subst h3
        exact h2 y t rfl

/-! ### Concrete cases -/

/-- The two versions, with 1184 and 518 tests. -/
example : versionC ∈ [versionC, versionCxx] ∧ versionC.plan = 1184 ∧ versionCxx ∈ [versionC, versionCxx] ∧
    versionCxx.plan = 518 ∧ (0 : Nat) ≠ 2 := by
  refine ⟨by simp, rfl, by simp, rfl, by decide⟩

/-- Concurrency IDs are not available: every fourth and third of four programs ends with 2, and the driver accepts
the run. -/
example : Success (verdict (runScript (fun i => if i % 4 < 2 then 0 else 2) 48 [] versionC 0).2.1
    (runScript (fun i => if i % 4 < 2 then 0 else 2) 48 [] versionC 0).1) := by
  have hv : versionC ∈ [versionC, versionCxx] := by simp
  rcases hr : runScript (fun i => if i % 4 < 2 then 0 else 2) 48 [] versionC 0 with ⟨code, ls, rs⟩
  refine (param_script_success (fun i => if i % 4 < 2 then 0 else 2) 48 [] hv 0 (by decide) code ls rs hr).2 ?_
  have hrs := (param_script_runs (fun i => if i % 4 < 2 then 0 else 2) 48 [] hv 0 (by decide)).1
  rw [hr] at hrs
  dsimp only at hrs
  rw [hrs]
  have key : ∀ (xs : List (List Str)) (f : List Str → List Str) (pre : List (Exe × List Str)), pre.length % 4 = 0 →
      (∀ i r, pre[i]? = some r → Accepted r.1 (if i % 4 < 2 then 0 else 2)) →
      (pre ++ xs.flatMap fun t => [(Exe.param, f t), (.twice, f t), (.mmCid, f t), (.mmCidTwice, f t)]).length % 4 = 0 ∧
      ∀ i r, (pre ++ xs.flatMap fun t => [(Exe.param, f t), (.twice, f t), (.mmCid, f t), (.mmCidTwice, f t)])[i]? = some r →
        Accepted r.1 (if i % 4 < 2 then 0 else 2) := by
    intro xs f
    induction xs with
    | nil => intro pre h0 h; simpa [h0] using h
    | cons x xs ih =>
      intro pre h0 h
      have := ih (pre ++ [(Exe.param, f x), (.twice, f x), (.mmCid, f x), (.mmCidTwice, f x)]) (by simp; omega) (by
        intro i r hi
        by_cases hlt : i < pre.length
        · rw [List.getElem?_append_left hlt] at hi; exact h i r hi
        · rw [List.getElem?_append_right (by omega)] at hi
          have hm : i - pre.length < 4 := by
            have := (List.getElem?_eq_some_iff.1 hi).1
            simpa using this
          obtain ⟨j, rfl⟩ : ∃ j, i = pre.length + j := ⟨i - pre.length, by omega⟩
          rw [Nat.add_sub_cancel_left] at hi hm
          rw [show (pre.length + j) % 4 = j by omega]
          match j, hm, hi with
          | 0, _, hi => left; rfl
          | 1, _, hi => left; rfl
          | 2, _, hi => right; simp at hi; subst hi; exact ⟨rfl, .inl rfl⟩
          | 3, _, hi => right; simp at hi; subst hi; exact ⟨rfl, .inr rfl⟩)
      simpa [List.append_assoc] using this
  have outer : ∀ (as : List (List Str)) (pre : List (Exe × List Str)), pre.length % 4 = 0 →
      (∀ i r, pre[i]? = some r → Accepted r.1 (if i % 4 < 2 then 0 else 2)) →
      ∀ i r, (pre ++ as.flatMap fun a => versionC.tests.flatMap fun t =>
        versionC.exes.map fun e => (e, t ++ a ++ lastArgs 48 []))[i]? = some r →
        Accepted r.1 (if i % 4 < 2 then 0 else 2) := by
    intro as
    induction as with
    | nil => intro pre h0 h; simpa using h
    | cons a as ih =>
      intro pre h0 h
      obtain ⟨k1, k2⟩ := key versionC.tests (fun t => t ++ a ++ lastArgs 48 []) pre h0 h
      have := ih _ k1 k2
      simpa [List.flatMap_cons, List.append_assoc, versionC] using this
  exact outer allArgs [] rfl (by simp)

/-- A single program that fails, say the last: the driver rejects the run. -/
example : ¬ Success (verdict (runScript (fun i => if i = 1183 then 1 else 0) 48 [] versionC 0).2.1
    (runScript (fun i => if i = 1183 then 1 else 0) 48 [] versionC 0).1) := by
  have hv : versionC ∈ [versionC, versionCxx] := by simp
  rcases hr : runScript (fun i => if i = 1183 then 1 else 0) 48 [] versionC 0 with ⟨code, ls, rs⟩
  intro h
  have := (param_script_success (fun i => if i = 1183 then 1 else 0) 48 [] hv 0 (by decide) code ls rs hr).1 h
  have hl := (param_script_runs (fun i => if i = 1183 then 1 else 0) 48 [] hv 0 (by decide)).2.1
  rw [hr] at hl
  dsimp only at hl
  have hlt : 1183 < rs.length := by rw [hl]; decide
  have h1 := this 1183 rs[1183] (List.getElem?_eq_getElem hlt)
  rcases h1 with h1 | ⟨h1, -⟩ <;> simp at h1

/-- `run_param_test.tap -v` ends; `run_param_test.tap -- -v` runs every program with `-v`. -/
example : sourced [[45, 118]] = none ∧ sourced [[45, 45], [45, 118]] = some [[45, 118]] := ⟨rfl, rfl⟩

/-! ### Any script that plans `n` tests -/

/-- A script that plans `n` tests and then calls `ok` with the statuses `rs`; it ends by the trap on `EXIT`. -/
def planned (n : Nat) (rs : List Nat) : Option (Nat × List Line) :=
  let rec go : List Nat → ShOut → Option (Nat × List Line)
    | _, .exit c ls => some (c, ls)
    | [], .run _ s => some (s.exit none)
    | r :: rs, .run _ s => go rs (s.ok r)
  go rs (Sh.planTests {} n)

theorem planned_go (n : Nat) (rs : List Nat) (st : Nat) (s : Sh) (h : s.planSet = true) (h2 : s.noPlan = false) (h3 : s.died = false)
    (he : s.expected = n) :
    ∃ ls, planned.go rs (.run st s) = some
      (if n < s.executed + rs.length then 1 else (s.failed + (rs.filter (· ≠ 0)).length + (n - (s.executed + rs.length))) % 256, ls) := by
  induction rs generalizing s st with
  | nil =>
    refine ⟨s.out, ?_⟩
    obtain ⟨ps, np, sk, dd, ex, exd, fl, out⟩ := s
    dsimp only at h h2 h3 he
    subst h h2 h3 he
    by_cases hn : ex < exd
    · simp [planned.go, Sh.exit, Sh.cleanup, Sh.exitStatus, hn]
    · simp [planned.go, Sh.exit, Sh.cleanup, Sh.exitStatus, hn]
  | cons r rs ih =>
    obtain ⟨ps, np, sk, dd, ex, exd, fl, out⟩ := s
    dsimp only at h h2 h3 he
    subst h h2 h3 he
    by_cases hr : r = 0
    · subst hr
      obtain ⟨ls, e⟩ := ih 0 ⟨true, false, sk, false, ex, exd + 1, fl, out ++ [.result true ((exd + 1 : Nat) : Int) none]⟩ rfl rfl rfl rfl
      refine ⟨ls, Eq.trans ?_ (e.trans ?_)⟩
      · simp [planned.go, Sh.ok]
      · simp [Nat.add_assoc, Nat.add_comm 1]
    · obtain ⟨ls, e⟩ := ih r ⟨true, false, sk, false, ex, exd + 1, fl + 1, out ++ [.result (decide (r = 0)) ((exd + 1 : Nat) : Int) none]⟩
        rfl rfl rfl rfl
      refine ⟨ls, Eq.trans ?_ (e.trans ?_)⟩
      · simp [planned.go, Sh.ok, hr]
      · simp [hr, Nat.add_assoc, Nat.add_comm 1]

/-- The exit status of such a script: 1 if there were more tests than planned, else the failed and the missing ones,
modulo 256. -/
theorem planned_exit_code {n : Nat} (hn : n ≠ 0) (rs : List Nat) : ∃ ls, planned n rs = some
    (if n < rs.length then 1 else ((rs.filter (· ≠ 0)).length + (n - rs.length)) % 256, ls) := by
  obtain ⟨ls, h⟩ := planned_go n rs (n % 256) { out := [.plan n], expected := n, planSet := true } rfl rfl rfl rfl
  refine ⟨ls, ?_⟩
  have e : Sh.planTests {} n = .run (n % 256) { out := [.plan n], expected := n, planSet := true } := by simp [Sh.planTests, hn]
  unfold planned
  rw [e, h]
  simp

/-- Three tests planned: one of two fails and one is missing; four are run. -/
example : (∃ ls, planned 3 [0, 7] = some (2, ls)) ∧ ∃ ls, planned 3 [0, 0, 0, 0] = some (1, ls) :=
  ⟨planned_exit_code (by decide) [0, 7], planned_exit_code (by decide) [0, 0, 0, 0]⟩

end Verif.Tap
