import Verif.ParamArgsLemmas
import Verif.RseqInject
/-
What param_test makes of its command line, and what its delay options do.
-/

namespace Verif.Param

open Verif.Smp (Str strtol decimal)

/-! ### Any command line -/

/-- The values the tests run with. -/
structure Ranges (o : Opts) : Prop where
  modulo : 0 ≤ o.modulo ∧ o.modulo < 2 ^ 31
  sleep : 0 ≤ o.sleep ∧ o.sleep < 2 ^ 31
  disableMod : 0 ≤ o.disableMod ∧ o.disableMod < 2 ^ 31
  threads : 0 ≤ o.threads ∧ o.threads < 2 ^ 31
  reps : 0 ≤ o.reps ∧ o.reps < 2 ^ 63
  test : o.test ∈ ([115, 108, 105, 98, 109, 114] : List UInt8)
  loop : ∀ i, -2 ^ 31 ≤ o.loop i ∧ o.loop i < 2 ^ 31

theorem atoi32_range (v : Str) : -2 ^ 31 ≤ atoi32 v ∧ atoi32 v < 2 ^ 31 := by
  unfold atoi32 toInt32
  generalize BitVec.ofInt 32 _ = b
  have h1 := b.toInt_lt
  have h2 := b.le_toInt
  simp only [Nat.add_one_sub_one] at h1 h2
  constructor
  · simpa using h2
  · simpa using h1

theorem atoll_range (v : Str) : -2 ^ 63 ≤ atoll v ∧ atoll v < 2 ^ 63 := by
  unfold atoll strtol
  dsimp only
  generalize (Verif.Smp.scan v) = r
  obtain ⟨neg, ds, pre⟩ := r
  dsimp only
  by_cases h : ds = []
  · rw [if_pos h]; decide
  · rw [if_neg h]
    dsimp only
    generalize (if neg = true then -(Verif.Smp.digitsVal ds : Int) else (Verif.Smp.digitsVal ds : Int)) = x
    unfold Verif.Smp.longMax
    split
    · decide
    · split
      · decide
      · constructor
        · omega
        · omega

theorem act_flag_ranges {avail : Bool} {c : UInt8} {f : Opts → Opts} {o : Opts} (h : act avail c = .flag f) (ho : Ranges o) :
    Ranges (f o) := by
  unfold act at h
  by_cases h0 : 49 ≤ c ∧ c ≤ 57
  · rw [if_pos h0] at h
    cases h
  rw [if_neg h0] at h
  by_cases h1 : c = 109
  · rw [if_pos h1] at h
    cases h
  rw [if_neg h1] at h
  by_cases h2 : c = 115
  · rw [if_pos h2] at h
    cases h
  rw [if_neg h2] at h
  by_cases h3 : c = 121
  · rw [if_pos h3] at h
    cases h; exact ⟨ho.1, ho.2, ho.3, ho.4, ho.5, ho.6, ho.7⟩
  rw [if_neg h3] at h
  by_cases h4 : c = 107
  · rw [if_pos h4] at h
    cases h; exact ⟨ho.1, ho.2, ho.3, ho.4, ho.5, ho.6, ho.7⟩
  rw [if_neg h4] at h
  by_cases h5 : c = 100
  · rw [if_pos h5] at h
    cases h; exact ⟨ho.1, ho.2, ho.3, ho.4, ho.5, ho.6, ho.7⟩
  rw [if_neg h5] at h
  by_cases h6 : c = 68
  · rw [if_pos h6] at h
    cases h
  rw [if_neg h6] at h
  by_cases h7 : c = 116
  · rw [if_pos h7] at h
    cases h
  rw [if_neg h7] at h
  by_cases h8 : c = 114
  · rw [if_pos h8] at h
    cases h
  rw [if_neg h8] at h
  by_cases h9 : c = 104
  · rw [if_pos h9] at h
    cases h
  rw [if_neg h9] at h
  by_cases h10 : c = 84
  · rw [if_pos h10] at h
    cases h
  rw [if_neg h10] at h
  by_cases h11 : c = 118
  · rw [if_pos h11] at h
    cases h; exact ⟨ho.1, ho.2, ho.3, ho.4, ho.5, ho.6, ho.7⟩
  rw [if_neg h11] at h
  by_cases h12 : c = 77
  · rw [if_pos h12] at h
    cases h; exact ⟨ho.1, ho.2, ho.3, ho.4, ho.5, ho.6, ho.7⟩
  rw [if_neg h12] at h
  by_cases h13 : c = 99
  · rw [if_pos h13] at h
    cases h
  rw [if_neg h13] at h
  cases h

theorem act_val_ranges {avail : Bool} {c : UInt8} {f : Opts → Str → Option Opts} {o o' : Opts} {v : Str}
    (h : act avail c = .val f) (ho : Ranges o) (hf : f o v = some o') : Ranges o' := by
  unfold act at h
  by_cases h0 : 49 ≤ c ∧ c ≤ 57
  · rw [if_pos h0] at h
    cases h
    cases hf
    refine ⟨ho.1, ho.2, ho.3, ho.4, ho.5, ho.6, fun i => ?_⟩
    show -2 ^ 31 ≤ upd _ _ _ _ ∧ upd _ _ _ _ < 2 ^ 31
    unfold upd
    split
    · exact atoi32_range v
    · exact ho.7 i
  rw [if_neg h0] at h
  by_cases h1 : c = 109
  · rw [if_pos h1] at h
    cases h
    dsimp only at hf
    split at hf
    · cases hf
    · rename_i hn
      cases hf
      exact ⟨⟨Int.not_lt.1 hn, (atoi32_range v).2⟩, ho.2, ho.3, ho.4, ho.5, ho.6, ho.7⟩
  rw [if_neg h1] at h
  by_cases h2 : c = 115
  · rw [if_pos h2] at h
    cases h
    dsimp only at hf
    split at hf
    · cases hf
    · rename_i hn
      cases hf
      exact ⟨ho.1, ⟨Int.not_lt.1 hn, (atoi32_range v).2⟩, ho.3, ho.4, ho.5, ho.6, ho.7⟩
  rw [if_neg h2] at h
  by_cases h3 : c = 121
  · rw [if_pos h3] at h
    cases h
  rw [if_neg h3] at h
  by_cases h4 : c = 107
  · rw [if_pos h4] at h
    cases h
  rw [if_neg h4] at h
  by_cases h5 : c = 100
  · rw [if_pos h5] at h
    cases h
  rw [if_neg h5] at h
  by_cases h6 : c = 68
  · rw [if_pos h6] at h
    cases h
    dsimp only at hf
    split at hf
    · cases hf
    · rename_i hn
      cases hf
      exact ⟨ho.1, ho.2, ⟨Int.not_lt.1 hn, (atoi32_range v).2⟩, ho.4, ho.5, ho.6, ho.7⟩
  rw [if_neg h6] at h
  by_cases h7 : c = 116
  · rw [if_pos h7] at h
    cases h
    dsimp only at hf
    split at hf
    · cases hf
    · rename_i hn
      cases hf
      exact ⟨ho.1, ho.2, ho.3, ⟨Int.not_lt.1 hn, (atoi32_range v).2⟩, ho.5, ho.6, ho.7⟩
  rw [if_neg h7] at h
  by_cases h8 : c = 114
  · rw [if_pos h8] at h
    cases h
    dsimp only at hf
    split at hf
    · cases hf
    · rename_i hn
      cases hf
      exact ⟨ho.1, ho.2, ho.3, ho.4, ⟨Int.not_lt.1 hn, (atoll_range v).2⟩, ho.6, ho.7⟩
  rw [if_neg h8] at h
  by_cases h9 : c = 104
  · rw [if_pos h9] at h
    cases h
  rw [if_neg h9] at h
  by_cases h10 : c = 84
  · rw [if_pos h10] at h
    cases h
    dsimp only at hf
    split at hf
    · rename_i hn
      cases hf
      exact ⟨ho.1, ho.2, ho.3, ho.4, ho.5, hn, ho.7⟩
    · cases hf
  rw [if_neg h10] at h
  by_cases h11 : c = 118
  · rw [if_pos h11] at h
    cases h
  rw [if_neg h11] at h
  by_cases h12 : c = 77
  · rw [if_pos h12] at h
    cases h
  rw [if_neg h12] at h
  by_cases h13 : c = 99
  · rw [if_pos h13] at h
    cases h
  rw [if_neg h13] at h
  cases h

/-- **C100.** Whatever the command line: no word is read that is not there, and the tests are run only with values in
these ranges and with one of the six tests. -/
theorem param_options (argv : List Str) (hne : argv ≠ []) (avail : Bool) :
    parse argv avail ≠ .ub ∧ ∀ o, parse argv avail = .run o → Ranges o := by
  cases argv with
  | nil => exact absurd rfl hne
  | cons name args =>
    rw [parse_eq]
    exact eat_inv avail Ranges (fun c f o h ho => act_flag_ranges h ho)
      (fun c f o v o' h ho hf => act_val_ranges h ho hf) args {}
      ⟨by decide, by decide, by decide, by decide, by decide, by decide, fun i => by show (-2 ^ 31 : Int) ≤ 0 ∧ (0 : Int) < 2 ^ 31; decide⟩

/-- **C100, `main` with `argc == 0`.** The loop is not entered. -/
theorem param_no_argv (avail : Bool) : parse [] avail = .run {} := rfl

/-! ### The command lines of the script -/

theorem atoi32_decimal (n : Nat) (h : n < 2 ^ 31) : atoi32 (decimal n) = n := by
  unfold atoi32
  rw [Verif.Smp.strtol_digits _ (Verif.Smp.decimal_ne_nil n) (Verif.Smp.decimal_digits n), Verif.Smp.digitsVal_decimal]
  have h1 : ¬ Verif.Smp.longMax < (n : Int) := by unfold Verif.Smp.longMax; omega
  simp only [h1, if_false]
  unfold toInt32
  rw [BitVec.toInt_ofInt]
  exact Int.bmod_eq_of_le (by omega) (by omega)

/-- The settings of the 37 configurations: default, a delay loop at each of the nine points, and a yield, a signal or
a sleep of 1 ms at points 7, 8 or 9 in every fourth, second, or every execution. -/
def configs : List Opts :=
  {} :: ([1, 2, 3, 4, 5, 6, 7, 8, 9].map fun p => ({ loop := fun j => if j = p then 10000 else 0 } : Opts)) ++
  [4, 2, 1].flatMap (fun m => [7, 8, 9].map fun p =>
    ({ loop := fun j => if j = p then -1 else 0, modulo := m, yield := true } : Opts)) ++
  [4, 2, 1].flatMap (fun m => [7, 8, 9].map fun p =>
    ({ loop := fun j => if j = p then -1 else 0, modulo := m, signal := true } : Opts)) ++
  [4, 2, 1].flatMap (fun m => [7, 8, 9].map fun p =>
    ({ loop := fun j => if j = p then -1 else 0, modulo := m, sleep := 1 } : Opts))

/-- The tests, with or without barrier: spinlock, list, buffer, memcpy, increment, membarrier. -/
def testSettings : List (UInt8 × Bool) :=
  [(115, false), (108, false), (98, false), (98, true), (109, false), (109, true), (105, false), (114, false)]

theorem eat_last (avail : Bool) (o : Opts) (n : Nat) (h : n < 2 ^ 31) :
    eat avail o (Tap.lastArgs n []) = .run { o with reps := 1000, threads := n } := by
  have hr : atoll [49, 48, 48, 48] = 1000 := by decide
  have ht := atoi32_decimal n h
  have e1 : act avail 114 = .val fun o v => if atoll v < 0 then none else some { o with reps := atoll v } := rfl
  have e2 : act avail 116 = .val fun o v => if atoi32 v < 0 then none else some { o with threads := atoi32 v } := rfl
  have l1 : letter (Tap.opt 114) = some 114 := rfl
  have l2 : letter (Tap.opt 116) = some 116 := rfl
  rw [Tap.lastArgs, List.append_nil, eat, l1]
  dsimp only
  rw [e1]
  dsimp only
  rw [hr, if_neg (by decide)]
  dsimp only
  rw [eat, l2]
  dsimp only
  rw [e2]
  dsimp only
  rw [ht, if_neg (by omega)]
  rfl

theorem eat_tests (avail : Bool) :
    (Tap.tests7 ++ [Tap.optT 114]).map (eat avail {}) = testSettings.map fun q => .run { test := q.1, release := q.2 } := by
  rfl

theorem eat_configs (avail : Bool) (c : UInt8) (r : Bool) :
    Tap.allArgs.map (eat avail { test := c, release := r }) =
      configs.map fun o => .run { o with test := c, release := r } := by
  rfl

/-- **C100.** The command lines of run_param_test.tap (those of run_param_test_cxx.tap are among them) set exactly
the options of the 37 configurations and eight tests, with 1000 repetitions and the given number of threads. -/
theorem script_options (name : Str) (avail : Bool) (n : Nat) (h : n < 2 ^ 31) :
    (Tap.allArgs.map fun a => Tap.versionC.tests.map fun t => parse (name :: (t ++ a ++ Tap.lastArgs n [])) avail) =
      configs.map fun o => testSettings.map fun q =>
        .run { o with test := q.1, release := q.2, reps := 1000, threads := n } := by
  have key : ∀ a ∈ Tap.allArgs, ∀ t ∈ Tap.versionC.tests, ∀ o1 o2,
      eat avail {} t = .run o1 → eat avail o1 a = .run o2 →
        parse (name :: (t ++ a ++ Tap.lastArgs n [])) avail = .run { o2 with reps := 1000, threads := n } := by
    intro a _ t _ o1 o2 h1 h2
    rw [parse_eq, List.append_assoc, eat_append avail t _ {} o1 h1, eat_append avail a _ o1 o2 h2, eat_last avail o2 n h]
  have ht : Tap.versionC.tests.map (eat avail {}) = testSettings.map fun q => .run { test := q.1, release := q.2 } :=
    eat_tests avail
  have htl : Tap.versionC.tests.length = testSettings.length := rfl
  have hal : Tap.allArgs.length = configs.length := rfl
  apply List.ext_getElem
  · simpa using hal
  · intro i hi1 hi2
    simp only [List.length_map] at hi1 hi2
    rw [List.getElem_map, List.getElem_map]
    apply List.ext_getElem
    · simpa using htl
    · intro j hj1 hj2
      simp only [List.length_map] at hj1 hj2
      rw [List.getElem_map, List.getElem_map]
      have e1 : eat avail {} Tap.versionC.tests[j] = .run { test := testSettings[j].1, release := testSettings[j].2 } := by
        have := congrArg (fun l => l[j]?) ht
        simp [List.getElem?_map, hj1, hj2] at this
        exact this
      have e2 : eat avail { test := testSettings[j].1, release := testSettings[j].2 } Tap.allArgs[i] =
          .run { configs[i] with test := testSettings[j].1, release := testSettings[j].2 } := by
        have := congrArg (fun l => l[i]?) (eat_configs avail testSettings[j].1 testSettings[j].2)
        simp [List.getElem?_map, hi1, hi2] at this
        exact this
      exact key _ (List.getElem_mem hi1) _ (List.getElem_mem hj1) _ _ e1 e2

/-! ### What is accepted although it is no number of threads -/

/-- **C100, remark.** `-t 0` is accepted: the tests then declare an array of no elements.  So is any word that is not
a number. -/
theorem zero_threads (name : Str) (avail : Bool) (v : Str) (hv : Verif.Smp.isSpace (v.headD 0) = false)
    (h1 : v.headD 0 ≠ 45) (h2 : v.headD 0 ≠ 43) (h3 : Verif.Smp.isDigit (v.headD 0) = false) :
    parse [name, [45, 116], v] avail = .run { threads := 0 } ∧
      parse [name, [45, 116], [48]] avail = .run { threads := 0 } := by
  have hz : atoi32 v = 0 := by
    have hs : (strtol v).1 = 0 := by
      cases v with
      | nil => rfl
      | cons c v =>
        simp only [List.headD_cons] at hv h1 h2 h3
        have : Verif.Smp.scan (c :: v) = (false, [], 0) := by
          unfold Verif.Smp.scan
          rw [List.dropWhile_cons_of_neg (by simp [hv]), List.takeWhile_cons_of_neg (by simp [hv])]
          dsimp only
          split
          · rename_i hh; cases hh; exact absurd rfl h1
          · rename_i hh; cases hh; exact absurd rfl h2
          · rw [List.takeWhile_cons_of_neg (by simp [h3])]
            rfl
        unfold strtol
        rw [this]
        rfl
    unfold atoi32
    rw [hs]
    rfl
  refine ⟨?_, rfl⟩
  rw [parse_eq]
  have e2 : act avail 116 = .val fun o v => if atoi32 v < 0 then none else some { o with threads := atoi32 v } := rfl
  have l2 : letter [45, 116] = some 116 := rfl
  rw [eat, l2]
  dsimp only
  rw [e2]
  dsimp only
  rw [hz, if_neg (by decide)]
  rfl

/-- **C100, remark.** A number of threads is taken modulo 2^32: `-t` with `2^32 * k + n` means `n`. -/
theorem threads_wrap (name : Str) (avail : Bool) (k n : Nat) (hn : n < 2 ^ 31) (hk : 2 ^ 32 * k + n < 2 ^ 63) :
    parse [name, [45, 116], decimal (2 ^ 32 * k + n)] avail = .run { threads := n } := by
  have hz : atoi32 (decimal (2 ^ 32 * k + n)) = n := by
    unfold atoi32
    rw [Verif.Smp.strtol_digits _ (Verif.Smp.decimal_ne_nil _) (Verif.Smp.decimal_digits _), Verif.Smp.digitsVal_decimal]
    have h1 : ¬ Verif.Smp.longMax < ((2 ^ 32 * k + n : Nat) : Int) := by unfold Verif.Smp.longMax; omega
    simp only [h1, if_false]
    unfold toInt32
    rw [BitVec.toInt_ofInt]
    rw [Int.bmod_def]
    have hm : ((2 ^ 32 * k + n : Nat) : Int) % ((2 ^ 32 : Nat) : Int) = n := by omega
    rw [hm, if_pos (by omega)]
  rw [parse_eq]
  have e2 : act avail 116 = .val fun o v => if atoi32 v < 0 then none else some { o with threads := atoi32 v } := rfl
  have l2 : letter [45, 116] = some 116 := rfl
  rw [eat, l2]
  dsimp only
  rw [e2]
  dsimp only
  rw [hz, if_neg (by omega)]
  rfl

/-! ### Delays between C statements -/

/-- **C101.** A point of C code with setting -1 and `-m N`: of its first `k` executions in a thread every `N`-th acts
(sleeps, yields, sends the signal), `k / N` in all. -/
theorem inject_every_nth (o : Opts) (p : Nat) (hp : o.loop p = -1) (N : Nat) (hN : 0 < N) (hm : o.modulo = N) (k : Nat) :
    injectTimes o p k = (k / N, ((k % N : Nat) : Int)) := by
  induction k with
  | zero => simp [injectTimes]
  | succ k ih =>
    have hmod := Nat.mod_lt k hN
    have hdiv := Nat.div_add_mod k N
    have hm0 : o.modulo ≠ 0 := by omega
    by_cases h : k % N = N - 1
    · have hc : injectC o p ((k % N : Nat) : Int) = (true, 0) := by
        unfold injectC
        rw [if_pos ⟨hp, hm0⟩, if_pos (by omega)]
      have e : k + 1 = N * (k / N + 1) := by rw [Nat.mul_add]; omega
      have e1 : (k + 1) / N = k / N + 1 := by
        conv => lhs; rw [e]
        rw [Nat.mul_div_cancel_left _ hN]
      have e2 : (k + 1) % N = 0 := by
        conv => lhs; rw [e]
        rw [Nat.mul_mod_right]
      rw [injectTimes, ih]
      dsimp only
      rw [hc, e1, e2]
      rfl
    · have hc : injectC o p ((k % N : Nat) : Int) = (false, ((k % N : Nat) : Int) + 1) := by
        unfold injectC
        rw [if_pos ⟨hp, hm0⟩, if_neg (by omega)]
      have e : k + 1 = k % N + 1 + N * (k / N) := by omega
      have e1 : (k + 1) / N = k / N := by
        conv => lhs; rw [e]
        rw [Nat.add_mul_div_left _ _ hN, Nat.div_eq_of_lt (by omega), Nat.zero_add]
      have e2 : (k + 1) % N = k % N + 1 := by
        conv => lhs; rw [e]
        rw [Nat.add_mul_mod_self_left, Nat.mod_eq_of_lt (by omega)]
      rw [injectTimes, ih]
      dsimp only
      rw [hc, e1, e2]
      rfl

/-- Without `-m`, or with another setting of the point, none acts. -/
theorem inject_never (o : Opts) (p : Nat) (h : o.loop p ≠ -1 ∨ o.modulo = 0) (k : Nat) : injectTimes o p k = (0, 0) := by
  have hc : ∀ c, injectC o p c = (false, c) := by
    intro c
    unfold injectC
    rw [if_neg]
    rintro ⟨h1, h2⟩
    rcases h with h | h
    · exact h h1
    · exact h2 h
  induction k with
  | zero => rfl
  | succ k ih =>
    rw [injectTimes, ih]
    dsimp only
    rw [hc]
    rfl

/-! ### Points 7 and 8 -/

/-- The points the headers use: `RSEQ_INJECT_ASM(1)` to `(6)` in the helpers, and `RSEQ_INJECT_C(9)` in front of
them. -/
def usedPoints : List Nat := [1, 2, 3, 4, 5, 6, 9]

/-- The points in the assembly of the helpers, on any architecture, are used points. -/
theorem asm_points_used (a : Rseq.Arch) (k : Rseq.Kind) (c tk : Nat) :
    (∀ q ∈ Rseq.injAt a k c, q.2 ∈ usedPoints) ∧ ∀ q ∈ Rseq.injAtTwice a k c tk, q.2 ∈ usedPoints := by
  have h : ∀ q ∈ Rseq.injAt a k c, q.2 ∈ usedPoints := by
    cases a <;> cases k <;> simp [Rseq.injAt, Rseq.injPts, Rseq.injFirst, usedPoints]
  refine ⟨h, fun q hq => ?_⟩
  unfold Rseq.injAtTwice at hq
  rw [List.mem_append, List.mem_map] at hq
  rcases hq with ⟨q', h1, rfl⟩ | hq
  · exact h q' h1
  · simp only [List.mem_singleton] at hq
    subst hq
    show 2 ∈ usedPoints
    decide

/-- What the injected code can tell of the options: the counts at the used points, and whether it acts there. -/
def Same (o o' : Opts) : Prop :=
  ∀ p ∈ usedPoints, o.loop p = o'.loop p ∧ ∀ k, (injectTimes o p k).1 = (injectTimes o' p k).1

theorem configs_length : configs.length = 37 := rfl

/-- **C101, the negation.** Not every configuration of the script tests something of its own: 21 of the 37 are the
same as the default one for the injected code (those with `-7` and `-8`). -/
theorem configs_same_as_default :
    ∀ i (hi : i < configs.length), Same configs[i] {} ↔
      i ∈ ([0, 7, 8, 10, 11, 13, 14, 16, 17, 19, 20, 22, 23, 25, 26, 28, 29, 31, 32, 34, 35] : List Nat) := by
  have hneg : ∀ (o : Opts) p, p ∈ usedPoints → o.loop p ≠ 0 → ¬ Same o {} := fun o p hp h hs => h (hs p hp).1
  have hpos : ∀ (o : Opts), (∀ p ∈ usedPoints, o.loop p = 0) → Same o {} := by
    intro o h p hp
    refine ⟨h p hp, fun k => ?_⟩
    rw [inject_never o p (.inl (by rw [h p hp]; decide)), inject_never {} p (.inl (by show (0 : Int) ≠ -1; decide))]
  intro i hi
  rw [configs_length] at hi
  have hcase : (∀ p ∈ usedPoints, configs[i].loop p = 0) ↔
      i ∈ ([0, 7, 8, 10, 11, 13, 14, 16, 17, 19, 20, 22, 23, 25, 26, 28, 29, 31, 32, 34, 35] : List Nat) := by
    have hall : ∀ i : Fin 37, (∀ p ∈ usedPoints, (configs[i.val]'(by rw [configs_length]; exact i.isLt)).loop p = 0) ↔
        i.val ∈ ([0, 7, 8, 10, 11, 13, 14, 16, 17, 19, 20, 22, 23, 25, 26, 28, 29, 31, 32, 34, 35] : List Nat) := by
      decide
    exact hall ⟨i, hi⟩
  rw [← hcase]
  constructor
  · intro h p hp
    exact (h p hp).1
  · exact hpos _

/-! ### Concrete cases -/

/-- `param_test -T b -M -9 -1 -m 4 -y -t 6 x`: the last word is passed over. -/
example : ∃ o, parse [[112], [45, 84], [98], [45, 77], [45, 57], [45, 49], [45, 109], [52], [45, 121], [45, 116], [54], [120]]
      true = .run o ∧
    o.test = 98 ∧ o.release = true ∧ o.loop 9 = -1 ∧ o.modulo = 4 ∧ o.yield = true ∧ o.threads = 6 :=
  ⟨_, rfl, rfl, rfl, rfl, rfl, rfl, rfl⟩

/-- `-t -1`, `-t` without value, `-T x` and `-z` end in an error; `-c` tells whether the system call is there. -/
example : parse [[112], [45, 116], [45, 49]] true = .error ∧ parse [[112], [45, 116]] true = .error ∧
    parse [[112], [45, 84], [120]] true = .error ∧ parse [[112], [45, 122]] true = .error ∧
    parse [[112], [45, 99]] true = .exit0 ∧ parse [[112], [45, 99]] false = .exit2 :=
  ⟨rfl, rfl, rfl, rfl, rfl, rfl⟩

/-- Word `x` as a number of threads, and 2^32 + 1. -/
example : parse [[112], [45, 116], [120]] true = .run { threads := 0 } ∧
    parse [[112], [45, 116], decimal (2 ^ 32 * 1 + 1)] true = .run { threads := 1 } :=
  ⟨(zero_threads [112] true [120] (by decide) (by decide) (by decide) (by decide)).1,
    threads_wrap [112] true 1 1 (by decide) (by decide)⟩

/-- Of ten executions of point 9 with `-9 -1 -m 4`, two act. -/
example : (injectTimes { loop := fun j => if j = 9 then -1 else 0, modulo := 4 } 9 10) = (2, 2) :=
  inject_every_nth _ 9 rfl 4 (by decide) rfl 10

end Verif.Param
