import Verif.TapLemmas

/-
What the exit status and the verdict of the driver say about the checks of a test program (C96).
-/

namespace Verif.Tap

/-- A program that plans `n` tests first: its exit status and its output. -/
theorem planned_run (n : BitVec 32) (cs : List Call) (hn : n ≠ 0#32) (hn31 : n.toNat < 2 ^ 31)
    (hb : Body false cs) (h : (checks false cs).length < 2 ^ 31) :
    ∃ code s, program (.planTests n :: cs) {} = .exit code s ∧
      s.out = .plan (n.toNat : Int) :: lines 0 (checks false cs) ∧
      (code.toNat : Int) =
        (if n.toNat < (checks false cs).length then ((checks false cs).length : Int) - n.toNat
          else (checks false cs).countP Check.bad + n.toNat - (checks false cs).length) := by
  obtain ⟨s', h1, h2, h3, h4, h5, h6, h7, h8, h9, h10, h11⟩ := calls_body cs 0 0
    { havePlan := true, eTests := n, inited := true, out := [.plan (pd n)] }
    hb (by simp) rfl rfl (by simpa using h)
  have hle : (checks false cs).countP Check.bad ≤ (checks false cs).length := List.countP_le_length
  have hpd : pd n = (n.toNat : Int) := by
    rw [← pd_ofNat n.toNat hn31]; simp
  refine ⟨exitStatus s', s', ?_, ?_, ?_⟩
  · have hc : calls (.planTests n :: cs) {} = .run s' := by
      simp only [calls, call, hn, Bool.false_eq_true, if_false]
      exact h1
    have hcl : cleanup s' = s' := by simp [cleanup, h5, h6, h7, h8, h10]
    simp [program, hc, exitWith, hcl]
  · rw [h4, hpd]; rfl
  · simp only [Nat.zero_add] at h2 h3
    unfold exitStatus
    simp only [h6, h8, h9, Bool.not_true, Bool.or_self, Bool.false_eq_true, if_false, h2, h3]
    have hl : (BitVec.ofNat 32 (checks false cs).length).toNat = (checks false cs).length := by
      rw [BitVec.toNat_ofNat, Nat.mod_eq_of_lt (by omega)]
    have hc : (BitVec.ofNat 32 ((checks false cs).countP Check.bad)).toNat =
        (checks false cs).countP Check.bad := by
      rw [BitVec.toNat_ofNat, Nat.mod_eq_of_lt (by omega)]
    by_cases hlt : n.toNat < (checks false cs).length
    · have hlt' : n < BitVec.ofNat 32 (checks false cs).length := by rw [BitVec.lt_def, hl]; exact hlt
      rw [if_pos hlt', if_pos hlt, BitVec.toNat_sub_of_le (BitVec.le_of_lt hlt'), hl]
      omega
    · have hlt' : ¬ n < BitVec.ofNat 32 (checks false cs).length := by rw [BitVec.lt_def, hl]; exact hlt
      rw [if_neg hlt', if_neg hlt]
      have ha : (BitVec.ofNat 32 ((checks false cs).countP Check.bad) + n).toNat =
          (checks false cs).countP Check.bad + n.toNat := by
        rw [BitVec.toNat_add, hc, Nat.mod_eq_of_lt (by omega)]
      rw [BitVec.toNat_sub_of_le (by rw [BitVec.le_def, hl, ha]; omega), ha, hl]
      omega

/-- A program without a plan: its exit status and its output. -/
theorem unplanned_run (cs : List Call) (hb : Body false cs) (h : (checks false cs).length < 2 ^ 31) :
    ∃ code s, program (.noPlan :: cs) {} = .exit code s ∧
      s.out = lines 0 (checks false cs) ++ [.plan ((checks false cs).length : Int)] ∧
      code.toNat = (checks false cs).countP Check.bad := by
  obtain ⟨s', h1, h2, h3, h4, h5, h6, h7, h8, h9, h10, h11⟩ := calls_body cs 0 0
    { havePlan := true, noPlan := true, inited := true } hb (by simp) rfl rfl (by simpa using h)
  have hle : (checks false cs).countP Check.bad ≤ (checks false cs).length := List.countP_le_length
  simp only [Nat.zero_add] at h2 h3
  refine ⟨exitStatus s', cleanup s', ?_, ?_, ?_⟩
  · have hc : calls (.noPlan :: cs) {} = .run s' := by
      simp only [calls, call, Bool.false_eq_true, if_false]
      exact h1
    simp [program, hc, exitWith, h11]
  · have hp : pd s'.testCount = ((checks false cs).length : Int) := by rw [h2, pd_ofNat _ h]
    simp [cleanup, h5, h6, h7, h10, hp, h4]
  · simp only [exitStatus, h6, Bool.true_or, if_true, h3]
    rw [BitVec.toNat_ofNat, Nat.mod_eq_of_lt (by omega)]

/-! ### C96: the verdict of the driver -/

/-- **C96.** The driver calls a program that plans `n` tests a success exactly if it made `n` checks and each
of them came out as it should. -/
theorem planned_success_iff (n : BitVec 32) (cs : List Call) (hn : n ≠ 0#32) (hn31 : n.toNat < 2 ^ 31)
    (hb : Body false cs) (h : (checks false cs).length < 2 ^ 31) (code : BitVec 32) (s : St)
    (hr : program (.planTests n :: cs) {} = .exit code s) :
    Success (verdict s.out (code8 code)) ↔
      (checks false cs).length = n.toNat ∧ ∀ c ∈ checks false cs, c.good = true := by
  obtain ⟨code', s', h1, h2, h3⟩ := planned_run n cs hn hn31 hb h
  rw [hr] at h1
  injection h1 with h1a h1b
  subst h1a; subst h1b
  have hn0 : (n.toNat : Int) ≠ 0 := by
    intro h0
    apply hn
    apply BitVec.eq_of_toNat_eq
    simpa using h0
  have hd : see {} (.plan (n.toNat : Int)) = { planned := n.toNat, seen := .early } := by
    have h1 : ¬ (n.toNat : Int) < 0 := by omega
    have h2 : n.toNat ≠ 0 := by omega
    simp only [see, if_neg h1]
    simp [seePlan, h2]
  unfold verdict
  rw [h2, List.foldl_cons, hd, success_iff]
  obtain ⟨c1, c2, c3⟩ := foldl_lines_count 0 (checks false cs) { planned := n.toNat, seen := .early }
  by_cases hl : (checks false cs).length = n.toNat
  · have hf := foldl_lines (checks false cs) { planned := n.toNat, seen := .early } (by simp)
      (by intro _; simp [hl])
    simp only at hf
    rw [hf]
    simp only [finish, List.nil_append, Nat.zero_add, hl, ne_eq, not_true, if_false, List.append_nil,
      reduceCtorEq]
    rw [if_neg (by omega)] at h3
    constructor
    · rintro ⟨e1, e2, e3⟩
      refine ⟨trivial, (map_res_good _).1 ?_⟩
      simp only [List.mem_append, not_or] at e1 e2 e3
      exact ⟨e1.1, e2.1, e3.1⟩
    · rintro ⟨_, hg⟩
      rw [countP_bad_zero _ hg] at h3
      have h0 : code.toNat = 0 := by omega
      have hm := (map_res_good _).2 hg
      simp [code8, h0]
      simpa using hm
  · constructor
    · rintro ⟨e1, -, -⟩
      exfalso
      apply e1
      unfold finish
      rw [c1, c2, c3]
      simp only [List.mem_append]
      left; right
      simp
      omega
    · rintro ⟨hl', -⟩
      exact absurd hl' hl

/-- **C96.** The same without a plan: each check came out as it should. -/
theorem unplanned_success_iff (cs : List Call) (hb : Body false cs) (h : (checks false cs).length < 2 ^ 31)
    (code : BitVec 32) (s : St) (hr : program (.noPlan :: cs) {} = .exit code s) :
    Success (verdict s.out (code8 code)) ↔ ∀ c ∈ checks false cs, c.good = true := by
  obtain ⟨code', s', h1, h2, h3⟩ := unplanned_run cs hb h
  rw [hr] at h1
  injection h1 with h1a h1b
  subst h1a; subst h1b
  unfold verdict
  rw [h2, List.foldl_append, success_iff]
  have hf := foldl_lines (checks false cs) {} (by simp) (by simp)
  simp only at hf
  rw [hf]
  simp only [List.foldl_cons, List.foldl_nil, List.nil_append, Nat.zero_add]
  have hp : ∃ e : PlanSeen, see { testno := (checks false cs).length
                                  res := (checks false cs).map Check.res }
        (.plan ((checks false cs).length : Int)) =
      { testno := (checks false cs).length
        planned := (checks false cs).length
        seen := e
        res := (checks false cs).map Check.res ++ (if (checks false cs).length = 0 then [.skip] else []) } ∧
      e ≠ .no := by
    refine ⟨if (checks false cs).length ≥ 1 then .late else .early, ?_, ?_⟩
    · have : ¬ ((checks false cs).length : Int) < 0 := by omega
      by_cases h0 : (checks false cs).length = 0
      · simp [see, seePlan, h0]
      · simp [see, seePlan, h0]
        intro hh; exact absurd hh this
    · split <;> simp
  obtain ⟨e, hp, he⟩ := hp
  rw [hp]
  simp only [finish, he, if_false, ne_eq, not_true, List.append_nil]
  constructor
  · rintro ⟨e1, e2, e3⟩
    apply (map_res_good _).1
    simp only [List.mem_append, not_or] at e1 e2 e3
    exact ⟨e1.1.1, e2.1.1, e3.1.1⟩
  · intro hg
    rw [countP_bad_zero _ hg] at h3
    have hm := (map_res_good _).2 hg
    simp only [code8, h3, Nat.zero_mod, if_true, List.append_nil, List.mem_append, not_or]
    refine ⟨⟨hm.1, ?_⟩, ⟨hm.2.1, ?_⟩, ⟨hm.2.2, ?_⟩⟩ <;> split <;> simp

/-- A program that skips everything is no failure. -/
theorem skip_all_success : ∃ s, program [.skipAll] {} = .exit 0#32 s ∧ verdict s.out (code8 0#32) = .skip :=
  ⟨_, rfl, by decide⟩

/-! ### The exit status alone -/

/-- How far a run is from its plan, as `exit_status` counts it. -/
def deviation (n : Nat) (cs : List Check) : Nat :=
  if n < cs.length then cs.length - n else cs.countP Check.bad + (n - cs.length)

/-- **C96, partial.** Missing: deviations of 256 or more.  As long as fewer than 256 checks failed, were left
out or were too many, the exit status the parent sees is 0 exactly if the plan was met and no check failed. -/
theorem exit_code_partial (n : BitVec 32) (cs : List Call) (hn : n ≠ 0#32) (hn31 : n.toNat < 2 ^ 31)
    (hb : Body false cs) (h : (checks false cs).length < 2 ^ 31)
    (hd : deviation n.toNat (checks false cs) < 256) (code : BitVec 32) (s : St)
    (hr : program (.planTests n :: cs) {} = .exit code s) :
    code8 code = 0 ↔ (checks false cs).length = n.toNat ∧ (checks false cs).countP Check.bad = 0 := by
  obtain ⟨code', s', h1, h2, h3⟩ := planned_run n cs hn hn31 hb h
  rw [hr] at h1
  injection h1 with h1a h1b
  subst h1a
  unfold deviation at hd
  unfold code8
  by_cases hlt : n.toNat < (checks false cs).length
  · rw [if_pos hlt] at hd h3
    omega
  · rw [if_neg hlt] at hd h3
    omega

theorem checks_replicate (k : Nat) (b : Bool) :
    checks false (List.replicate k (.ok b)) = List.replicate k (.plain b) ∧
      Body false (List.replicate k (.ok b)) := by
  induction k with
  | zero => exact ⟨rfl, trivial⟩
  | succ k ih => exact ⟨by simp [List.replicate_succ, checks, ih.1], by
      simpa [List.replicate_succ, Body] using ih.2⟩

/-- **C96, the negation for the exit status.** A program all of whose `256 * k` planned checks fail exits with
status 0; the driver still reports it. -/
theorem exit_code_wraps (k : Nat) (hk : 0 < k) (hk' : 256 * k < 2 ^ 31) :
    ∃ code s, program (.planTests (BitVec.ofNat 32 (256 * k)) :: List.replicate (256 * k) (.ok false)) {} =
        .exit code s ∧ code8 code = 0 ∧ ¬ Success (verdict s.out (code8 code)) := by
  have ht : (BitVec.ofNat 32 (256 * k)).toNat = 256 * k := by
    rw [BitVec.toNat_ofNat, Nat.mod_eq_of_lt (by omega)]
  have hn : BitVec.ofNat 32 (256 * k) ≠ 0#32 := by
    intro h
    have := congrArg BitVec.toNat h
    rw [ht] at this
    simp at this
    omega
  obtain ⟨hc, hb⟩ := checks_replicate (256 * k) false
  have hlen : (checks false (List.replicate (256 * k) (.ok false))).length = 256 * k := by rw [hc]; simp
  have hbad : (checks false (List.replicate (256 * k) (.ok false))).countP Check.bad = 256 * k := by
    rw [hc]; simp [List.countP_replicate, Check.bad]
  obtain ⟨code, s, h1, h2, h3⟩ := planned_run (BitVec.ofNat 32 (256 * k)) _ hn (by rw [ht]; exact hk') hb
    (by rw [hlen]; exact hk')
  refine ⟨code, s, h1, ?_, ?_⟩
  · rw [hlen, hbad, ht, if_neg (by omega)] at h3
    unfold code8
    omega
  · rw [planned_success_iff _ _ hn (by rw [ht]; exact hk') hb (by rw [hlen]; exact hk') code s h1]
    rintro ⟨-, hg⟩
    have := countP_bad_zero _ hg
    rw [hbad] at this
    omega

/-- Checks without any plan, all of which pass: the exit status is 0, and nothing tells how many were meant to
run; the driver reports the missing plan. -/
theorem forgotten_plan (k : Nat) (hk : k < 2 ^ 31) :
    ∃ code s, program (List.replicate k (.ok true)) {} = .exit code s ∧ code8 code = 0 ∧
      verdict s.out (code8 code) = .error := by
  obtain ⟨hc, hb⟩ := checks_replicate k true
  obtain ⟨s', h1, h2, h3, h4, h5, h6, h7, h8, h9, h10, h11⟩ := calls_body (List.replicate k (.ok true)) 0 0
    {} hb (by simp) rfl rfl (by rw [hc]; simpa using hk)
  rw [hc] at h3 h4
  have he : exitStatus s' = 0#32 := by
    simp [exitStatus, h6, h8, h3, List.countP_replicate, Check.bad]
  refine ⟨0#32, s', ?_, rfl, ?_⟩
  · simp [program, h1, exitWith, h11, he]
  · rw [h4]
    have hs : ((lines 0 (List.replicate k (.plain true))).foldl see {}).seen = .no :=
      (foldl_lines_count 0 (List.replicate k (.plain true)) {}).2.1
    simp only [verdict, globalResult, finish, List.nil_append]
    rw [if_pos]
    simp [hs]

/-- `todo_end` twice frees the message twice. -/
theorem todo_end_twice (pre : List Call) (s : St) (h : calls pre {} = .run s) :
    calls (pre ++ [.todoStart true, .todoEnd, .todoEnd]) {} = .ub := by
  generalize ({} : St) = t at h ⊢
  induction pre generalizing t with
  | nil => simp [calls, call]
  | cons c pre ih =>
    simp only [List.cons_append, calls] at h ⊢
    cases hc : call c t with
    | run t' => rw [hc] at h; exact ih t' h
    | exit code t' => rw [hc] at h; cases h
    | ub => rfl

end Verif.Tap
