import Verif.TapTests
/-
The driver (tests/utils/tap-driver.sh) on any output of any program: which outputs it accepts.
-/

namespace Verif.Tap

/-! ### Specification -/

/-- A result line. -/
structure Result where
  ok : Bool
  num : Int
  dir : Option Dir

def Result.line (r : Result) : Line := .result r.ok r.num r.dir

/-- The result is the one expected: "todo" tests fail, others do not. -/
def Result.expected (r : Result) : Prop := r.ok = true ↔ r.dir ≠ some .todo

/-- The results are numbered from `k + 1` or without number, and as expected. -/
def Fine : Nat → List Result → Prop
  | _, [] => True
  | k, r :: rs => (r.num < 0 ∨ r.num = k + 1) ∧ r.expected ∧ Fine (k + 1) rs

/-- Lines with a meaning: all but `1..-5`. -/
def keep : Line → Bool
  | .plan n => decide (0 ≤ n)
  | _ => true

/-- The number of a plan. -/
def planOf : Line → Option Int
  | .plan n => some n
  | .skipPlan => some 0
  | .result .. => none

/-! ### Proof -/

def Clean (rs : List Res) : Prop := .error ∉ rs ∧ .fail ∉ rs ∧ .xpass ∉ rs

theorem clean_append (a b : List Res) : Clean (a ++ b) ↔ Clean a ∧ Clean b := by
  simp only [Clean, List.mem_append, not_or]
  constructor
  · rintro ⟨⟨a1, b1⟩, ⟨a2, b2⟩, ⟨a3, b3⟩⟩; exact ⟨⟨a1, a2, a3⟩, b1, b2, b3⟩
  · rintro ⟨⟨a1, a2, a3⟩, b1, b2, b3⟩; exact ⟨⟨a1, b1⟩, ⟨a2, b2⟩, ⟨a3, b3⟩⟩

theorem not_clean_error (a : List Res) : ¬ Clean (a ++ [.error]) := by simp [Clean]

/-- Results stay. -/
theorem clean_foldl (ls : List Line) (d : Drv) (h : Clean (ls.foldl see d).res) : Clean d.res := by
  induction ls generalizing d with
  | nil => exact h
  | cons l ls ih =>
    have h1 := ih (see d l) h
    cases l with
    | plan n =>
      simp only [see] at h1
      split at h1
      · exact h1
      · simp only [seePlan] at h1
        split at h1
        · exact (clean_append _ _).1 h1 |>.1
        · split at h1
          · exact (clean_append _ _).1 h1 |>.1
          · exact h1
    | skipPlan =>
      simp only [see, seePlan] at h1
      split at h1
      · exact (clean_append _ _).1 h1 |>.1
      · split at h1
        · exact (clean_append _ _).1 h1 |>.1
        · exact h1
    | result ok num dir => exact (clean_append _ _).1 h1 |>.1

theorem see_neg (d : Drv) (l : Line) (h : keep l = false) : see d l = d := by
  cases l with
  | plan n =>
    have : n < 0 := by simpa [keep] using h
    simp [see, this]
  | skipPlan => simp [keep] at h
  | result => simp [keep] at h

theorem foldl_keep (ls : List Line) (d : Drv) : ls.foldl see d = (ls.filter keep).foldl see d := by
  induction ls generalizing d with
  | nil => rfl
  | cons l ls ih =>
    cases hk : keep l with
    | true => rw [List.filter_cons_of_pos (by simpa using hk), List.foldl_cons, List.foldl_cons, ih]
    | false => rw [List.filter_cons_of_neg (by simp [hk]), List.foldl_cons, see_neg d l hk, ih]

theorem see_plan (d : Drv) (l : Line) (n : Int) (hk : keep l = true) (hp : planOf l = some n) :
    see d l = seePlan d n := by
  cases l with
  | plan m =>
    have : ¬ m < 0 := by simpa [keep] using hk
    simp only [planOf, Option.some.injEq] at hp
    subst hp
    simp [see, this]
  | skipPlan => simp only [planOf, Option.some.injEq] at hp; simp [see, hp]
  | result => simp [planOf] at hp

/-- The judgement of one result. -/
theorem judge_clean (d : Drv) (r : Result) :
    Clean [judge d r.ok r.num r.dir] ↔
      d.seen ≠ .late ∧ (d.seen = .no ∨ (d.testno : Int) ≤ d.planned) ∧ (r.num < 0 ∨ r.num = d.testno) ∧ r.expected := by
  unfold judge
  by_cases h : d.seen = .late ∨ (d.seen ≠ .no ∧ (d.testno : Int) > d.planned) ∨ (0 ≤ r.num ∧ r.num ≠ d.testno)
  · rw [if_pos h]
    constructor
    · intro hc; exact absurd hc (by simp [Clean])
    · rintro ⟨h1, h2, h3, -⟩
      rcases h with h | ⟨h4, h5⟩ | ⟨h4, h5⟩
      · exact absurd h h1
      · rcases h2 with h2 | h2
        · exact absurd h2 h4
        · omega
      · omega
  · rw [if_neg h]
    simp only [not_or, not_and] at h
    obtain ⟨h1, h2, h3⟩ := h
    have e1 : d.seen ≠ .late ∧ (d.seen = .no ∨ (d.testno : Int) ≤ d.planned) ∧ (r.num < 0 ∨ r.num = d.testno) := by
      refine ⟨h1, ?_, ?_⟩
      · by_cases hn : d.seen = .no
        · exact .inl hn
        · exact .inr (by have := h2 hn; omega)
      · by_cases hn : 0 ≤ r.num
        · right
          by_cases he : r.num = d.testno
          · exact he
          · exact absurd he (h3 hn)
        · left; omega
    have e2 : Clean [match r.dir with
        | some .todo => if r.ok then .xpass else .xfail
        | some .skip => if r.ok then .skip else .fail
        | none => if r.ok then .pass else .fail] ↔ r.expected := by
      rcases r with ⟨ok, num, dir⟩
      cases ok <;> rcases dir with _ | _ | _ <;> simp [Clean, Result.expected]
    constructor
    · intro hc; exact ⟨e1.1, e1.2.1, e1.2.2, e2.1 hc⟩
    · rintro ⟨_, _, _, he⟩; exact e2.2 he

theorem late_clean (ls : List Line) (hk : ∀ l ∈ ls, keep l = true) (d : Drv) (hs : d.seen = .late)
    (h : Clean (ls.foldl see d).res) : ls = [] := by
  cases ls with
  | nil => rfl
  | cons l ls =>
    exfalso
    have h1 := clean_foldl ls (see d l) h
    cases hp : planOf l with
    | some n =>
      rw [see_plan d l n (hk l (by simp)) hp, seePlan, if_pos (by simp [hs])] at h1
      exact not_clean_error _ h1
    | none =>
      cases l with
      | result ok num dir =>
        have h2 := (clean_append _ _).1 h1 |>.2
        exact ((judge_clean { d with testno := d.testno + 1 } ⟨ok, num, dir⟩).1 h2).1 hs
      | plan n => cases hp
      | skipPlan => cases hp

theorem early_clean (ls : List Line) (hk : ∀ l ∈ ls, keep l = true) (d : Drv) (hs : d.seen = .early)
    (h : Clean (ls.foldl see d).res) :
    ∃ rs : List Result, ls = rs.map Result.line ∧ Fine d.testno rs ∧
      (ls.foldl see d).testno = d.testno + rs.length ∧ (ls.foldl see d).planned = d.planned := by
  induction ls generalizing d with
  | nil => exact ⟨[], rfl, trivial, rfl, rfl⟩
  | cons l ls ih =>
    have h1 := clean_foldl ls (see d l) h
    cases hp : planOf l with
    | some n =>
      rw [see_plan d l n (hk l (by simp)) hp, seePlan, if_pos (by simp [hs])] at h1
      exact absurd h1 (not_clean_error _)
    | none =>
      cases l with
      | result ok num dir =>
        have h2 := (clean_append _ _).1 h1 |>.2
        obtain ⟨-, -, h3, h4⟩ := (judge_clean { d with testno := d.testno + 1 } ⟨ok, num, dir⟩).1 h2
        obtain ⟨rs, e1, e2, e3, e4⟩ := ih (fun l hl => hk l (List.mem_cons_of_mem _ hl)) (see d (.result ok num dir)) hs h
        refine ⟨⟨ok, num, dir⟩ :: rs, by rw [e1]; rfl, ⟨by simpa using h3, h4, e2⟩, ?_, e4⟩
        rw [List.foldl_cons, e3, List.length_cons]
        show d.testno + 1 + _ = _
        omega
      | plan n => cases hp
      | skipPlan => cases hp

theorem no_clean (ls : List Line) (hk : ∀ l ∈ ls, keep l = true) (d : Drv) (hs : d.seen = .no) (hd : 0 < d.testno)
    (h : Clean (ls.foldl see d).res) (hseen : (ls.foldl see d).seen ≠ .no) :
    ∃ (rs : List Result) (pl : Line) (n : Int), ls = rs.map Result.line ++ [pl] ∧ planOf pl = some n ∧ Fine d.testno rs ∧
      (ls.foldl see d).testno = d.testno + rs.length ∧ (ls.foldl see d).planned = n := by
  induction ls generalizing d with
  | nil => exact absurd hs hseen
  | cons l ls ih =>
    have h1 := clean_foldl ls (see d l) h
    cases hp : planOf l with
    | some n =>
      have hsee : see d l = { d with planned := n, seen := .late } := by
        rw [see_plan d l n (hk l (by simp)) hp, seePlan, if_neg (by simp [hs])]
        dsimp only
        rw [if_neg (by intro hh; omega), if_pos (by omega)]
      rw [List.foldl_cons, hsee] at h
      have hnil := late_clean ls (fun l hl => hk l (List.mem_cons_of_mem _ hl)) _ rfl h
      subst hnil
      refine ⟨[], l, n, rfl, hp, trivial, ?_, ?_⟩
      · rw [List.foldl_cons, hsee]; rfl
      · rw [List.foldl_cons, hsee]; rfl
    | none =>
      cases l with
      | result ok num dir =>
        have h2 := (clean_append _ _).1 h1 |>.2
        obtain ⟨-, -, h3, h4⟩ := (judge_clean { d with testno := d.testno + 1 } ⟨ok, num, dir⟩).1 h2
        obtain ⟨rs, pl, n, e1, e2, e3, e4, e5⟩ :=
          ih (fun l hl => hk l (List.mem_cons_of_mem _ hl)) (see d (.result ok num dir)) hs (Nat.succ_pos _) h hseen
        refine ⟨⟨ok, num, dir⟩ :: rs, pl, n, by rw [e1]; rfl, e2, ⟨by simpa using h3, h4, e3⟩, ?_, e5⟩
        rw [List.foldl_cons, e4, List.length_cons]
        show d.testno + 1 + _ = _
        omega
      | plan n => cases hp
      | skipPlan => cases hp

theorem fine_foldl (rs : List Result) (d : Drv) (hs : d.seen ≠ .late)
    (hp : d.seen = .no ∨ ((d.testno + rs.length : Nat) : Int) ≤ d.planned) (hd : Clean d.res) (hf : Fine d.testno rs) :
    Clean ((rs.map Result.line).foldl see d).res ∧ ((rs.map Result.line).foldl see d).testno = d.testno + rs.length ∧
      ((rs.map Result.line).foldl see d).seen = d.seen ∧ ((rs.map Result.line).foldl see d).planned = d.planned := by
  induction rs generalizing d with
  | nil => exact ⟨hd, rfl, rfl, rfl⟩
  | cons r rs ih =>
    obtain ⟨f1, f2, f3⟩ := hf
    have hj := (judge_clean { d with testno := d.testno + 1 } r).2
      ⟨hs, hp.imp id (fun h => by simp only [List.length_cons] at h; show ((d.testno + 1 : Nat) : Int) ≤ d.planned; omega),
        by simpa using f1, f2⟩
    obtain ⟨i1, i2, i3, i4⟩ := ih (see d r.line) hs
      (hp.imp id (fun h => by
        simp only [List.length_cons] at h
        show ((d.testno + 1 + rs.length : Nat) : Int) ≤ d.planned
        omega))
      ((clean_append _ _).2 ⟨hd, hj⟩) f3
    refine ⟨i1, ?_, i3, i4⟩
    rw [List.map_cons, List.foldl_cons, i2, List.length_cons]
    show d.testno + 1 + _ = _
    omega

theorem finish_clean (d : Drv) (code : Nat) :
    Clean (finish d code) ↔ Clean d.res ∧ d.seen ≠ .no ∧ d.planned = d.testno ∧ code = 0 := by
  unfold finish
  rw [clean_append, clean_append]
  by_cases h1 : d.seen = .no
  · simp [h1, Clean]
  · by_cases h2 : d.planned = d.testno
    · by_cases h3 : code = 0
      · simp [h1, h2, h3, Clean]
      · simp [h1, h2, h3, Clean]
    · simp [h1, h2, Clean]

/-- **C96.** Whatever a program prints: the driver accepts it exactly if its exit status is 0, and its results are
those expected, in order, with one plan before or after all of them that gives their number. -/
theorem verdict_success_iff (ls : List Line) (code : Nat) :
    Success (verdict ls code) ↔
      code = 0 ∧ ∃ (rs : List Result) (pl : Line), planOf pl = some (rs.length : Int) ∧ Fine 0 rs ∧
        (ls.filter keep = pl :: rs.map Result.line ∨ ls.filter keep = rs.map Result.line ++ [pl]) := by
  unfold verdict
  rw [success_iff, foldl_keep]
  show Clean (finish _ code) ↔ _
  rw [finish_clean]
  have hk : ∀ l ∈ ls.filter keep, keep l = true := fun l hl => (List.mem_filter.1 hl).2
  generalize ls.filter keep = ks at hk
  constructor
  · rintro ⟨h1, h2, h3, h4⟩
    refine ⟨h4, ?_⟩
    cases ks with
    | nil => exact absurd rfl h2
    | cons l ks =>
      have hk' : ∀ l ∈ ks, keep l = true := fun l hl => hk l (List.mem_cons_of_mem _ hl)
      cases hp : planOf l with
      | some n =>
        have hsee : ∃ res, see {} l = { planned := n, seen := .early, res := res } := by
          rw [see_plan {} l n (hk l (by simp)) hp]
          by_cases hn : n = 0 <;> simp [seePlan, hn]
        obtain ⟨res, hsee⟩ := hsee
        rw [List.foldl_cons, hsee] at h1 h2 h3
        obtain ⟨rs, e1, e2, e3, e4⟩ := early_clean ks hk' _ rfl h1
        refine ⟨rs, l, ?_, e2, .inl (by rw [e1])⟩
        rw [e4, e3] at h3
        dsimp only at h3
        rw [hp, h3]
        simp
      | none =>
        cases l with
        | result ok num dir =>
          have h5 := clean_foldl ks (see {} (.result ok num dir)) h1
          have h6 := (clean_append _ _).1 h5 |>.2
          obtain ⟨-, -, h7, h8⟩ := (judge_clean { testno := 1 } ⟨ok, num, dir⟩).1 h6
          obtain ⟨rs, pl, n, e1, e2, e3, e4, e5⟩ := no_clean ks hk' (see {} (.result ok num dir)) rfl (Nat.succ_pos _) h1 h2
          refine ⟨⟨ok, num, dir⟩ :: rs, pl, ?_, ⟨by simpa using h7, h8, e3⟩, .inr (by rw [e1]; rfl)⟩
          rw [List.foldl_cons, e5, e4] at h3
          rw [e2, h3, List.length_cons]
          congr 2
          show 0 + 1 + rs.length = _
          omega
        | plan n => cases hp
        | skipPlan => cases hp
  · rintro ⟨h4, rs, pl, hp, hf, h | h⟩
    · have hkl : keep pl = true := hk pl (by rw [h]; simp)
      have hsee : ∃ res, see {} pl = { planned := rs.length, seen := .early, res := res } ∧ Clean res := by
        rw [see_plan {} pl _ hkl hp]
        by_cases hn : (rs.length : Int) = 0
        · exact ⟨[.skip], by simp [seePlan, hn], by simp [Clean]⟩
        · exact ⟨[], by simp only [seePlan]; rw [if_neg (by simp), if_neg (fun h => hn h.1)]; rfl, by simp [Clean]⟩
      obtain ⟨res, hsee, hc⟩ := hsee
      rw [h, List.foldl_cons, hsee]
      obtain ⟨i1, i2, i3, i4⟩ := fine_foldl rs { planned := rs.length, seen := .early, res := res } (by simp)
        (.inr (by simp)) hc hf
      refine ⟨i1, by rw [i3]; simp, ?_, h4⟩
      rw [i4, i2]
      simp
    · have hkl : keep pl = true := hk pl (by rw [h]; simp)
      obtain ⟨i1, i2, i3, i4⟩ := fine_foldl rs {} (by simp) (.inl rfl) (by simp [Clean]) hf
      rw [h, List.foldl_append, List.foldl_cons, List.foldl_nil, see_plan _ pl _ hkl hp, seePlan,
        if_neg (by rw [i3]; simp)]
      generalize (rs.map Result.line).foldl see {} = d at i1 i2
      have ht : d.testno = rs.length := by rw [i2]; exact Nat.zero_add _
      by_cases h0 : (rs.length : Int) = 0 ∧ d.testno = 0
      · dsimp only
        rw [if_pos h0]
        refine ⟨(clean_append _ _).2 ⟨i1, by simp [Clean]⟩, ?_, ?_, h4⟩
        · dsimp only; split <;> simp
        · dsimp only; rw [ht]
      · dsimp only
        rw [if_neg h0]
        refine ⟨i1, ?_, ?_, h4⟩
        · dsimp only; split <;> simp
        · dsimp only; rw [ht]

/-- A run the driver accepts: the plan comes last, the second test is a "todo" one and has no number. -/
example : ∃ (ls : List Line), ls.filter keep ≠ ls ∧ Success (verdict ls 0) ∧
    ls = [.plan (-5), .result true 1 none, .result false (-1) (some .todo), .plan 2] :=
  ⟨_, by decide, by unfold Success; decide, rfl⟩

/-! ### The exit status of fork_test -/

/-- **C96.** If the child ends by itself, the parent's exit status is the number of failed checks of both. -/
theorem fork_test_exit_code (p1 p2 c1 c2 : Bool) :
    ∃ ls, forkTest p1 p2 c1 c2 (.child .exits true) = some (ls, [p1, p2, c1, c2].count false) := by
  cases p1 <;> cases p2 <;> cases c1 <;> cases c2 <;> exact ⟨_, rfl⟩

example : ∃ ls, forkTest true false true false (.child .exits true) = some (ls, 2) := fork_test_exit_code ..

end Verif.Tap
