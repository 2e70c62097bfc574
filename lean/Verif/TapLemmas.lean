import Verif.Tap

/-
Lemmas about runs of the test output library.
-/

namespace Verif.Tap

/-! ### Specification: the checks of a test program -/

/-- One check. -/
inductive Check
  | plain (ok : Bool)
  | todo (ok : Bool)
  | skipped
  deriving DecidableEq, Repr

/-- The checks a list of calls makes; the flag says whether a "todo" section is open. -/
def checks : Bool → List Call → List Check
  | _, [] => []
  | td, .ok b :: cs => (if td then .todo b else .plain b) :: checks td cs
  | td, .skip n :: cs => List.replicate n.toNat .skipped ++ checks td cs
  | _, .todoStart _ :: cs => checks true cs
  | _, .todoEnd :: cs => checks false cs
  | td, .planTests _ :: cs => checks td cs
  | td, .noPlan :: cs => checks td cs
  | td, .skipAll :: cs => checks td cs
  | td, .disableCleanup :: cs => checks td cs

/-- Calls between the plan and the end; each `todoEnd` closes a section (the flag says whether one is open). -/
def Body : Bool → List Call → Prop
  | _, [] => True
  | td, .ok _ :: cs => Body td cs
  | td, .skip _ :: cs => Body td cs
  | _, .todoStart _ :: cs => Body true cs
  | td, .todoEnd :: cs => td = true ∧ Body false cs
  | _, .planTests _ :: _ => False
  | _, .noPlan :: _ => False
  | _, .skipAll :: _ => False
  | _, .disableCleanup :: _ => False

/-- A check that failed. -/
def Check.bad : Check → Bool
  | .plain ok => !ok
  | _ => false

/-- A check whose result is what it should be: one of a "todo" section is expected to fail. -/
def Check.good : Check → Bool
  | .plain ok => ok
  | .todo ok => !ok
  | .skipped => true

/-! ### What is printed -/

def Check.line (num : Int) : Check → Line
  | .plain ok => .result ok num none
  | .todo ok => .result ok num (some .todo)
  | .skipped => .result true num (some .skip)

/-- The result lines, numbered from `k + 1`. -/
def lines : Nat → List Check → List Line
  | _, [] => []
  | k, c :: cs => c.line ((k + 1 : Nat) : Int) :: lines (k + 1) cs

theorem lines_append (k : Nat) (a b : List Check) :
    lines k (a ++ b) = lines k a ++ lines (k + a.length) b := by
  induction a generalizing k with
  | nil => simp [lines]
  | cons c a ih => simp [lines, ih, Nat.add_assoc, Nat.add_comm 1]

theorem pd_ofNat (k : Nat) (h : k < 2 ^ 31) : pd (BitVec.ofNat 32 k) = (k : Int) := by
  unfold pd
  rw [BitVec.toInt_eq_toNat_of_lt]
  · simp only [BitVec.toNat_ofNat]
    rw [Nat.mod_eq_of_lt (by omega)]
  · simp only [BitVec.toNat_ofNat]
    rw [Nat.mod_eq_of_lt (by omega)]
    omega

theorem skipLoop_eq (n k : Nat) (s : St) (hk : s.testCount = BitVec.ofNat 32 k) (h : k + n < 2 ^ 31) :
    skipLoop n s = { s with
      testCount := BitVec.ofNat 32 (k + n), out := s.out ++ lines k (List.replicate n .skipped) } := by
  induction n generalizing k s with
  | zero => simp [skipLoop, lines, ← hk]
  | succ n ih =>
    rw [skipLoop, ih (k + 1) _ (by simp [hk, BitVec.ofNat_add]) (by omega)]
    have : pd (s.testCount + 1#32) = ((k + 1 : Nat) : Int) := by
      rw [← pd_ofNat (k + 1) (by omega), hk, BitVec.ofNat_add]
    simp only [this, List.replicate_succ, lines, Check.line, List.append_assoc, List.singleton_append]
    simp [Nat.add_assoc, Nat.add_comm 1]

/-- The state after a body. -/
theorem calls_body (cs : List Call) (k f : Nat) (s : St) (hb : Body s.todo cs)
    (hm : s.todo = true → s.todoMsg ≠ .freed)
    (hk : s.testCount = BitVec.ofNat 32 k) (hf : s.failures = BitVec.ofNat 32 f)
    (h : k + (checks s.todo cs).length < 2 ^ 31) :
    ∃ s', calls cs s = .run s' ∧
      s'.testCount = BitVec.ofNat 32 (k + (checks s.todo cs).length) ∧
      s'.failures = BitVec.ofNat 32 (f + (checks s.todo cs).countP Check.bad) ∧
      s'.out = s.out ++ lines k (checks s.todo cs) ∧
      s'.noCleanup = s.noCleanup ∧ s'.noPlan = s.noPlan ∧ s'.skipAll = s.skipAll ∧
      s'.havePlan = s.havePlan ∧ s'.eTests = s.eTests ∧ s'.testDied = s.testDied ∧
      s'.inited = s.inited := by
  induction cs generalizing k f s with
  | nil => exact ⟨s, rfl, by simp [checks, hk], by simp [checks, hf], by simp [checks, lines], rfl, rfl, rfl,
      rfl, rfl, rfl, rfl⟩
  | cons c cs ih =>
    cases c with
    | planTests n => exact absurd hb (by simp [Body])
    | noPlan => exact absurd hb (by simp [Body])
    | skipAll => exact absurd hb (by simp [Body])
    | disableCleanup => exact absurd hb (by simp [Body])
    | todoStart a =>
      obtain ⟨s', h1, h2⟩ := ih k f { s with todoMsg := if a then .live else .null, todo := true }
        (by simpa [Body] using hb) (by intro _; cases a <;> simp) hk hf (by simpa [checks] using h)
      exact ⟨s', by simpa [calls, call] using h1, by simpa [checks] using h2⟩
    | todoEnd =>
      simp only [Body] at hb
      obtain ⟨s', h1, h2⟩ := ih k f
        { s with todo := false, todoMsg := if s.todoMsg = .live then .freed else .null }
        hb.2 (by simp) hk hf (by simpa [checks] using h)
      exact ⟨s', by simpa [calls, call, hm hb.1] using h1, by simpa [checks] using h2⟩
    | skip n =>
      simp only [Body] at hb
      have hl : k + n.toNat + (checks s.todo cs).length < 2 ^ 31 := by
        simpa [checks, Nat.add_assoc] using h
      have hs := skipLoop_eq n.toNat k s hk (by omega)
      obtain ⟨s', h1, h2, h3, h4, h5⟩ := ih (k + n.toNat) f
        { s with
          testCount := BitVec.ofNat 32 (k + n.toNat)
          out := s.out ++ lines k (List.replicate n.toNat .skipped) } hb hm rfl hf hl
      refine ⟨s', ?_, ?_, ?_, ?_, h5⟩
      · simp only [calls, call, hs]; exact h1
      · rw [h2]; simp [checks, Nat.add_assoc]
      · rw [h3]; simp [checks, List.countP_append, Check.bad, List.countP_replicate]
      · rw [h4]; simp [checks, lines_append, List.append_assoc]
    | ok b =>
      simp only [Body] at hb
      have hl : k + 1 + (checks s.todo cs).length < 2 ^ 31 := by
        simp only [checks, List.length_cons] at h; omega
      have hn : pd (s.testCount + 1#32) = ((k + 1 : Nat) : Int) := by
        rw [← pd_ofNat (k + 1) (by omega), hk, BitVec.ofNat_add]
      have hn' : pd (BitVec.ofNat 32 k + 1#32) = (k : Int) + 1 := by rw [← hk, hn]; rfl
      have ht : s.testCount + 1#32 = BitVec.ofNat 32 (k + 1) := by rw [hk, BitVec.ofNat_add]
      have hff : ∀ x : BitVec 32, x + 1#32 - 1#32 = x := by
        intro x; exact BitVec.add_sub_cancel x _
      have hg : genResult b s = { s with
          testCount := BitVec.ofNat 32 (k + 1)
          failures := BitVec.ofNat 32 (f + (if (if s.todo then Check.todo b else .plain b).bad then 1 else 0))
          out := s.out ++ [(if s.todo then Check.todo b else .plain b).line ((k + 1 : Nat) : Int)] } := by
        cases b <;> cases htd : s.todo <;>
          simp [genResult, htd, hn', ht, hf, hff, Check.bad, Check.line, BitVec.ofNat_add]
      obtain ⟨s', h1, h2, h3, h4, h5⟩ := ih (k + 1)
        (f + (if (if s.todo then Check.todo b else .plain b).bad then 1 else 0)) (genResult b s)
        (by rw [hg]; exact hb) (by rw [hg]; exact hm) (by rw [hg]) (by rw [hg]) (by rw [hg]; exact hl)
      rw [hg] at h1 h2 h3 h4 h5
      refine ⟨s', ?_, ?_, ?_, ?_, h5⟩
      · simp only [calls, call, hg]; exact h1
      · rw [h2]; simp [checks, Nat.add_assoc, Nat.add_comm 1]
      · rw [h3]
        simp only [checks, List.countP_cons]
        congr 1
        omega
      · rw [h4]; simp [checks, lines, List.append_assoc]

/-! ### What the driver reads -/

def Check.res : Check → Res
  | .plain ok => if ok then .pass else .fail
  | .todo ok => if ok then .xpass else .xfail
  | .skipped => .skip

/-- Reading the results in order, without a plan or within it. -/
theorem foldl_lines (cs : List Check) (d : Drv) (hs : d.seen ≠ .late)
    (h : d.seen ≠ .no → ((d.testno + cs.length : Nat) : Int) ≤ d.planned) :
    (lines d.testno cs).foldl see d =
      { d with testno := d.testno + cs.length, res := d.res ++ cs.map Check.res } := by
  induction cs generalizing d with
  | nil => simp [lines]
  | cons c cs ih =>
    have hj : see d (c.line ((d.testno + 1 : Nat) : Int)) =
        { d with testno := d.testno + 1, res := d.res ++ [c.res] } := by
      have hc : ¬(d.seen = .late ∨ (d.seen ≠ .no ∧ ((d.testno + 1 : Nat) : Int) > d.planned) ∨
          ((0 : Int) ≤ ((d.testno + 1 : Nat) : Int) ∧
            ((d.testno + 1 : Nat) : Int) ≠ ((d.testno + 1 : Nat) : Int))) := by
        rintro (h1 | ⟨h1, h2⟩ | h1)
        · exact hs h1
        · have := h h1
          simp only [List.length_cons] at this
          omega
        · exact h1.2 rfl
      cases c <;> simp only [Check.line, see, judge, hc, if_false, if_true, Check.res]
    rw [lines, List.foldl_cons, hj]
    have := ih { d with testno := d.testno + 1, res := d.res ++ [c.res] } hs
      (by intro h1; have := h h1; simp only [List.length_cons] at this ⊢; omega)
    simp only at this
    rw [this]
    simp [Nat.add_assoc, Nat.add_comm 1]

/-- Reading results never changes the plan and counts each of them. -/
theorem foldl_lines_count (k : Nat) (cs : List Check) (d : Drv) :
    ((lines k cs).foldl see d).testno = d.testno + cs.length ∧
      ((lines k cs).foldl see d).seen = d.seen ∧ ((lines k cs).foldl see d).planned = d.planned := by
  induction cs generalizing d k with
  | nil => simp [lines]
  | cons c cs ih =>
    rw [lines, List.foldl_cons]
    obtain ⟨h1, h2, h3⟩ := ih (k + 1) (see d (c.line ((k + 1 : Nat) : Int)))
    rw [h1, h2, h3]
    cases c <;> simp [see, Check.line, Nat.add_assoc, Nat.add_comm 1]

/-- The verdict is a success. -/
def Success (r : Res) : Prop := r = .pass ∨ r = .skip

theorem success_iff (rs : List Res) :
    Success (globalResult rs) ↔ .error ∉ rs ∧ .fail ∉ rs ∧ .xpass ∉ rs := by
  unfold Success globalResult
  by_cases h1 : Res.error ∈ rs
  · simp [h1]
  · by_cases h2 : Res.fail ∈ rs ∨ Res.xpass ∈ rs
    · simp only [h1, if_false, if_pos h2]
      constructor
      · rintro (h | h) <;> cases h
      · rintro ⟨_, h3, h4⟩
        rcases h2 with h2 | h2
        · exact absurd h2 h3
        · exact absurd h2 h4
    · rw [if_neg h1, if_neg h2]
      constructor
      · intro _
        exact ⟨h1, fun h => h2 (Or.inl h), fun h => h2 (Or.inr h)⟩
      · intro _
        by_cases h3 : rs.all (· == .skip) = true
        · right; rw [if_pos h3]
        · left; rw [if_neg h3]

theorem map_res_good (cs : List Check) :
    (.error ∉ cs.map Check.res ∧ .fail ∉ cs.map Check.res ∧ .xpass ∉ cs.map Check.res) ↔
      ∀ c ∈ cs, c.good = true := by
  have hr : ∀ c : Check, (c.res ≠ .error ∧ c.res ≠ .fail ∧ c.res ≠ .xpass) ↔ c.good = true := by
    intro c; cases c with
    | plain ok => cases ok <;> simp [Check.res, Check.good]
    | todo ok => cases ok <;> simp [Check.res, Check.good]
    | skipped => simp [Check.res, Check.good]
  simp only [List.mem_map, not_exists, not_and]
  constructor
  · rintro ⟨h1, h2, h3⟩ c hc
    exact (hr c).1 ⟨h1 c hc, h2 c hc, h3 c hc⟩
  · intro h
    exact ⟨fun c hc => ((hr c).2 (h c hc)).1, fun c hc => ((hr c).2 (h c hc)).2.1,
      fun c hc => ((hr c).2 (h c hc)).2.2⟩

theorem countP_bad_zero (cs : List Check) (h : ∀ c ∈ cs, c.good = true) : cs.countP Check.bad = 0 := by
  rw [List.countP_eq_zero]
  intro c hc
  have := h c hc
  cases c <;> simp_all [Check.good, Check.bad]

end Verif.Tap
