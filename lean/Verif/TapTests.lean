import Verif.TapProps

/-
The plans of the test programs (C96): each meets its plan unless a check fails.
-/

namespace Verif.Tap

def oks (bs : List Bool) : List Call := bs.map .ok

theorem checks_oks (bs : List Bool) (cs : List Call) :
    checks false (oks bs ++ cs) = bs.map .plain ++ checks false cs := by
  induction bs with
  | nil => rfl
  | cons b bs ih =>
    have : oks (b :: bs) ++ cs = .ok b :: (oks bs ++ cs) := rfl
    simp [this, checks, ih]

theorem body_oks (bs : List Bool) (cs : List Call) (h : Body false cs) : Body false (oks bs ++ cs) := by
  induction bs with
  | nil => exact h
  | cons b bs ih => exact ih

theorem good_plain (bs : List Bool) :
    (∀ c ∈ bs.map Check.plain, c.good = true) ↔ ∀ b ∈ bs, b = true := by
  constructor
  · intro h b hb
    exact h (.plain b) (List.mem_map.2 ⟨b, hb, rfl⟩)
  · intro h c hc
    obtain ⟨b, hb, rfl⟩ := List.mem_map.1 hc
    exact h b hb

/-- unregistered_test.c:31-55 and syscall_errors_test.c:34-110: `avail` is the answer of `rseq_available`,
`bs` are the checks in order. -/
def flatTest (n : Nat) (avail : Bool) (bs : List Bool) : List Call :=
  .planTests (BitVec.ofNat 32 n) :: (if avail then oks bs else [.skip (BitVec.ofNat 32 n)])

/-- no_syscall_test.c:33-57. -/
def noSyscallTest (avail : Bool) (bs : List Bool) : List Call :=
  .planTests 4#32 :: (if avail then [.ok false] else oks bs)

/-- basic_percpu_ops_test.c:325-357 (`inner` holds the results of lines 170 and 322) and
basic_percpu_benchmark.c:240-304 (`inner` is empty); both end early when registration fails. -/
def percpuTest (avail reg valid : Bool) (inner : List Bool) (unreg : Bool) : List Call :=
  .planTests (BitVec.ofNat 32 (inner.length + 2)) ::
    (if !avail then [.skip (BitVec.ofNat 32 (inner.length + 2))]
     else if !reg then [.ok false]
     else .ok true :: (if !valid then [.skip (BitVec.ofNat 32 (inner.length + 1))]
       else oks inner ++ [.ok unreg]))

/-- basic_test.c:78-110. -/
def basicTest (avail reg : Bool) (inner : List Bool) (unreg : Bool) : List Call :=
  if !avail then [.skipAll]
  else .noPlan :: (if !reg then [.ok false] else .ok true :: (oks inner ++ [.ok unreg]))

theorem ofNat_ne_zero (n : Nat) (h0 : 0 < n) (h : n < 2 ^ 31) :
    BitVec.ofNat 32 n ≠ 0#32 ∧ (BitVec.ofNat 32 n).toNat = n := by
  have ht : (BitVec.ofNat 32 n).toNat = n := by rw [BitVec.toNat_ofNat, Nat.mod_eq_of_lt (by omega)]
  refine ⟨?_, ht⟩
  intro h
  have := congrArg BitVec.toNat h
  rw [ht] at this
  simp at this
  omega

/-- The driver accepts `unregistered_test` and `syscall_errors_test` exactly if the system call is missing or
every check holds. -/
theorem flat_test_success (n : Nat) (h0 : 0 < n) (h : n < 2 ^ 31) (avail : Bool) (bs : List Bool)
    (hl : bs.length = n) :
    ∃ code s, program (flatTest n avail bs) {} = .exit code s ∧
      (Success (verdict s.out (code8 code)) ↔ (avail = true → ∀ b ∈ bs, b = true)) := by
  obtain ⟨hn, ht⟩ := ofNat_ne_zero n h0 h
  cases avail with
  | false =>
    have hc : checks false [.skip (BitVec.ofNat 32 n)] = List.replicate n .skipped := by simp [checks, ht]
    obtain ⟨code, s, h1, -⟩ := planned_run (BitVec.ofNat 32 n) [.skip (BitVec.ofNat 32 n)] hn (by omega)
      trivial (by rw [hc]; simpa using h)
    refine ⟨code, s, h1, ?_⟩
    rw [planned_success_iff _ [.skip (BitVec.ofNat 32 n)] hn (by omega) trivial (by rw [hc]; simpa using h) code s h1,
      hc, ht]
    simp only [List.length_replicate, true_and, Bool.false_eq_true, false_imp_iff, iff_true]
    intro c hcm
    rw [List.eq_of_mem_replicate hcm]; rfl
  | true =>
    have hc : checks false (oks bs) = bs.map .plain := by
      have := checks_oks bs []; simpa [checks] using this
    have hb : Body false (oks bs) := by have := body_oks bs [] trivial; simpa using this
    have hlen : (checks false (oks bs)).length = n := by rw [hc]; simpa using hl
    obtain ⟨code, s, h1, -⟩ := planned_run (BitVec.ofNat 32 n) (oks bs) hn (by omega) hb (by omega)
    refine ⟨code, s, h1, ?_⟩
    rw [planned_success_iff _ _ hn (by omega) hb (by omega) code s h1, hlen, ht, hc, good_plain]
    simp

/-- The driver accepts `no_syscall_test` exactly if the system call is missing and every check holds. -/
theorem no_syscall_test_success (avail : Bool) (bs : List Bool) (hl : bs.length = 4) :
    ∃ code s, program (noSyscallTest avail bs) {} = .exit code s ∧
      (Success (verdict s.out (code8 code)) ↔ avail = false ∧ ∀ b ∈ bs, b = true) := by
  obtain ⟨hn, ht⟩ := ofNat_ne_zero 4 (by omega) (by omega)
  cases avail with
  | true =>
    obtain ⟨code, s, h1, -⟩ := planned_run 4#32 [.ok false] hn (by omega) trivial (by simp [checks])
    refine ⟨code, s, h1, ?_⟩
    rw [planned_success_iff _ [.ok false] hn (by omega) trivial (by simp [checks]) code s h1]
    simp [checks]
  | false =>
    have hc : checks false (oks bs) = bs.map .plain := by
      have := checks_oks bs []; simpa [checks] using this
    have hb : Body false (oks bs) := by have := body_oks bs [] trivial; simpa using this
    have hlen : (checks false (oks bs)).length = 4 := by rw [hc]; simpa using hl
    obtain ⟨code, s, h1, -⟩ := planned_run 4#32 (oks bs) hn (by omega) hb (by omega)
    refine ⟨code, s, h1, ?_⟩
    rw [planned_success_iff _ _ hn (by omega) hb (by omega) code s h1, hlen, hc, good_plain]
    simp

/-- The driver accepts the per-CPU tests exactly if the system call is missing, or registration succeeded and
either there is no usable CPU number or all checks and the unregistration succeeded. -/
theorem percpu_test_success (avail reg valid : Bool) (inner : List Bool) (unreg : Bool)
    (h : inner.length + 2 < 2 ^ 31) :
    ∃ code s, program (percpuTest avail reg valid inner unreg) {} = .exit code s ∧
      (Success (verdict s.out (code8 code)) ↔
        (avail = true → reg = true ∧ (valid = true → (∀ b ∈ inner, b = true) ∧ unreg = true))) := by
  obtain ⟨hn, ht⟩ := ofNat_ne_zero (inner.length + 2) (by omega) h
  obtain ⟨-, ht1⟩ := ofNat_ne_zero (inner.length + 1) (by omega) (by omega)
  have key : ∀ cs : List Call, Body false cs → (checks false cs).length < 2 ^ 31 →
      ∃ code s, program (.planTests (BitVec.ofNat 32 (inner.length + 2)) :: cs) {} = .exit code s ∧
        (Success (verdict s.out (code8 code)) ↔
          (checks false cs).length = inner.length + 2 ∧ ∀ c ∈ checks false cs, c.good = true) := by
    intro cs hb hlen
    obtain ⟨code, s, h1, -⟩ := planned_run _ cs hn (by omega) hb hlen
    exact ⟨code, s, h1, by rw [planned_success_iff _ _ hn (by omega) hb hlen code s h1, ht]⟩
  cases avail with
  | false =>
    have hc : checks false [.skip (BitVec.ofNat 32 (inner.length + 2))] =
        List.replicate (inner.length + 2) .skipped := by simp [checks, ht]
    obtain ⟨code, s, h1, h2⟩ := key [.skip (BitVec.ofNat 32 (inner.length + 2))] trivial
      (by rw [hc, List.length_replicate]; exact h)
    refine ⟨code, s, h1, ?_⟩
    rw [h2, hc]
    simp only [List.length_replicate, true_and, Bool.false_eq_true, false_imp_iff, iff_true]
    intro c hcm
    rw [List.eq_of_mem_replicate hcm]; rfl
  | true =>
    cases reg with
    | false =>
      obtain ⟨code, s, h1, h2⟩ := key [.ok false] trivial (by simp [checks])
      exact ⟨code, s, h1, by rw [h2]; simp [checks]⟩
    | true =>
      cases valid with
      | false =>
        have hc : checks false [.ok true, .skip (BitVec.ofNat 32 (inner.length + 1))] =
            .plain true :: List.replicate (inner.length + 1) .skipped := by simp [checks, ht1]
        obtain ⟨code, s, h1, h2⟩ := key [.ok true, .skip (BitVec.ofNat 32 (inner.length + 1))] trivial
          (by rw [hc, List.length_cons, List.length_replicate]; omega)
        refine ⟨code, s, h1, ?_⟩
        rw [h2, hc]
        simp only [List.length_cons, List.length_replicate, true_and, Bool.false_eq_true, false_imp_iff,
          and_self, imp_self, iff_true]
        intro c hcm
        rcases List.mem_cons.1 hcm with hcm | hcm
        · rw [hcm]; rfl
        · rw [List.eq_of_mem_replicate hcm]; rfl
      | true =>
        have hc : checks false (.ok true :: (oks inner ++ [.ok unreg])) =
            (true :: (inner ++ [unreg])).map .plain := by
          simp [checks, checks_oks]
        have hb : Body false (.ok true :: (oks inner ++ [.ok unreg])) :=
          body_oks inner [.ok unreg] trivial
        obtain ⟨code, s, h1, h2⟩ := key _ hb (by rw [hc]; simpa using h)
        refine ⟨code, s, h1, ?_⟩
        rw [h2, hc, good_plain]
        simp [or_imp, forall_and]

/-- The driver accepts `basic_test` exactly if the system call is missing or every step succeeds. -/
theorem basic_test_success (avail reg : Bool) (inner : List Bool) (unreg : Bool)
    (h : inner.length + 2 < 2 ^ 31) :
    ∃ code s, program (basicTest avail reg inner unreg) {} = .exit code s ∧
      (Success (verdict s.out (code8 code)) ↔
        (avail = true → reg = true ∧ (∀ b ∈ inner, b = true) ∧ unreg = true)) := by
  cases avail with
  | false =>
    obtain ⟨s, h1, h2⟩ := skip_all_success
    exact ⟨_, s, h1, by rw [h2]; simp [Success]⟩
  | true =>
    cases reg with
    | false =>
      obtain ⟨code, s, h1, -⟩ := unplanned_run [.ok false] trivial (by simp [checks])
      refine ⟨code, s, h1, ?_⟩
      rw [unplanned_success_iff [.ok false] trivial (by simp [checks]) code s h1]
      simp [checks, Check.good]
    | true =>
      have hc : checks false (.ok true :: (oks inner ++ [.ok unreg])) =
          (true :: (inner ++ [unreg])).map .plain := by
        simp [checks, checks_oks]
      have hb : Body false (.ok true :: (oks inner ++ [.ok unreg])) :=
        body_oks inner [.ok unreg] trivial
      have hlen : (checks false (.ok true :: (oks inner ++ [.ok unreg]))).length < 2 ^ 31 := by
        rw [hc]; simpa using h
      obtain ⟨code, s, h1, -⟩ := unplanned_run _ hb hlen
      refine ⟨code, s, h1, ?_⟩
      rw [unplanned_success_iff _ hb hlen code s h1, hc, good_plain]
      simp [or_imp, forall_and]

/-! ### fork_test.c -/

/-- How the child ends: it runs both checks and returns from `main`, or a signal kills it after some of its
checks (`List.take` of their results). -/
inductive ChildEnd
  | exits
  | killed (sig : Fin 127) (after : Nat)

inductive Fork
  | failed
  | child (e : ChildEnd) (waited : Bool)

/-- The status `waitpid` reports: the low seven bits hold the signal, the next byte the exit status. -/
def wstatus (code : BitVec 32) : ChildEnd → Nat
  | .exits => code8 code * 256
  | .killed sig _ => sig.val + 1

/-- `WEXITSTATUS`. -/
def wexitstatus (st : Nat) : Nat := st / 256 % 256

/-- `main` of fork_test.c:49-96 after `rseq_available` (lines 62-95): what both processes print, and the exit
status of the parent.  The parent prints nothing while the child runs (`waitpid`), and nothing afterwards. -/
def forkTest (p1 p2 c1 c2 : Bool) (f : Fork) : Option (List Line × Nat) :=
  match calls [.planTests 4#32, .ok p1, .ok p2] {} with
  | .run s =>
    match f with
    | .failed => some ((cleanup s).out, 1)
    | .child e waited =>
      match e with
      | .exits =>
        match calls [.ok c1, .ok c2] s with
        | .run sc =>
          let code := exitStatus sc
          some ((cleanup sc).out, if waited then wexitstatus (wstatus code .exits) else 1)
        | _ => none
      | .killed sig after =>
        match calls (([.ok c1, .ok c2] : List Call).take after) s with
        | .run sc => some (sc.out, if waited then wexitstatus (wstatus 0#32 (.killed sig after)) else 1)
        | _ => none
  | _ => none

/-- **C96.** The driver accepts `fork_test` exactly if the fork and the wait succeeded, the child ended by
itself, or after its two checks, and all four checks hold. -/
theorem fork_test_success (p1 p2 c1 c2 : Bool) (f : Fork) :
    ∃ ls code, forkTest p1 p2 c1 c2 f = some (ls, code) ∧
      (Success (verdict ls code) ↔
        (p1 = true ∧ p2 = true ∧ c1 = true ∧ c2 = true) ∧
          ∃ e, f = .child e true ∧ ∀ sig after, e = .killed sig after → 2 ≤ after) := by
  cases f with
  | failed =>
    cases p1 <;> cases p2 <;> exact ⟨_, _, rfl, by simp [Success]; decide⟩
  | child e w =>
    cases e with
    | exits =>
      cases p1 <;> cases p2 <;> cases c1 <;> cases c2 <;> cases w <;>
        exact ⟨_, _, rfl, by simp [Success]; decide⟩
    | killed sig after =>
      have hw : wexitstatus (wstatus 0#32 (.killed sig after)) = 0 := by
        have := sig.isLt
        simp only [wexitstatus, wstatus]
        omega
      match after with
      | 0 =>
        cases p1 <;> cases p2 <;> cases w <;>
          exact ⟨_, _, by simp only [forkTest, hw]; rfl, by simp [Success]; decide⟩
      | 1 =>
        cases p1 <;> cases p2 <;> cases c1 <;> cases w <;>
          exact ⟨_, _, by simp only [forkTest, hw]; rfl, by simp [Success]; decide⟩
      | after + 2 =>
        cases p1 <;> cases p2 <;> cases c1 <;> cases c2 <;> cases w <;>
          exact ⟨_, _, by simp only [forkTest, hw, List.take_succ_cons, List.take_nil]; rfl, by simp [Success]; decide⟩

/-- The exit status of `fork_test` alone: 0 for every child killed by a signal, whatever its checks found. -/
theorem fork_test_killed_exit_code (p1 p2 c1 c2 : Bool) (sig : Fin 127) (after : Nat) :
    ∃ ls, forkTest p1 p2 c1 c2 (.child (.killed sig after) true) = some (ls, 0) := by
  obtain ⟨ls, code, h, -⟩ := fork_test_success p1 p2 c1 c2 (.child (.killed sig after) true)
  have hw : wexitstatus (wstatus 0#32 (.killed sig after)) = 0 := by
    have := sig.isLt
    simp only [wexitstatus, wstatus]
    omega
  refine ⟨ls, ?_⟩
  rw [h]
  unfold forkTest at h
  simp only [hw, if_true] at h
  split at h
  · split at h
    · injection h with h; injection h with _ h; rw [← h]
    · cases h
  · cases h

/-! ### Concrete cases -/

/-- Three planned checks: one passes, one fails as expected, one is skipped.  The driver accepts the run. -/
example : (BitVec.ofNat 32 3 : BitVec 32) ≠ 0#32 ∧
    Body false [.ok true, .todoStart true, .ok false, .todoEnd, .skip 1#32] ∧
    checks false [.ok true, .todoStart true, .ok false, .todoEnd, .skip 1#32] =
      [.plain true, .todo false, .skipped] ∧
    (∀ c ∈ checks false [.ok true, .todoStart true, .ok false, .todoEnd, .skip 1#32], c.good = true) := by
  refine ⟨by decide, by simp [Body], by simp [checks], by simp [checks, Check.good]⟩

example : ∃ code s, program [.planTests 3#32, .ok true, .todoStart true, .ok false, .todoEnd, .skip 1#32] {} =
      .exit code s ∧ verdict s.out (code8 code) = .pass :=
  ⟨_, _, rfl, by decide⟩

/-- One check too few, one too many, one failed: rejected, with the exit status counting them. -/
example : (∃ s, program [.planTests 3#32, .ok true, .ok true] {} = .exit 1#32 s ∧
      verdict s.out (code8 1#32) = .error) ∧
    (∃ s, program [.planTests 1#32, .ok true, .ok true, .ok false] {} = .exit 2#32 s ∧
      verdict s.out (code8 2#32) = .error) ∧
    (∃ s, program [.noPlan, .ok true, .ok false] {} = .exit 1#32 s ∧
      verdict s.out (code8 1#32) = .error) :=
  ⟨⟨_, rfl, by decide⟩, ⟨_, rfl, by decide⟩, ⟨_, rfl, by decide⟩⟩

/-- A check of a "todo" section that passes: exit status 0, but not accepted. -/
example : ∃ s, program [.planTests 1#32, .todoStart true, .ok true, .todoEnd] {} = .exit 0#32 s ∧
    verdict s.out (code8 0#32) = .fail :=
  ⟨_, rfl, by decide⟩

/-- `deviation` below 256, and the 256 failing checks. -/
example : deviation 4 [.plain true, .plain false] = 3 ∧ (0 < 1 ∧ 256 * 1 < 2 ^ 31) := by decide

/-- A second plan ends the program with status 255. -/
example : ∃ s, program [.planTests 1#32, .ok true, .noPlan] {} = .exit 255#32 s ∧
    verdict s.out (code8 255#32) = .error :=
  ⟨_, rfl, by decide⟩

/-- `syscall_errors_test` with 8 checks, and the shapes of the other programs. -/
example : (List.replicate 8 true).length = 8 ∧ ([true, true, true, true] : List Bool).length = 4 ∧
    ([true, true] : List Bool).length + 2 = 4 := by decide

/-- `fork_test`: an ordinary run is accepted; a child killed before its checks is reported by the plan only; a
child killed after them is not reported at all. -/
example : (∃ ls, forkTest true true true true (.child .exits true) = some (ls, 0) ∧ verdict ls 0 = .pass) ∧
    (∃ ls, forkTest true true true true (.child (.killed 10 0) true) = some (ls, 0) ∧ verdict ls 0 = .error) ∧
    (∃ ls, forkTest true true true true (.child (.killed 10 2) true) = some (ls, 0) ∧ verdict ls 0 = .pass) :=
  ⟨⟨_, rfl, by decide⟩, ⟨_, rfl, by decide⟩, ⟨_, rfl, by decide⟩⟩

/-- Calls before the second `todo_end`. -/
example : ∃ s, calls [.planTests 2#32, .ok true] {} = .run s ∧ s.testCount = 1#32 := ⟨_, rfl, by decide⟩

end Verif.Tap
