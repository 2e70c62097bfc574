import Verif.MempoolForkTests
import Verif.MempoolInstMore
/-
C112: what the checks of tests/mempool_test.c that run in a child tell.
-/
namespace Verif.Mempool
open Verif Verif.Mem

section
variable [Abi]

/-- C112: if `waitpid` works and neither program is undefined, a robust check passes exactly if `fork` worked, the pool
was created and the test function was ended by `abort()`. -/
theorem robust_check_iff (y : Sys) (hw : y.waitOk = true) (pool : CreateRes) (hp : pool ≠ .ub) (test : Config → State → Outcome Unit)
    (ht : ∀ c s, pool = .pool c s → test c s ≠ .ub) :
    runRobustTest y pool test = true ↔ y.forkOk = true ∧ ∃ c s w, pool = .pool c s ∧ test c s = .aborted w := by
  have h0 : (wifsignaled (1 % 256 * 256) && (6 == wtermsig (1 % 256 * 256))) = false := by decide
  unfold runRobustTest waited
  rw [hw]
  cases hf : y.forkOk with
  | false => simp
  | true =>
    simp only [if_true, true_and]
    cases pool with
    | null e =>
      refine iff_of_false (fun h => ?_) (fun ⟨c, s, w, e, _⟩ => by cases e)
      dsimp only [childStatus] at h
      rw [h0] at h; cases h
    | ub => exact absurd rfl hp
    | pool c s =>
      dsimp only
      cases he : test c s with
      | ub => exact absurd he (ht c s rfl)
      | ok u =>
        refine iff_of_false (fun h => ?_) ?_
        · dsimp only [childStatus] at h
          rw [h0] at h; cases h
        · rintro ⟨c', s', w, e, e'⟩
          cases e
          rw [he] at e'; cases e'
      | aborted w =>
        refine iff_of_true ?_ ⟨c, s, w, rfl, he⟩
        dsimp only [childStatus]
        cases y.core <;> decide

/-- C112: the robust checks (312-332) pass, for both policies, on every system that lets the test fork, wait and create its pool. -/
theorem robust_checks_pass (y : Sys) (hw : y.waitOk = true) (hf : y.forkOk = true)
    (policy pg detected : Nat) (hpg : ∃ k, pg = 2 ^ k) (callocOk nameOk : Bool) (env0 : RangeEnv) (m : Mem)
    (hwf : m.WF) (c : Config) (s : State) (henv0 : EnvOK c [] m env0)
    (h : create (some (testPoolAttr policy)) testDataLen pg detected callocOk nameOk env0 m = .pool c s)
    (env env2 env3 : RangeEnv) (henv : EnvOK c s.pool.ranges s.mem env) (ok : Nat → Bool) (fn : Word) (hfn : fn ≠ 0#_)
    (hout : ∀ p s1, malloc c (.plain 0) env s = .ok (.ptr p, s1) → ∀ r ∈ s1.pool.ranges, ¬ InRegion c r.base fn.toNat) :
    let P := create (some (testPoolAttr policy)) testDataLen pg detected callocOk nameOk env0 m
    runRobustTest y P (fun c s => testDoubleFree c env s) = true ∧
    runRobustTest y P (fun c s => testMemoryLeak c env ok s) = true ∧
    runRobustTest y P (fun c s => testPoisonMalloc c env env2 s) = true ∧
    runRobustTest y P (fun c s => testPoisonDestroy c env ok s) = true ∧
    runRobustTest y P (fun c s => testCorruptAfterFree c fn env ok s) = true ∧
    runRobustTest y P (fun c s => testFreeListCorruption c env env2 env3 s) = true := by
  intro P
  obtain ⟨t1, t2, t3, t4, ⟨w, t5⟩, t6, _⟩ :=
    mempool_robust_tests policy pg detected hpg callocOk nameOk env0 m hwf c s henv0 h env env2 env3 henv ok fn hfn hout
  have hP : P = .pool c s := h
  have key : ∀ test : Config → State → Outcome Unit, (∃ w, test c s = .aborted w) → runRobustTest y P test = true := by
    rintro test ⟨w, e⟩
    rw [robust_check_iff y hw P (by rw [hP]; exact fun e => by cases e) test (fun c' s' e' => by
      rw [hP] at e'; cases e'; rw [e]; exact fun e => by cases e)]
    exact ⟨hf, c, s, w, hP, e⟩
  exact ⟨key _ ⟨_, t1⟩, key _ ⟨_, t2⟩, key _ ⟨_, t3⟩, key _ ⟨_, t4⟩, key _ ⟨_, t5⟩, key _ ⟨_, t6⟩⟩

/-- C112: what the fork check tests: that `destroy` in the child was not ended by a signal. -/
theorem fork_check_iff (y : Sys) (hw : y.waitOk = true) (pool : CreateRes) (ok : Nat → Bool)
    (ht : ∀ c s, pool = .pool c s → destroy c ok (forkChild c s) ≠ .ub) :
    runForkDestroy y pool ok = some true ↔ y.forkOk = true ∧ ∃ c s d, pool = .pool c s ∧ destroy c ok (forkChild c s) = .ok d := by
  unfold runForkDestroy waited
  rw [hw]
  cases pool with
  | null e => exact iff_of_false (fun h => by cases h) (fun ⟨_, c, s, d, e, _⟩ => by cases e)
  | ub => exact iff_of_false (fun h => by cases h) (fun ⟨_, c, s, d, e, _⟩ => by cases e)
  | pool c s =>
    cases hf : y.forkOk with
    | false => simp
    | true =>
      simp only [if_true, true_and]
      cases he : destroy c ok (forkChild c s) with
      | ub => exact absurd he (ht c s rfl)
      | ok d =>
        refine iff_of_true ?_ ⟨c, s, d, rfl, he⟩
        dsimp only [childStatus]
        decide
      | aborted w =>
        refine iff_of_false (fun h => ?_) ?_
        · revert h
          dsimp only [childStatus]
          cases y.core <;> decide
        · rintro ⟨c', s', d, e, e'⟩
          cases e
          rw [he] at e'; cases e'

/-- C112, fork check, what holds: where no `munmap` fails, it passes and the child has unmapped every range.  (That it passes only
if the child has destroyed the pool is false: `fork_check_blind`.) -/
theorem fork_check_partial (y : Sys) (hw : y.waitOk = true) (hf : y.forkOk = true)
    (policy pg detected : Nat) (hpg : ∃ k, pg = 2 ^ k) (callocOk nameOk : Bool) (env0 : RangeEnv) (m : Mem)
    (hwf : m.WF) (c : Config) (s : State) (henv0 : EnvOK c [] m env0)
    (h : create (some (testPoolAttr policy)) testDataLen pg detected callocOk nameOk env0 m = .pool c s) :
    runForkDestroy y (create (some (testPoolAttr policy)) testDataLen pg detected callocOk nameOk env0 m) (fun _ => true) = some true ∧
    ∃ d, destroy c (fun _ => true) (forkChild c s) = .ok d ∧ d.left = [] ∧ d.unmapped.length = s.pool.ranges.length := by
  obtain ⟨hv, hreach⟩ := create_reach _ _ testDataLen_toNat.2 pg detected hpg callocOk nameOk env0 m hwf c s henv0 h
  have hh : Hist c false ⟨s, [], []⟩ := ⟨hv, hreach false, fun hx => by cases hx⟩
  obtain ⟨acc, l, _, hnl, hlen, e⟩ := destroy_child_loop hh rfl (fun _ => true)
  have e2 := destroyLoop_ok (c := c) (acc := acc) (ok := fun _ => true) (fun _ => rfl) hnl (k := 0) (done := [])
  dsimp only at e hlen
  rw [e2] at e
  refine ⟨?_, _, e, rfl, by simp [hlen]⟩
  rw [fork_check_iff y hw _ _ (fun c' s' e' => by rw [h] at e'; cases e'; rw [e]; exact fun e => by cases e)]
  exact ⟨hf, c, s, _, h, e⟩

/-- C112, negative side (F47): the fork check passes on a system on which the child could not unmap anything: the pool the child
destroyed still has all its ranges. -/
theorem fork_check_blind (y : Sys) (hw : y.waitOk = true) (hf : y.forkOk = true)
    (policy pg detected : Nat) (hpg : ∃ k, pg = 2 ^ k) (callocOk nameOk : Bool) (env0 : RangeEnv) (m : Mem)
    (hwf : m.WF) (c : Config) (s : State) (henv0 : EnvOK c [] m env0)
    (h : create (some (testPoolAttr policy)) testDataLen pg detected callocOk nameOk env0 m = .pool c s) :
    runForkDestroy y (create (some (testPoolAttr policy)) testDataLen pg detected callocOk nameOk env0 m) (fun _ => false) = some true ∧
    ∃ d, destroy c (fun _ => false) (forkChild c s) = .ok d ∧ d.unmapped = [] ∧ d.left.length = s.pool.ranges.length ∧
      d.left ≠ [] ∧ d.freed = false := by
  obtain ⟨hv, hreach⟩ := create_reach _ _ testDataLen_toNat.2 pg detected hpg callocOk nameOk env0 m hwf c s henv0 h
  have hh : Hist c false ⟨s, [], []⟩ := ⟨hv, hreach false, fun hx => by cases hx⟩
  obtain ⟨acc, l, hne, hnl, hlen, e⟩ := destroy_child_loop hh rfl (fun _ => false)
  dsimp only at e hlen
  cases l with
  | nil => exact absurd rfl hne
  | cons r l =>
    unfold destroyLoop at e
    rw [hnl r List.mem_cons_self] at e
    simp only [Bool.false_eq_true, if_false] at e
    refine ⟨?_, _, e, rfl, hlen, List.cons_ne_nil _ _, rfl⟩
    rw [fork_check_iff y hw _ _ (fun c' s' e' => by rw [h] at e'; cases e'; rw [e]; exact fun e => by cases e)]
    exact ⟨hf, c, s, _, h, e⟩

/-- C112, negative side (F53): if `waitpid` fails, the result of a check is that of an uninitialised variable, whatever the child did:
a robust check can pass although nothing was detected, and fail although it was; the fork check can pass although the child
was killed, and fail although it was not. -/
theorem wait_failure_junk (core : Bool) (wild : Nat) (pool : CreateRes) (test : Config → State → Outcome Unit) :
    runRobustTest ⟨true, false, core, wild, 6⟩ pool test = true ∧ runRobustTest ⟨true, false, core, wild, 0⟩ pool test = false ∧
    ∀ c s ok, pool = .pool c s → runForkDestroy ⟨true, false, core, wild, 0⟩ pool ok = some true ∧
      runForkDestroy ⟨true, false, core, wild, 6⟩ pool ok = some false := by
  refine ⟨?_, ?_, ?_⟩
  · unfold runRobustTest waited; simp; decide
  · unfold runRobustTest waited; simp; decide
  · rintro c s ok rfl
    constructor
    · unfold runForkDestroy waited; simp; decide
    · unfold runForkDestroy waited; simp; decide

/-- C112: a child that is killed by another signal (a fault, say) does not pass for an abort; in the fork check it is noticed. -/
theorem other_signal_noticed (y : Sys) (hw : y.waitOk = true) (hf : y.forkOk = true) (hs : 1 ≤ y.wild % 128 ∧ y.wild % 128 ≤ 126)
    (h6 : y.wild % 128 ≠ 6) (c : Config) (s : State) :
    (∀ test : Config → State → Outcome Unit, test c s = .ub → runRobustTest y (.pool c s) test = false) ∧
    ∀ ok, destroy c ok (forkChild c s) = .ub → runForkDestroy y (.pool c s) ok = some false := by
  constructor
  · intro test ht
    unfold runRobustTest waited wtermsig
    dsimp only
    rw [hw, hf, ht]
    dsimp only [childStatus]
    simp only [if_true, Bool.and_eq_false_iff, beq_eq_false_iff_ne]
    exact Or.inr fun e => h6 e.symm
  · intro ok hd
    unfold runForkDestroy waited
    dsimp only
    rw [hw, hf, hd]
    dsimp only [childStatus]
    simp only [if_true]
    rw [(wifsignaled_iff _).2 hs]
    rfl

end

/-! ### The pools of the test -/

attribute [local instance] le64

/-- A system on which everything works. -/
def goodSys : Sys := ⟨true, true, true, 11, 12345⟩

/-- The fork check on the pools of the test, both policies: passes with working and with failing `munmap`. -/
example (policy : Nat) (hp : policy = 0 ∨ policy = 1) : ∃ P c s, P = CreateRes.pool c s ∧ c.cow = (policy == 0) ∧
    runForkDestroy goodSys P (fun _ => true) = some true ∧ runForkDestroy goodSys P (fun _ => false) = some true ∧
    ∃ d, destroy c (fun _ => false) (forkChild c s) = .ok d ∧ d.left ≠ [] := by
  obtain ⟨c, s, _, _, hcow, _, henv, _, e, _⟩ := ex_test_pools policy hp
  have hwf : Mem.WF ⟨fun _ => 0#8, fun _ => none⟩ := fun p q h => by cases h
  have h1 := fork_check_partial goodSys rfl rfl policy 4096 8 ⟨12, rfl⟩ true true _ _ hwf c s henv e
  have h2 := fork_check_blind goodSys rfl rfl policy 4096 8 ⟨12, rfl⟩ true true _ _ hwf c s henv e
  obtain ⟨d, hd, _, _, hl, _⟩ := h2.2
  exact ⟨_, c, s, e, hcow, h1.1, h2.1, d, hd, hl⟩

/-- A robust check on the pools of the test; it fails for a test function that returns. -/
example (policy : Nat) (hp : policy = 0 ∨ policy = 1) : ∃ P c s, P = CreateRes.pool c s ∧ c.cow = (policy == 0) ∧
    runRobustTest goodSys P (fun c s => testDoubleFree c { base := none } s) = true ∧
    runRobustTest goodSys P (fun _ _ => .ok ()) = false ∧ runRobustTest goodSys P (fun _ _ => .ub) = false := by
  obtain ⟨c, s, _, _, hcow, _, henv, _, e, _⟩ := ex_test_pools policy hp
  have hwf : Mem.WF ⟨fun _ => 0#8, fun _ => none⟩ := fun p q h => by cases h
  obtain ⟨hv, hre⟩ := create_reach _ _ (by decide) 4096 8 ⟨12, rfl⟩ true true _ _ hwf c s henv e
  have hh : Hist c false ⟨s, [], []⟩ := ⟨hv, hre false, fun h => by cases h⟩
  have hpg : c.pg = 4096 := by
    obtain ⟨k, _, _, _, hp, _⟩ := create_validates (some (testPoolAttr policy)) testDataLen (by decide) 4096 8 true true
      { base := some 0x100000 } ⟨fun _ => 0#8, fun _ => none⟩
    exact (hp c s e).1.pg
  have h1 := (robust_checks_pass goodSys rfl rfl policy 4096 8 ⟨12, rfl⟩ true true _ _ hwf c s henv e { base := none }
    { base := none } { base := none } (ex_env ..) (fun _ => true) 4096#64 (by decide) (fun p s1 hm => ex_fn_outside hh hpg p s1 hm)).1
  refine ⟨_, c, s, e, hcow, h1, ?_, ?_⟩
  · cases hr : runRobustTest goodSys (create (some (testPoolAttr policy)) testDataLen 4096 8 true true { base := some 0x100000 }
        ⟨fun _ => 0#8, fun _ => none⟩) (fun _ _ => .ok ()) with
    | false => rfl
    | true =>
      obtain ⟨_, _, _, w, _, e'⟩ := (robust_check_iff goodSys rfl _ (by rw [e]; exact fun e => by cases e) _
        (fun _ _ _ => fun e => by cases e)).1 hr
      cases e'
  · rw [e]
    exact (other_signal_noticed goodSys rfl rfl (by decide) (by decide) c s).1 _ rfl

end Verif.Mempool
