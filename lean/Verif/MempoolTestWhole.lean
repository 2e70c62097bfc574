import Verif.MempoolTestRuns
/-
All of tests/mempool_test.c on the pool model: the checks of the fill test (58-136) one by one, the robust checks and the fork
checks, as `main` (372-404) makes them.

Each test starts with its own memory `m` (an arbitrary one: the tests before it are over, nothing is assumed about what they left
behind except that the memory is well formed).  `Sys`, `CreateRes` as in `MempoolForkTests`.  The operands of the
comparison of line 94 are below 2^32 (strides below 2^22, at most 16 ranges), so that it is one of numbers.
-/
namespace Verif.Mempool
open Verif Verif.Mem

section
variable [Abi]

/-- `POISON_VALUE` (27-31). -/
def poisonValue : Word := if wb = 4 then 0xABCDABCD#_ else 0xABCDABCDABCDABCD#_

/-- `ret == 0` and the attributes after a setter. -/
def applied (r : SetRes) (a : Option Attr) : Bool × Option Attr :=
  match r with
  | .einval => (false, a)
  | .ok a => (true, some a)

/-- Lines 58-70 for the result of `rseq_mempool_attr_create`: the six checks and the attributes. -/
def fillHead (policy max : Nat) (stride : Word) (attr : Option Attr) : List Bool × Option Attr :=
  let x1 := applied (setRobust attr) attr
  let x2 := applied (setPercpu stride 1024 x1.2) x1.2
  let x3 := applied (setMaxRanges max x2.2) x2.2
  let x4 := applied (setPoison poisonValue x3.2) x3.2
  let x5 := applied (setPolicy policy x4.2) x4.2
  ([attr.isSome, x1.1, x2.1, x3.1, x4.1, x5.1], x5.2)

/-- Lines 93-136: the nine checks, or none if the program ends (103, 117, 127, an abort of the library, undefined behaviour). -/
def fillTail (c : Config) (max : Nat) (env1 env2 : RangeEnv) (ok : Nat → Bool) (L : List Nat) (s : State) : Option (List Bool) :=
  match checkAll c L s with
  | none => none
  | some s1 =>
    match freeAll c L s1 with
    | .ok s2 =>
      match malloc c .zero env1 s2 with
      | .ok (.ptr p, s3) =>
        match free c p s3 with
        | .ok s4 =>
          match malloc c (.init initValue (5 * wb)) env2 s4 with
          | .ok (.ptr q, s5) =>
            match free c q s5 with
            | .ok s6 =>
              match destroy c ok s6 with
              | .ok d => some [decide (L.length * c.itemLen = c.stride * max), true, true, true, true, true,
                  decide (loadWord c q s5 = 123#_ ∧ loadWord c (q + wb) s5 = 456#_), true, decide (d.ret = 0)]
              | _ => none
            | _ => none
          | _ => none
        | _ => none
      | _ => none
    | _ => none

/-- The fill test `r`, where the system grants what the test asks for: `attr` and the pool are created, and an allocation is not
refused while the pool may have more ranges. -/
inductive FillTest (pg detected : Nat) (r : Tap.FillRun) : Option (List Bool) → Prop where
  | mk (env0 : RangeEnv) (m : Mem) (c : Config) (s0 s : State) (L : List Nat) (env : RangeEnv) (e : Errno) (s' : State) (env1 env2 : RangeEnv)
      (hwf : m.WF) (henv0 : EnvOK c [] m env0)
      (hc : create (fillHead (policyNr r.cow) r.ranges (BitVec.ofNat _ r.len) (some {})).2 testDataLen pg detected true true env0 m = .pool c s0)
      (hs : FillSteps c s0 s L) (henv : EnvOK c s.pool.ranges s.mem env) (hnr : s.pool.ranges.length < r.ranges → ¬ Refused c env)
      (hnull : malloc c .zero env s = .ok (.null e, s')) :
      FillTest pg detected r ((fillTail c r.ranges env1 env2 (fun _ => true) L s').map fun tl =>
        (fillHead (policyNr r.cow) r.ranges (BitVec.ofNat _ r.len) (some {})).1 ++ true :: tl)

/-- The functions given to `run_robust_test`, in the order of `run_robust_tests` (315-331). -/
def robustProg (i : Nat) (env env2 env3 : RangeEnv) (ok : Nat → Bool) (fn : Word) (c : Config) (s : State) : Outcome Unit :=
  match i with
  | 0 => testDoubleFree c env s
  | 1 => testMemoryLeak c env ok s
  | 2 => testPoisonMalloc c env env2 s
  | 3 => testPoisonDestroy c env ok s
  | 4 => testCorruptAfterFree c fn env ok s
  | _ => testFreeListCorruption c env env2 env3 s

/-- The robust check `i`, where the pool can be created. -/
inductive RobustCheck (y : Sys) (pg detected policy i : Nat) : Bool → Prop where
  | mk (env0 : RangeEnv) (m : Mem) (c : Config) (s : State) (env env2 env3 : RangeEnv) (ok : Nat → Bool) (fn : Word)
      (hwf : m.WF) (henv0 : EnvOK c [] m env0)
      (hc : create (some (testPoolAttr policy)) testDataLen pg detected true true env0 m = .pool c s)
      (henv : EnvOK c s.pool.ranges s.mem env) (hfn : fn ≠ 0#_)
      (hout : ∀ p s1, malloc c (.plain 0) env s = .ok (.ptr p, s1) → ∀ r ∈ s1.pool.ranges, ¬ InRegion c r.base fn.toNat) :
      RobustCheck y pg detected policy i (runRobustTest y
        (create (some (testPoolAttr policy)) testDataLen pg detected true true env0 m) (robustProg i env env2 env3 ok fn))

/-- The fork check, where the pool can be created and `munmap` works. -/
inductive ForkCheck (y : Sys) (pg detected policy : Nat) : Option Bool → Prop where
  | mk (env0 : RangeEnv) (m : Mem) (c : Config) (s : State) (hwf : m.WF) (henv0 : EnvOK c [] m env0)
      (hc : create (some (testPoolAttr policy)) testDataLen pg detected true true env0 m = .pool c s) :
      ForkCheck y pg detected policy (runForkDestroy y (create (some (testPoolAttr policy)) testDataLen pg detected true true env0 m)
        (fun _ => true))

theorem fillHead_some (policy max : Nat) (stride : Word) :
    fillHead policy max stride (some {}) = (List.replicate 6 true, some (fillAttr policy max stride)) := rfl

theorem fillTail_of_rest {c : Config} {max : Nat} {env1 env2 : RangeEnv} {ok : Nat → Bool} {L : List Nat} {s : State}
    (h : fillRest c max env1 env2 ok L s = .ok (some 0)) : fillTail c max env1 env2 ok L s = some (List.replicate 9 true) := by
  unfold fillRest at h
  split at h
  · cases h
  · rename_i hcnt
    have hcnt := Decidable.not_not.1 hcnt
    unfold fillTail
    cases h1 : checkAll c L s with
    | none => rw [h1] at h; cases h
    | some s1 =>
      rw [h1] at h
      dsimp only at h ⊢
      cases h2 : freeAll c L s1 with
      | aborted w => rw [h2] at h; cases h
      | ub => rw [h2] at h; cases h
      | ok s2 =>
        rw [h2] at h
        simp only [Outcome.andThen, mallocThen] at h ⊢
        cases h3 : malloc c .zero env1 s2 with
        | aborted w => rw [h3] at h; cases h
        | ub => rw [h3] at h; cases h
        | ok x3 =>
          obtain ⟨r3, s3⟩ := x3
          cases r3 with
          | null e => rw [h3] at h; cases h
          | ptr p =>
            rw [h3] at h
            dsimp only at h ⊢
            cases h4 : free c p s3 with
            | aborted w => rw [h4] at h; cases h
            | ub => rw [h4] at h; cases h
            | ok s4 =>
              rw [h4] at h
              dsimp only at h ⊢
              cases h5 : malloc c (.init initValue (5 * wb)) env2 s4 with
              | aborted w => rw [h5] at h; cases h
              | ub => rw [h5] at h; cases h
              | ok x5 =>
                obtain ⟨r5, s5⟩ := x5
                cases r5 with
                | null e => rw [h5] at h; cases h
                | ptr q =>
                  rw [h5] at h
                  dsimp only at h ⊢
                  split at h
                  · rename_i hv
                    cases h6 : free c q s5 with
                    | aborted w => rw [h6] at h; cases h
                    | ub => rw [h6] at h; cases h
                    | ok s6 =>
                      rw [h6] at h
                      dsimp only at h ⊢
                      cases h7 : destroy c ok s6 with
                      | aborted w => rw [h7] at h; cases h
                      | ub => rw [h7] at h; cases h
                      | ok d =>
                        rw [h7] at h
                        dsimp only at h ⊢
                        have hd : d.ret = 0 := by
                          injection h with h; injection h
                        rw [decide_eq_true hcnt, decide_eq_true hv, decide_eq_true hd]
                        rfl
                  · cases h

end

end Verif.Mempool
