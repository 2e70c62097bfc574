/-
The test output library (tests/utils/tap.c) and the part of the test driver that judges its output
(tests/utils/tap-driver.sh).
-/

namespace Verif.Tap

/-- What `todo_msg` is: NULL, an allocated string, or a pointer that has been freed (`todo_end` does not
clear it, tap.c:359-369). -/
inductive Msg
  | null
  | live
  | freed
  deriving DecidableEq, Repr

inductive Dir
  | todo
  | skip
  deriving DecidableEq, Repr

/-- A line on standard output. -/
inductive Line
  | plan (n : Int)
  | skipPlan
  | result (ok : Bool) (num : Int) (dir : Option Dir)
  deriving DecidableEq, Repr

/-- The static variables (tap.c:18-29), whether `_cleanup` is registered (`run_once`, 169), and the lines
printed so far. -/
structure St where
  noCleanup : Bool := false
  noPlan : Bool := false
  skipAll : Bool := false
  havePlan : Bool := false
  testCount : BitVec 32 := 0#32
  eTests : BitVec 32 := 0#32
  failures : BitVec 32 := 0#32
  todoMsg : Msg := .null
  todo : Bool := false
  testDied : Bool := false
  inited : Bool := false
  out : List Line := []
  deriving DecidableEq, Repr

/-- `printf("%d")` of an `unsigned int`. -/
def pd (x : BitVec 32) : Int := x.toInt

/-- `_gen_result` (tap.c:65-160).  The name is left out: it is taken to hold no newline and no directive. -/
def genResult (ok : Bool) (s : St) : St :=
  let s := { s with testCount := s.testCount + 1#32 }
  let s := if ok then s else { s with failures := s.failures + 1#32 }
  let dir := if s.todo then some .todo else none
  let s := if s.todo && !ok then { s with failures := s.failures - 1#32 } else s
  { s with out := s.out ++ [.result ok (pd s.testCount) dir] }

/-- The loop of `skip` (tap.c:327-332). -/
def skipLoop : Nat → St → St
  | 0, s => s
  | n + 1, s =>
    let s := { s with testCount := s.testCount + 1#32 }
    skipLoop n { s with out := s.out ++ [.result true (pd s.testCount) (some .skip)] }

/-- `exit_status` (tap.c:371-398); the result as an `int`. -/
def exitStatus (s : St) : BitVec 32 :=
  if s.noPlan || !s.havePlan then s.failures
  else if s.eTests < s.testCount then s.testCount - s.eTests
  else s.failures + s.eTests - s.testCount

/-- `_cleanup` (tap.c:414-466); what it writes to standard error is left out. -/
def cleanup (s : St) : St :=
  if s.noCleanup then s
  else if !s.noPlan && !s.havePlan && !s.skipAll then s
  else if s.testDied then s
  else if !s.skipAll && (s.noPlan || !s.havePlan) then { s with out := s.out ++ [.plan (pd s.testCount)] }
  else s

/-- Calls of the library. -/
inductive Call
  | planTests (n : BitVec 32)
  | noPlan
  | skipAll
  | ok (ok : Bool)
  | skip (n : BitVec 32)
  | todoStart (alloc : Bool)
  | todoEnd
  | disableCleanup

inductive Out
  | run (s : St)
  | exit (code : BitVec 32) (s : St)
  | ub

/-- `exit(code)`: the registered `_cleanup` runs. -/
def exitWith (code : BitVec 32) (s : St) : Out := .exit code (if s.inited then cleanup s else s)

def call (c : Call) (s : St) : Out :=
  match c with
  | .planTests n =>                                   -- tap.c:236-265
    let s := { s with inited := true }
    if s.havePlan then exitWith 255#32 { s with testDied := true }
    else if n = 0#32 then exitWith 255#32 { s with testDied := true }
    else .run { s with havePlan := true, eTests := n, out := s.out ++ [.plan (pd n)] }
  | .noPlan =>                                        -- tap.c:185-206
    let s := { s with inited := true }
    if s.havePlan then exitWith 255#32 { s with testDied := true }
    else .run { s with havePlan := true, noPlan := true }
  | .skipAll =>                                       -- tap.c:211-231
    exitWith 0#32 { s with inited := true, skipAll := true, out := s.out ++ [.skipPlan] }
  | .ok b => .run (genResult b s)
  | .skip n => .run (skipLoop n.toNat s)
  | .todoStart a => .run { s with todoMsg := if a then .live else .null, todo := true }   -- 341-357
  | .todoEnd =>                                       -- 359-369
    if s.todoMsg = .freed then .ub
    else .run { s with todo := false, todoMsg := if s.todoMsg = .live then .freed else .null }
  | .disableCleanup => .run { s with noCleanup := true }

def calls : List Call → St → Out
  | [], s => .run s
  | c :: cs, s =>
    match call c s with
    | .run s => calls cs s
    | o => o

/-- A test program: calls, then `exit(exit_status())`. -/
def program (cs : List Call) (s : St) : Out :=
  match calls cs s with
  | .run s => exitWith (exitStatus s) s
  | o => o

/-- What `wait` reports of `exit(code)`: the low eight bits. -/
def code8 (code : BitVec 32) : Nat := code.toNat % 256

/-! ### The driver -/

inductive Res
  | pass
  | fail
  | skip
  | xpass
  | xfail
  | error
  deriving DecidableEq, Repr

inductive PlanSeen
  | no
  | early
  | late
  deriving DecidableEq, Repr

/-- The variables of the parser (tap-driver.sh:485-503). -/
structure Drv where
  testno : Nat := 0
  planned : Int := 0
  seen : PlanSeen := .no
  res : List Res := []
  deriving DecidableEq, Repr

/-- `setup_result_obj` (357-384) and `stringify_result_obj` (216-234) with `expect_failure` unset.  A negative
number is not recognised as one and the expected number is taken instead. -/
def judge (d : Drv) (ok : Bool) (num : Int) (dir : Option Dir) : Res :=
  if d.seen = .late ∨ (d.seen ≠ .no ∧ (d.testno : Int) > d.planned) ∨ (0 ≤ num ∧ num ≠ d.testno) then .error
  else
    match dir with
    | some .todo => if ok then .xpass else .xfail
    | some .skip => if ok then .skip else .fail
    | none => if ok then .pass else .fail

/-- `handle_tap_plan` (307-338). -/
def seePlan (d : Drv) (n : Int) : Drv :=
  if d.seen ≠ .no then { d with res := d.res ++ [.error] }
  else
    let d := { d with planned := n, seen := if d.testno ≥ 1 then .late else .early }
    if n = 0 ∧ d.testno = 0 then { d with res := d.res ++ [.skip] } else d

/-- One line of input (542-568). -/
def see (d : Drv) : Line → Drv
  | .plan n => if n < 0 then d else seePlan d n       -- "1..-5" is not a plan
  | .skipPlan => seePlan d 0
  | .result ok num dir =>
    let d := { d with testno := d.testno + 1 }
    { d with res := d.res ++ [judge d ok num dir] }

/-- The end of the input (602-621): a plan, as many results as planned, exit status 0. -/
def finish (d : Drv) (code : Nat) : List Res :=
  d.res ++ (if d.seen = .no then [.error] else if d.planned ≠ d.testno then [.error] else []) ++
    (if code = 0 then [] else [.error])

/-- `get_global_test_result` (201-214). -/
def globalResult (rs : List Res) : Res :=
  if .error ∈ rs then .error
  else if .fail ∈ rs ∨ .xpass ∈ rs then .fail
  else if rs.all (· == .skip) then .skip
  else .pass

/-- The verdict of the driver. -/
def verdict (ls : List Line) (code : Nat) : Res := globalResult (finish (ls.foldl see {}) code)

end Verif.Tap
