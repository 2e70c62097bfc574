import Verif.Tap
import Verif.ParamArgs
import Verif.SmpSpec
/-
The shell library of the test scripts (tests/utils/tap.sh, sourced by tests/utils/utils.sh) and the script that runs
param_test in all its configurations (tests/run_param_test.tap; tests/run_param_test_cxx.tap is the same with fewer
programs and tests).

Simplifications: shell arithmetic is that of natural numbers (all numbers here are far below 2^63).  Lines that begin
with `#` (`diag`) and standard error are left out; no test name here is empty, numeric or contains `#`; `TODO` is empty (tap.sh:17).
param_test prints nothing without `-v`, `-h` or an error in its options.
-/

namespace Verif.Tap

open Verif.Smp (Str decimal)

/-- The variables of tap.sh:10-16, and the lines printed so far. -/
structure Sh where
  planSet : Bool := false
  noPlan : Bool := false
  skipAll : Bool := false
  died : Bool := false
  expected : Nat := 0
  executed : Nat := 0
  failed : Nat := 0
  out : List Line := []
  deriving DecidableEq, Repr

/-- `_exit_status` (tap.sh:420-430): `return` keeps the low eight bits. -/
def Sh.exitStatus (s : Sh) : Nat :=
  (if s.noPlan || !s.planSet then s.failed
   else if s.expected < s.executed then s.executed - s.expected
   else s.failed + (s.expected - s.executed)) % 256

/-- `_cleanup` (tap.sh:381-417): its result, and what it prints to standard output besides comments. -/
def Sh.cleanup (s : Sh) : Nat × Sh :=
  if !s.planSet then (0, s)
  else if s.died then (0, s)
  else
    let s := if !s.skipAll && s.noPlan then { s with out := s.out ++ [.plan s.executed] } else s
    (if !s.noPlan && decide (s.expected < s.executed) then 1 else 0, s)

/-- `_exit` (tap.sh:433-445), from the trap on `EXIT` (no argument) or with an exit status. -/
def Sh.exit (s : Sh) (rc : Option Nat) : Nat × List Line :=
  let rc := rc.getD s.exitStatus
  let c := s.cleanup
  (if c.1 ≠ 0 then c.1 else rc, c.2.out)

/-- A command of the library: the script goes on with a status, or ends. -/
inductive ShOut
  | run (status : Nat) (s : Sh)
  | exit (code : Nat) (ls : List Line)

/-- `_die` (364-370) -/
def Sh.die (s : Sh) : ShOut :=
  let r := Sh.exit { s with died := true } (some 255)
  .exit r.1 r.2

/-- `plan_tests` (127-138) -/
def Sh.planTests (s : Sh) (n : Nat) : ShOut :=
  if s.planSet then s.die
  else if n = 0 then s.die
  else .run (n % 256) { s with out := s.out ++ [.plan n], expected := n, planSet := true }

/-- `plan_skip_all` (113-125) -/
def Sh.planSkipAll (s : Sh) : ShOut :=
  if s.planSet then s.die
  else
    let r := Sh.exit { s with out := s.out ++ [.skipPlan], skipAll := true, planSet := true } (some 0)
    .exit r.1 r.2

/-- `ok` (164-224) -/
def Sh.ok (s : Sh) (result : Nat) : ShOut :=
  if !s.planSet then s.die
  else
    let s := { s with executed := s.executed + 1 }
    let s := if result ≠ 0 then { s with failed := s.failed + 1 } else s
    .run result { s with out := s.out ++ [.result (decide (result = 0)) s.executed none] }

/-- The loop of `skip` (342-345) -/
def Sh.skipLoop : Nat → Sh → Sh
  | 0, s => s
  | n + 1, s =>
    let s := { s with executed := s.executed + 1 }
    Sh.skipLoop n { s with out := s.out ++ [.result true s.executed (some .skip)] }

/-- `skip` (335-350).  Without a match `return` gives the status of the last command, the failed comparison. -/
def Sh.skip (s : Sh) (condition n : Nat) : ShOut :=
  if condition = 0 then .run 0 (s.skipLoop n) else .run 1 s

/-! ### tests/run_param_test.tap -/

/-- The four programs; the last two exist in the C version only. -/
inductive Exe
  | param
  | twice
  | mmCid
  | mmCidTwice
  deriving DecidableEq, Repr

/-- The state of the script: that of the library, and the programs run so far with their arguments. -/
structure Script where
  sh : Sh := {}
  runs : List (Exe × List Str) := []

inductive ScOut
  | run (s : Script)
  | exit (code : Nat) (ls : List Line) (runs : List (Exe × List Str))

def ScOut.bind (x : ScOut) (f : Script → ScOut) : ScOut :=
  match x with
  | .run s => f s
  | .exit c ls rs => .exit c ls rs

/-- A command of the library in the script; its status is ignored. -/
def lib (s : Script) (f : Sh → ShOut) : ScOut :=
  match f s.sh with
  | .run _ sh => .run { s with sh := sh }
  | .exit c ls => .exit c ls s.runs

/-- The parts in which the two versions of the script differ. -/
structure Version where
  exes : List Exe
  tests : List (List Str)
  plan : Nat

/-- `-c` for an option character `c` -/
def opt (c : UInt8) : Str := [45, c]

/-- `-T c` -/
def optT (c : UInt8) : List Str := [opt 84, [c]]

/-- spinlock, list, buffer, buffer with barrier, memcpy, memcpy with barrier, increment (run_param_test.tap:53-59) -/
def tests7 : List (List Str) :=
  [optT 115, optT 108, optT 98, optT 98 ++ [opt 77], optT 109, optT 109 ++ [opt 77], optT 105]

/-- run_param_test.tap: the seven and membarrier (60) -/
def versionC : Version where
  exes := [.param, .twice, .mmCid, .mmCidTwice]
  tests := tests7 ++ [optT 114]
  plan := 4 * 8 * 37

/-- run_param_test_cxx.tap -/
def versionCxx : Version where
  exes := [.param, .twice]
  tests := tests7
  plan := 2 * 7 * 37

/-- What every command line ends with: `-r ${REPS} -t ${NR_THREADS} "${EXTRA_ARGS[@]}"`. -/
def lastArgs (nthreads : Nat) (extra : List Str) : List Str :=
  [opt 114, [49, 48, 48, 48], opt 116, decimal nthreads] ++ extra

section
variable (ex : Nat → Nat) (nthreads : Nat) (extra : List Str)

/-- Run a program: its exit status is `ex` of the number of programs run before. -/
def runExe (s : Script) (e : Exe) (args : List Str) : Nat × Script :=
  (ex s.runs.length, { s with runs := s.runs ++ [(e, args ++ lastArgs nthreads extra)] })

/-- One program in `do_test` (30-46): the programs without concurrency ID report their status; for the others status
2 means that the test is skipped. -/
def runOne (s : Script) (args : List Str) (e : Exe) : ScOut :=
  let (res, s) := runExe ex nthreads extra s e args
  match e with
  | .param | .twice => lib s (·.ok res)
  | .mmCid | .mmCidTwice =>
    match s.sh.skip (if res ≠ 2 then 1 else 0) 1 with
    | .run 0 sh => .run { s with sh := sh }
    | .run _ sh => lib { s with sh := sh } (·.ok res)
    | .exit c ls => .exit c ls s.runs

/-- `do_test` -/
def doTest (v : Version) (s : Script) (args : List Str) : ScOut :=
  v.exes.foldl (fun x e => x.bind fun s => runOne ex nthreads extra s args e) (.run s)

/-- `do_tests` (49-61) -/
def doTests (v : Version) (s : Script) (args : List Str) : ScOut :=
  v.tests.foldl (fun x t => x.bind fun s => doTest ex nthreads extra v s (t ++ args)) (.run s)

/-- `do_tests_loops` (63-76), as a list of arguments of `do_tests` -/
def loopsArgs (n : Str) : List (List Str) :=
  [[opt 49, n], [opt 50, n], [opt 51, n], [opt 52, n], [opt 53, n], [opt 54, n], [opt 55, n], [opt 56, n], [opt 57, n]]

/-- `do_tests_inject` (78-85) -/
def injectArgs (args : List Str) : List (List Str) :=
  [[opt 55, [45, 49]] ++ args, [opt 56, [45, 49]] ++ args, [opt 57, [45, 49]] ++ args]

/-- The arguments of `do_tests` in the order of the script (95-126). -/
def allArgs : List (List Str) :=
  [[]] ++ loopsArgs [49, 48, 48, 48, 48] ++
  injectArgs [opt 109, [52], opt 121] ++ injectArgs [opt 109, [50], opt 121] ++ injectArgs [opt 109, [49], opt 121] ++
  injectArgs [opt 109, [52], opt 107] ++ injectArgs [opt 109, [50], opt 107] ++ injectArgs [opt 109, [49], opt 107] ++
  injectArgs [opt 109, [52], opt 115, [49]] ++ injectArgs [opt 109, [50], opt 115, [49]] ++
  injectArgs [opt 109, [49], opt 115, [49]]

/-- The script; `check` is the exit status of `param_test -c` (88-93). -/
def script (v : Version) (check : Nat) : ScOut :=
  (if check = 2 then lib {} (·.planSkipAll) else lib {} (·.planTests v.plan)).bind fun s =>
    allArgs.foldl (fun x a => x.bind fun s => doTests ex nthreads extra v s a) (.run s)

/-- The whole run: exit status, output, programs run. -/
def runScript (v : Version) (check : Nat) : Nat × List Line × List (Exe × List Str) :=
  match script ex nthreads extra v check with
  | .exit c ls rs => (c, ls, rs)
  | .run s => ((s.sh.exit none).1, (s.sh.exit none).2, s.runs)

end

/-- What sourcing tap.sh does with the arguments of the script, which it sees as its own (utils.sh:39; tap.sh:88-94):
an option of any kind makes `case $_opt` expand an unset variable, which ends the shell because of `set -u`
(utils.sh:12); `--` is removed.  `none`: the script ends here. -/
def sourced : List Str → Option (List Str)
  | [] => some []
  | a :: rest =>
    if a = [45, 45] then some rest
    else
      match a with
      | 45 :: _ :: _ => none
      | _ => some (a :: rest)

end Verif.Tap
