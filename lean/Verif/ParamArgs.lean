import Verif.Smp
/-
The command line of tests/param_test.c (`main`, 1730-1918), and what its delay options do between the C statements of
a helper (`RSEQ_INJECT_C`, 284-304).

Simplifications: words are byte lists without the terminating NUL.  `atol` and `atoll` are `strtol` with a 64-bit
`long` (out of range: the nearest bound, as the GNU C library does); the conversion to `int` keeps the low 32 bits.
-/

namespace Verif.Param

open Verif.Smp (Str strtol)

/-- The options (param_test.c:37, 46-52, 314). -/
structure Opts where
  /-- `loop_cnt` -/
  loop : Nat → Int := fun _ => 0
  modulo : Int := 0
  verbose : Bool := false
  yield : Bool := false
  signal : Bool := false
  sleep : Int := 0
  disableRseq : Bool := false
  threads : Int := 200
  disableMod : Int := 0
  /-- a character; `'s'` -/
  test : UInt8 := 115
  reps : Int := 5000
  /-- `opt_mo` is `RSEQ_MO_RELEASE` -/
  release : Bool := false

def upd (f : Nat → Int) (i : Nat) (v : Int) : Nat → Int := fun j => if j = i then v else f j

/-- How the option loop ends. -/
inductive End
  /-- the tests are run -/
  | run (o : Opts)
  /-- `end`: 0 -/
  | exit0
  /-- `no_rseq`: 2 -/
  | exit2
  /-- `error`: -1 -/
  | error
  /-- a read outside `argv` or outside a word -/
  | ub

/-- Conversion of a `long` to `int`. -/
def toInt32 (x : Int) : Int := (BitVec.ofInt 32 x).toInt

/-- `(int) atol(s)` -/
def atoi32 (s : Str) : Int := toInt32 (strtol s).1

/-- `atoll(s)` -/
def atoll (s : Str) : Int := (strtol s).1

/-- Byte `i` of a word; the terminating NUL belongs to it. -/
def byteAt (s : Str) (i : Nat) : Option UInt8 := if i = s.length then some 0 else s[i]?

inductive Next
  | stop (e : End)
  | go (i : Nat) (o : Opts)

/-- An option with a value: `if (argc < i + 2) goto error;`, then `f` of the value (`none`: it is refused); `i++`. -/
def value (argv : List Str) (i : Nat) (f : Str → Option Opts) : Next :=
  if argv.length < i + 2 then .stop .error
  else
    match argv[i + 1]? with
    | none => .stop .ub
    | some v =>
      match f v with
      | none => .stop .error
      | some o => .go (i + 2) o

/-- `if (x < 0) goto error;` -/
def nonneg (x : Int) (o : Opts) : Option Opts := if x < 0 then none else some o

/-- `-T` (param_test.c:1826-1845) -/
def testOf (o : Opts) (v : Str) : Option Opts :=
  match byteAt v 0 with
  | some c => if c = 115 ∨ c = 108 ∨ c = 105 ∨ c = 98 ∨ c = 109 ∨ c = 114 then some { o with test := c } else none
  | none => none

/-- The `switch` (1737-1863) for the option character `c`; `avail` is `rseq_available(RSEQ_AVAILABLE_QUERY_KERNEL)`. -/
def option (argv : List Str) (avail : Bool) (i : Nat) (o : Opts) (c : UInt8) : Next :=
  if 49 ≤ c ∧ c ≤ 57 then
    value argv i fun v => some { o with loop := upd o.loop (c.toNat - 48) (atoi32 v) }
  else if c = 109 then value argv i fun v => nonneg (atoi32 v) { o with modulo := atoi32 v }            -- m
  else if c = 115 then value argv i fun v => nonneg (atoi32 v) { o with sleep := atoi32 v }             -- s
  else if c = 121 then .go (i + 1) { o with yield := true }                                             -- y
  else if c = 107 then .go (i + 1) { o with signal := true }                                            -- k
  else if c = 100 then .go (i + 1) { o with disableRseq := true }                                       -- d
  else if c = 68 then value argv i fun v => nonneg (atoi32 v) { o with disableMod := atoi32 v }         -- D
  else if c = 116 then value argv i fun v => nonneg (atoi32 v) { o with threads := atoi32 v }           -- t
  else if c = 114 then value argv i fun v => nonneg (atoll v) { o with reps := atoll v }                -- r
  else if c = 104 then .stop .exit0                                                                     -- h
  else if c = 84 then value argv i (testOf o)                                                           -- T
  else if c = 118 then .go (i + 1) { o with verbose := true }                                           -- v
  else if c = 77 then .go (i + 1) { o with release := true }                                            -- M
  else if c = 99 then .stop (if avail then .exit0 else .exit2)                                          -- c
  else .stop .error

/-- One round of the loop (1734-1864). -/
def round (argv : List Str) (avail : Bool) (i : Nat) (o : Opts) : Next :=
  match argv[i]? with
  | none => .stop .ub
  | some a =>
    match byteAt a 0 with
    | none => .stop .ub
    | some c0 =>
      if c0 ≠ 45 then .go (i + 1) o
      else
        match byteAt a 1 with
        | none => .stop .ub
        | some c => option argv avail i o c

/-- The loop; `i` grows in every round, so that `argc` rounds are enough. -/
def loop (argv : List Str) (avail : Bool) : Nat → Nat → Opts → End
  | 0, _, o => .run o
  | fuel + 1, i, o =>
    if argv.length ≤ i then .run o
    else
      match round argv avail i o with
      | .stop e => e
      | .go i' o' => loop argv avail fuel i' o'

/-- The options of a command line; `argv[0]` is the name of the program. -/
def parse (argv : List Str) (avail : Bool) : End := loop argv avail argv.length 1 {}

/-! ### `RSEQ_INJECT_C` -/

/-- `RSEQ_INJECT_C(n)` with the thread's counter `yield_mod_cnt`: whether it sleeps, yields or sends the signal, and
the counter afterwards (param_test.c:284-304; the delay loop is left out). -/
def injectC (o : Opts) (n : Nat) (cnt : Int) : Bool × Int :=
  if o.loop n = -1 ∧ o.modulo ≠ 0 then
    if cnt = o.modulo - 1 then (true, 0) else (false, cnt + 1)
  else (false, cnt)

/-- `k` executions of it: how many of them act, and the counter afterwards. -/
def injectTimes (o : Opts) (n : Nat) : Nat → Nat × Int
  | 0 => (0, 0)
  | k + 1 =>
    let r := injectTimes o n k
    let q := injectC o n r.2
    (r.1 + if q.1 then 1 else 0, q.2)

end Verif.Param
