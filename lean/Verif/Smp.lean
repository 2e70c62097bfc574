/-
Model of src/smp.c: detection of the number of possible CPUs.

Characters are bytes (`UInt8`). What the system answers (`open`, `read`, `sysconf`, `opendir`/`readdir`) is an argument.
`closedir`/`close` failures only print a message and are omitted. C `int`/`long` results are `Int`.
-/
namespace Verif.Smp

abbrev Str := List UInt8

/-- `INT_MAX`. -/
def intMax : Int := 2147483647
/-- `LONG_MAX` (64-bit). -/
def longMax : Int := 9223372036854775807
/-- `RSEQ_CPUMASK_SIZE` (smp.c:26). -/
def maskSize : Nat := 4096

/-- Outcome of a call: a value, a failed `assert`, undefined behaviour, or still waiting for the system. -/
inductive Res (α : Type) where
  | ok (a : α)
  | assertFail
  | ub
  | running
  deriving Repr, DecidableEq

/-! ### libc number scanning (C standard, base 10) -/

def isSpace (b : UInt8) : Bool := b == 32 || (9 ≤ b && b ≤ 13)
def isDigit (b : UInt8) : Bool := 48 ≤ b && b ≤ 57

/-- Value of a run of decimal digits. -/
def digitsVal (ds : Str) : Nat := ds.foldl (fun a d => 10 * a + (d.toNat - 48)) 0

/-- The subject sequence of `strtol`/`strtoul`: whether a minus sign is present, the digits, and the number of bytes in
front of the digits. -/
def scan (s : Str) : Bool × Str × Nat :=
  let ws := s.takeWhile isSpace
  let r := s.dropWhile isSpace
  match r with
  | 45 :: r => (true, r.takeWhile isDigit, ws.length + 1)
  | 43 :: r => (false, r.takeWhile isDigit, ws.length + 1)
  | r => (false, r.takeWhile isDigit, ws.length)

/-- `strtoul(s, &endptr, 10)`: value and `endptr - s`. -/
def strtoul (s : Str) : Nat × Nat :=
  let (neg, ds, pre) := scan s
  if ds = [] then (0, 0)
  else if 2 ^ 64 ≤ digitsVal ds then (2 ^ 64 - 1, pre + ds.length)
  else (if neg then (2 ^ 64 - digitsVal ds) % 2 ^ 64 else digitsVal ds, pre + ds.length)

/-- `strtol(s, &endptr, 10)`: value and `endptr - s`. -/
def strtol (s : Str) : Int × Nat :=
  let (neg, ds, pre) := scan s
  if ds = [] then (0, 0)
  else
    let v : Int := if neg then - (digitsVal ds : Int) else digitsVal ds
    (if longMax < v then longMax else if v < - longMax - 1 then - longMax - 1 else v, pre + ds.length)

/-- The C string starting at offset `i` of a buffer; `none` if no NUL follows inside the buffer. -/
def cstr (buf : Str) (i : Nat) : Option Str :=
  if 0 ∈ buf.drop i then some ((buf.drop i).takeWhile (· != 0)) else none

/-! ### The sysfs directory (smp.c:30-75) -/

/-- A directory entry: `d_type == DT_DIR`, and the name (without the terminating NUL). -/
structure DirEnt where
  isDir : Bool
  name : Str

/-- Body of the `while (readdir)` loop (47-61). -/
def dirStep (maxId : Int) (e : DirEnt) : Int :=
  if e.isDir && e.name.take 3 == [99, 112, 117] then
    let r := strtol (e.name.drop 3)
    if r.1 < longMax ∧ r.2 ≠ 0 ∧ r.2 = (e.name.drop 3).length then
      if r.1 > maxId then r.1 else maxId
    else maxId
  else maxId

/-- `_get_max_cpuid_from_sysfs` (31-75); `none` = `opendir` failed. -/
def maxCpuidFromSysfs : Option (List DirEnt) → Int
  | none => -1
  | some l =>
    let m := l.foldl dirStep (-1)
    if m < 0 ∨ m > intMax then -1 else m

/-- Conversion of a `long` to `int`. -/
def toInt32 (x : Int) : Int := x.bmod (2 ^ 32)

/-- `get_num_possible_cpus_fallback` (113-119). `__max` (24) evaluates the chosen argument a second time, so each of
`sysconf` and the directory scan has two answers. `get_max_cpuid_from_sysfs() + 1` overflows at `INT_MAX`. -/
def fallback (sc1 sc2 : Int) (d1 d2 : Option (List DirEnt)) : Res Int :=
  let a := maxCpuidFromSysfs d1
  if a = intMax then .ub
  else if sc1 > a + 1 then .ok (toInt32 sc2)
  else
    let b := maxCpuidFromSysfs d2
    if b = intMax then .ub else .ok (b + 1)

/-! ### Reading the mask (smp.c:131-177) -/

/-- Answer of one `read` call. -/
inductive ReadAns where
  | bytes (l : Str)
  | eintr
  | err
  deriving Repr, DecidableEq

/-- The kernel stores `l` at offset `pos` of the buffer. -/
def put (buf : Str) (pos : Nat) (l : Str) : Str := buf.take pos ++ l ++ buf.drop (pos + l.length)

/-- Lines 162-172: terminate the string and compute the return value. -/
def finish (max : Nat) (buf : Str) (total : Nat) : Int × Str :=
  let buf := if total < max then buf.set total 0 else buf.set (max - 1) 0
  if (total : Int) > intMax then (-1, buf) else (total, buf)

/-- The `do ... while` loop (146-160) on a buffer of `max` bytes: result and final buffer. `continue` jumps to the loop
condition, where `bytes_read` is -1. A read answer longer than requested overruns the buffer. -/
def readLoop (max : Nat) : List ReadAns → Str → Nat → Res (Int × Str)
  | [], _, _ => .running
  | .err :: _, buf, _ => .ok (-1, buf)
  | .eintr :: rest, buf, total => if max > total then readLoop max rest buf total else .ok (finish max buf total)
  | .bytes l :: rest, buf, total =>
    if l.length > max - total then .ub
    else
      if total + l.length > max then .assertFail
      else if max > total + l.length ∧ l ≠ [] then readLoop max rest (put buf total l) (total + l.length)
      else .ok (finish max (put buf total l) (total + l.length))

/-- `get_cpu_mask_from_sysfs` (131-177). `garbage` is the uninitialised buffer. -/
def getMask (opened : Bool) (reads : List ReadAns) (garbage : Str) : Res (Int × Str) :=
  if opened then readLoop garbage.length reads garbage 0 else .ok (-1, garbage)

/-! ### Parsing the mask (smp.c:203-229) -/

/-- The backward `for` loop (214-220), entered at index `i`. -/
def findStart (buf : Str) : Nat → Nat
  | 0 => 0
  | i + 1 => if buf.getD (i + 1) 0 = 44 ∨ buf.getD (i + 1) 0 = 45 then i + 2 else findStart buf i

/-- `get_max_cpuid_from_mask` (203-229). -/
def maxCpuidFromMask (buf : Str) (len : Nat) : Res Int :=
  if len < 1 then .ok (-1)
  else
    match cstr buf (findStart buf (len - 1)) with
    | none => .ub
    | some s =>
      let r := strtoul s
      if r.2 ≠ 0 ∧ (r.1 : Int) < intMax then .ok r.1 else .ok (-1)

/-! ### The cache (smp.c:231-278) -/

/-- Everything the system answers during one detection. -/
structure SysAns where
  opened : Bool
  reads : List ReadAns
  garbage : Str
  sysconf1 : Int
  sysconf2 : Int
  dir1 : Option (List DirEnt)
  dir2 : Option (List DirEnt)

/-- The value `ret` reaching line 253. -/
def detect (s : SysAns) : Res Int :=
  match getMask s.opened s.reads s.garbage with
  | .ok (ret, buf) =>
    if ret ≤ 0 then fallback s.sysconf1 s.sysconf2 s.dir1 s.dir2
    else
      match maxCpuidFromMask buf ret.toNat with
      | .ok r => if r ≥ 0 then .ok (r + 1) else fallback s.sysconf1 s.sysconf2 s.dir1 s.dir2
      | .assertFail => .assertFail
      | .ub => .ub
      | .running => .running
  | .assertFail => .assertFail
  | .ub => .ub
  | .running => .running

/-- `update_possible_cpus_array_len_cache` (231-259): new value of the cache. -/
def updateCache (cache : Int) (s : SysAns) : Res Int :=
  match detect s with
  | .ok r => .ok (if r < 1 then cache else r)
  | .assertFail => .assertFail
  | .ub => .ub
  | .running => .running

/-- `get_possible_cpus_array_len` (272-278) = `rseq_get_max_nr_cpus` (rseq.c:338-341): new cache, which is also the
result. -/
def getArrayLen (cache : Int) (s : SysAns) : Res Int :=
  if cache = 0 then updateCache cache s else .ok cache

end Verif.Smp
