import Verif.Smp
/-
Specification vocabulary for C50-C53: decimal notation, the kernel's CPU list format, how the kernel serves a file.
-/
namespace Verif.Smp

/-- Decimal notation of a number. -/
def decimal (n : Nat) : Str :=
  if n < 10 then [UInt8.ofNat (48 + n)] else decimal (n / 10) ++ [UInt8.ofNat (48 + n % 10)]

/-- A range of CPU ids as the kernel prints it: `lo` or `lo-hi`. -/
def printRange (r : Nat × Nat) : Str := if r.1 = r.2 then decimal r.1 else decimal r.1 ++ [45] ++ decimal r.2

/-- Ranges separated by commas. -/
def printList : List (Nat × Nat) → Str
  | [] => []
  | [r] => printRange r
  | r :: rs => printRange r ++ [44] ++ printList rs

/-- Content of /sys/devices/system/cpu/possible: the list and a newline. -/
def cpuFile (rs : List (Nat × Nat)) : Str := printList rs ++ [10]

/-- Non-empty list of non-empty, ascending, non-adjacent ranges. -/
def Ascending (rs : List (Nat × Nat)) : Prop :=
  rs ≠ [] ∧ (∀ r ∈ rs, r.1 ≤ r.2) ∧ rs.Pairwise fun a b => a.2 + 1 < b.1

/-- CPU `c` is in the list. -/
def Possible (rs : List (Nat × Nat)) (c : Nat) : Prop := ∃ r ∈ rs, r.1 ≤ c ∧ c ≤ r.2

/-- The kernel serves `content` from position `pos` on, to a reader asking for up to the rest of a `max`-byte buffer:
every call delivers the next bytes (at least one, except at the end of the file) or is interrupted by a signal. -/
def Serves (content : Str) (max : Nat) : Nat → List ReadAns → Prop
  | _, [] => True
  | pos, .eintr :: rest => Serves content max pos rest
  | _, .err :: _ => False
  | pos, .bytes l :: rest =>
    l <+: content.drop pos ∧ l.length ≤ max - pos ∧ (l = [] → content.length ≤ pos) ∧ Serves content max (pos + l.length) rest

/-- Number of answers carrying data (as opposed to interruptions). -/
def dataAnswers (reads : List ReadAns) : Nat :=
  (reads.filter fun a => match a with | .bytes _ => true | _ => false).length

/-- A directory entry `cpuN`: the name is "cpu" followed by decimal digits of value `n`. -/
def IsCpuDir (e : DirEnt) (n : Nat) : Prop :=
  e.isDir = true ∧ ∃ ds, e.name = [99, 112, 117] ++ ds ∧ ds ≠ [] ∧ (∀ d ∈ ds, isDigit d = true) ∧ digitsVal ds = n

/-- A name that has no white space or sign right after "cpu" (true of every name sysfs uses). -/
def PlainName (e : DirEnt) : Prop :=
  ∀ b rest, e.name = [99, 112, 117] ++ b :: rest → isSpace b = false ∧ b ≠ 43 ∧ b ≠ 45

end Verif.Smp
