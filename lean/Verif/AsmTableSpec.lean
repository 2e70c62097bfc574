/-
What the kernel does with a critical section descriptor (Linux `kernel/rseq.c`,
`rseq_get_rseq_cs_ptr_val`, `rseq_get_rseq_cs`, `in_rseq_cs`, `rseq_need_restart`).

Written without reference to the model in `AsmTable.lean`.
-/

namespace Verif.KernelCs

/-- Number in the `k` bytes at address `a`. -/
def rd (be : Bool) (mem : Nat → BitVec 8) (a : Nat) : Nat → Nat
  | 0 => 0
  | k + 1 =>
    if be then rd be mem a k * 256 + (mem (a + k)).toNat
    else rd be mem a k + (mem (a + k)).toNat * 256 ^ k

/-- A descriptor the kernel accepted. -/
structure Cs where
  start : Nat
  off : Nat
  abort : Nat
  deriving DecidableEq, Repr

/-- Result of looking at a thread's `rseq_cs`. -/
inductive Res
  /-- no critical section -/
  | none
  /-- the kernel kills the thread with SIGSEGV -/
  | bad
  | ok (c : Cs)
  deriving DecidableEq, Repr

/-- Two to the 64. -/
abbrev U64 : Nat := 2 ^ 64

/-- Read and validate the descriptor of the thread whose `struct rseq` is at `area`; `sig` was given at
registration. -/
def look (be : Bool) (mem : Nat → BitVec 8) (area taskSize sig : Nat) : Res :=
  let p := rd be mem (area + 8) 8
  if p = 0 then .none
  else if taskSize ≤ p then .bad
  else
    let version := rd be mem p 4
    let flags := rd be mem (p + 4) 4
    let start := rd be mem (p + 8) 8
    let off := rd be mem (p + 16) 8
    let abort := rd be mem (p + 24) 8
    if taskSize ≤ start ∨ taskSize ≤ (start + off) % U64 ∨ taskSize ≤ abort ∨ 0 < version then .bad
    else if (start + off) % U64 < start then .bad
    else if (abort + U64 - start) % U64 < off then .bad
    else if rd be mem (abort - 4) 4 ≠ sig then .bad
    else if flags ≠ 0 then .bad
    else .ok ⟨start, off, abort⟩

/-- The kernel restarts the thread at the abort address iff its instruction pointer satisfies this
(`in_rseq_cs`). -/
def Cs.covers (c : Cs) (ip : Nat) : Prop := (ip + U64 - c.start) % U64 < c.off

end Verif.KernelCs
