import Verif.RseqMachine
/-
Specification of the helpers: `include/rseq/pseudocode.h`, and the calling convention
under which the programs of `RseqArch.lean` are entered.
-/

namespace Verif.Rseq

variable {n : Nat}

/-- Architectures with helpers in `/repo/include/rseq/arch`. -/
inductive Arch
  | x86_64 | i386 | aarch64 | riscv | ppc | s390 | mips | loongarch | arm
  deriving DecidableEq, Repr

/-- The seven helpers. -/
inductive Kind
  | cbneStore | cbeqStoreAddLoadStore | addStore | addLoadLoadAddStore | cbneCbneStore
  | cbneStoreStore | cbneMemcpyStore
  deriving DecidableEq, Repr

/-- A call of a helper with its arguments. -/
inductive Op (n : Nat)
  /-- `rseq_load_cbne_store(v, expect, newv)` -/
  | cbneStore (v expect newv : W n)
  /-- `rseq_load_cbeq_store_add_load_store(v, expectnot, voffp, load)` -/
  | cbeqStoreAddLoadStore (v expectnot voffp load : W n)
  /-- `rseq_load_add_store(v, count)` -/
  | addStore (v count : W n)
  /-- `rseq_load_add_load_load_add_store(ptr, off, inc)` -/
  | addLoadLoadAddStore (ptr off inc : W n)
  /-- `rseq_load_cbne_load_cbne_store(v, expect, v2, expect2, newv)` -/
  | cbneCbneStore (v expect v2 expect2 newv : W n)
  /-- `rseq_load_cbne_store_store(v, expect, v2, newv2, newv)` -/
  | cbneStoreStore (v expect v2 newv2 newv : W n)
  /-- `rseq_load_cbne_memcpy_store(v, expect, dst, src, len, newv)` -/
  | cbneMemcpyStore (v expect dst src len newv : W n)

/-- Which helper a call is. -/
def Op.kind : Op n → Kind
  | .cbneStore .. => .cbneStore
  | .cbeqStoreAddLoadStore .. => .cbeqStoreAddLoadStore
  | .addStore .. => .addStore
  | .addLoadLoadAddStore .. => .addLoadLoadAddStore
  | .cbneCbneStore .. => .cbneCbneStore
  | .cbneStoreStore .. => .cbneStoreStore
  | .cbneMemcpyStore .. => .cbneMemcpyStore

/-- `memcpy` for non-overlapping areas: byte `dst + i` becomes the old byte `src + i`, `i < len`. -/
def memcpy (m : Mem n) (dst src len : W n) : Mem n := fun x =>
  if (x - dst).toNat < len.toNat then m (src + (x - dst)) else m x

/-- The pseudo-code of `pseudocode.h:35-139`: return value and memory after an execution that is not
aborted. -/
def pseudo (be : Bool) (op : Op n) (m : Mem n) : Int × Mem n :=
  match op with
  | .cbneStore v expect newv =>                       -- pseudocode.h:35-47
    let r1 := ldw be m v
    if r1 ≠ expect then (1, m) else (0, stw be m v newv)
  | .addStore v count =>                              -- pseudocode.h:49-60
    let r1 := ldw be m v
    (0, stw be m v (r1 + count))
  | .cbeqStoreAddLoadStore v expectnot voffp load =>  -- pseudocode.h:62-77
    let r1 := ldw be m v
    if r1 = expectnot then (1, m) else
      let m1 := stw be m load r1
      let r2 := ldw be m1 (r1 + voffp)
      (0, stw be m1 v r2)
  | .addLoadLoadAddStore ptr off inc =>               -- pseudocode.h:79-93
    let r1 := ldw be m ptr + off
    let r2 := ldw be m r1
    let r3 := ldw be m r2
    (0, stw be m r2 (r3 + inc))
  | .cbneCbneStore v expect v2 expect2 newv =>        -- pseudocode.h:95-109
    let r1 := ldw be m v
    if r1 ≠ expect then (1, m) else
      let r2 := ldw be m v2
      if r2 ≠ expect2 then (1, m) else (0, stw be m v newv)
  | .cbneStoreStore v expect v2 newv2 newv =>         -- pseudocode.h:111-124
    let r1 := ldw be m v
    if r1 ≠ expect then (1, m) else (0, stw be (stw be m v2 newv2) v newv)
  | .cbneMemcpyStore v expect dst src len newv =>     -- pseudocode.h:126-139
    let r1 := ldw be m v
    if r1 ≠ expect then (1, m) else (0, stw be (memcpy m dst src len) v newv)

/-- Names of assembly operands. -/
inductive Opnd
  | cpu | v | expect | newv | expectnot | voffp | load | count | v2 | expect2 | newv2
  | dst | src | len | ptr | off | inc
  deriving DecidableEq, Repr

/-- Slot in which the sources keep a C local passed as "m". -/
def slotOf : Opnd → Nat
  | .expect => 0 | .newv => 1 | .dst => 2 | .src => 3 | .len => 4 | _ => 5

/-- Value of each operand of a call; `none` for operands the helper does not have.  A memory operand
`"m" (*v)` is represented by the register holding its address. -/
def Op.val : Op n → Opnd → Option (W n)
  | .cbneStore v _ _, .v => some v
  | .cbneStore _ e _, .expect => some e
  | .cbneStore _ _ w, .newv => some w
  | .cbeqStoreAddLoadStore v _ _ _, .v => some v
  | .cbeqStoreAddLoadStore _ e _ _, .expectnot => some e
  | .cbeqStoreAddLoadStore _ _ o _, .voffp => some o
  | .cbeqStoreAddLoadStore _ _ _ l, .load => some l
  | .addStore v _, .v => some v
  | .addStore _ c, .count => some c
  | .addLoadLoadAddStore p _ _, .ptr => some p
  | .addLoadLoadAddStore _ o _, .off => some o
  | .addLoadLoadAddStore _ _ i, .inc => some i
  | .cbneCbneStore v _ _ _ _, .v => some v
  | .cbneCbneStore _ e _ _ _, .expect => some e
  | .cbneCbneStore _ _ v2 _ _, .v2 => some v2
  | .cbneCbneStore _ _ _ e2 _, .expect2 => some e2
  | .cbneCbneStore _ _ _ _ w, .newv => some w
  | .cbneStoreStore v _ _ _ _, .v => some v
  | .cbneStoreStore _ e _ _ _, .expect => some e
  | .cbneStoreStore _ _ v2 _ _, .v2 => some v2
  | .cbneStoreStore _ _ _ w2 _, .newv2 => some w2
  | .cbneStoreStore _ _ _ _ w, .newv => some w
  | .cbneMemcpyStore v _ _ _ _ _, .v => some v
  | .cbneMemcpyStore _ e _ _ _ _, .expect => some e
  | .cbneMemcpyStore _ _ d _ _ _, .dst => some d
  | .cbneMemcpyStore _ _ _ s _ _, .src => some s
  | .cbneMemcpyStore _ _ _ _ k _, .len => some k
  | .cbneMemcpyStore _ _ _ _ _ w, .newv => some w
  | _, _ => none

/-- What the compiler guarantees on entry of the assembly: control is at its beginning; each operand's
register (and, for locals, slot) holds the operand's value; operand registers are not among the
clobbered ones.  Nothing says that two operands with equal values have different registers.

The `int cpu` argument: `sx = true` says the register holds the sign-extended value (the ABIs of
riscv, mips and loongarch keep 32-bit integers sign extended, and their helpers compare whole
registers); otherwise only its low 32 bits are known. -/
structure Setup (clob : List Nat) (sx : Bool) (al : Opnd → Nat) (op : Op n) (cpu : BitVec 32)
    (l : LSt n) : Prop where
  pc : l.pc = .at 0
  reg : ∀ o x, op.val o = some x → l.regs (al o) = x
  slot : ∀ o x, op.val o = some x → slotOf o ≠ 5 → l.slots (slotOf o) = x
  free : ∀ o x, op.val o = some x → al o ∉ clob
  freeCpu : al .cpu ∉ clob
  cpuV : (l.regs (al .cpu)).setWidth 32 = cpu
  cpuS : sx = true → l.regs (al .cpu) = cpu.signExtend (8 * n)

/-- Whether the architecture's CPU comparison uses whole registers. -/
def signExt : Arch → Bool
  | .riscv | .mips | .loongarch => true
  | _ => false

/-- Uninterrupted execution from `l`, `m` leaves the helper with value `r` and memory `m'`, and every
register outside `clob` has its old value. -/
def Returns (p : Prog n) (fv : BitVec 32) (clob : List Nat) (l : LSt n) (m : Mem n) (r : Int)
    (m' : Mem n) : Prop :=
  ∃ k, (run p fv k (l, m)).1.pc = .ret r ∧ (run p fv k (l, m)).2 = m' ∧
    ∀ x, x ∉ clob → (run p fv k (l, m)).1.regs x = l.regs x

end Verif.Rseq
