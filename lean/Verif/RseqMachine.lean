/-
The abstract machine on which the restartable-sequence helpers of librseq run.

The helpers of `include/rseq/arch/<arch>/bits.h` are inline assembly.  A helper is a finite list of
instructions (`Prog.code`) plus the three addresses of its critical section descriptor
(`include/rseq/arch/generic/common.h`, `RSEQ_ASM_DEFINE_TABLE`: start_ip, post_commit_ip, abort_ip).
This file gives the meaning of one instruction; `RseqArch*.lean` give the programs, and
`RseqConc.lean` adds threads, CPUs, preemption and the kernel's abort rule.

Simplifications, stated once:
* `n` is the number of bytes of a machine word (8 or 4); registers are `8*n`-bit words and memory
  maps `8*n`-bit addresses to bytes.  A word access at `a` touches `a, a+1, ..., a+n-1` (modulo the
  address space) in one step; alignment faults are not modelled.
* Byte order is a parameter (`Prog.be`).
* The thread's `struct rseq` is not in this memory: its `rseq_cs` field is written only by `cs`
  (the two or three instructions of `RSEQ_ASM_STORE_RSEQ_CS`) and its `cpu_id`/`mm_cid` field is read
  only by the three `cpu` instructions.
* C locals passed with an "m" constraint (`rseq_scratch[]`, `rseq_local.*`) are `slots`, private to
  the execution of the helper.
* Condition codes are reduced to one bit, "the last comparison was equal / the last result was
  zero": every conditional jump of the sources tests only that.
* `RSEQ_COMPARE_TWICE` builds are the subject of `RseqTwice.lean`, delay injection that of `RseqInject.lean`.
-/

namespace Verif.Rseq

/-- Machine word of `n` bytes. -/
abbrev W (n : Nat) := BitVec (8 * n)
/-- Byte. -/
abbrev Byte := BitVec 8
/-- Byte-addressed memory. -/
abbrev Mem (n : Nat) := W n → Byte

/-- Significance (power of 256) of the byte at offset `i` of a word. -/
def pos (be : Bool) (n i : Nat) : Nat := if be then n - 1 - i else i

/-- Sum of `f 0 + ... + f (k-1)`. -/
def sumTo (f : Nat → Nat) : Nat → Nat
  | 0 => 0
  | k + 1 => sumTo f k + f k

/-- Word at address `a`. -/
def ldw {n : Nat} (be : Bool) (m : Mem n) (a : W n) : W n :=
  BitVec.ofNat (8 * n) (sumTo (fun i => (m (a + BitVec.ofNat (8 * n) i)).toNat * 256 ^ pos be n i) n)

/-- Memory after storing word `v` at address `a`. -/
def stw {n : Nat} (be : Bool) (m : Mem n) (a v : W n) : Mem n := fun x =>
  if (x - a).toNat < n then BitVec.ofNat 8 (v.toNat / 256 ^ pos be n (x - a).toNat) else m x

/-- Memory after storing one byte. -/
def stb1 {n : Nat} (m : Mem n) (a : W n) (b : Byte) : Mem n := fun x => if x = a then b else m x

/-- Where control goes: an instruction, or out of the helper with a return value. -/
inductive Pc
  | at (i : Nat)
  | ret (r : Int)
  deriving DecidableEq, Repr

/-- Instructions.  `r`, `a`, `b` are register numbers, `s` slot numbers. -/
inductive Instr
  /-- store the descriptor's address into `rseq_cs`, using register `r` to form the address -/
  | cs (r : Nat)
  /-- load the 32-bit CPU field, sign extended (riscv, mips `lw`, loongarch `ld.w`) -/
  | ldCpuS (r : Nat)
  /-- load the 32-bit CPU field, zero extended (aarch64 `ldr w`, ppc `lwz`, arm `ldr`) -/
  | ldCpuZ (r : Nat)
  /-- compare the low 32 bits of `r` with the CPU field (x86 `cmpl`, s390 `c`) -/
  | cmpCpu (r : Nat)
  /-- compare low 32 bits of two registers (ppc `cmpw`, arm `cmp`) -/
  | cmp32 (a b : Nat)
  /-- compare two registers -/
  | cmp (a b : Nat)
  /-- compare a register with zero (`test r,r`, `cmp r,#0`, `cmpdi r,0`, `ltgr r,r`) -/
  | tst (r : Nat)
  /-- compare the memory word at `[b]` with register `r` (x86 `cmpq mem,reg`, s390 `cg`) -/
  | cmpM (b r : Nat)
  /-- jump if the flag says "not equal / not zero" -/
  | jne (t : Pc)
  /-- jump if the flag says "equal / zero" -/
  | je (t : Pc)
  /-- compare two registers and branch if different (riscv, mips, loongarch `bne`) -/
  | bne (a b : Nat) (t : Pc)
  /-- compare two registers and branch if equal (`beq`) -/
  | beq (a b : Nat) (t : Pc)
  /-- branch if register is not zero (`cbnz`, `bnez`) -/
  | cbnz (r : Nat) (t : Pc)
  /-- branch if register is zero (`cbz`, `beqz`) -/
  | cbz (r : Nat) (t : Pc)
  /-- branch if the low 32 bits are not zero (aarch64 `cbnz w`) -/
  | cbnz32 (r : Nat) (t : Pc)
  /-- unconditional jump -/
  | jmp (t : Pc)
  | mov (r a : Nat)
  | add (r a b : Nat)
  | sub (r a b : Nat)
  /-- 32-bit subtraction, result zero extended (aarch64 `sub w`) -/
  | sub32 (r a b : Nat)
  /-- add a small constant, flag unchanged -/
  | addi (r a : Nat) (k : Int)
  /-- add a small constant and set the flag (`inc`, `dec`, `aghi`, `adds`, `subs`) -/
  | addf (r a : Nat) (k : Int)
  /-- add a register and set the flag (s390 `agr`) -/
  | addf2 (r b : Nat)
  /-- `r := word [b]` -/
  | ld (r b : Nat)
  /-- `r := word [a+b]` -/
  | ldx (r a b : Nat)
  /-- `word [b] := r` -/
  | st (r b : Nat)
  /-- `word [b] := r` with release ordering (aarch64 `stlr`) -/
  | stl (r b : Nat)
  /-- `word [b] += r` in one instruction (x86 `add reg,mem`) -/
  | addM (r b : Nat)
  /-- `r := byte [b]` -/
  | ldb (r b : Nat)
  /-- `r := byte [a+b]` -/
  | ldbx (r a b : Nat)
  /-- `byte [b] := low byte of r` -/
  | stb (r b : Nat)
  /-- `byte [a+b] := low byte of r` -/
  | stbx (r a b : Nat)
  /-- `r := byte [b+1]; b := b+1` (ppc `lbzu r,1(b)`) -/
  | lbzu (r b : Nat)
  /-- `byte [b+1] := low byte of r; b := b+1` (ppc `stbu r,1(b)`) -/
  | stbu (r b : Nat)
  /-- load / store a private slot -/
  | ldS (r s : Nat)
  | stS (r s : Nat)
  /-- memory barrier ordering earlier stores before later ones -/
  | fence
  deriving DecidableEq, Repr

/-- Thread-local part of the machine while a helper runs. -/
structure LSt (n : Nat) where
  regs : Nat → W n
  slots : Nat → W n
  zf : Bool
  pc : Pc

/-- A helper: code, byte order, address of the descriptor, and indices.
`code[start-1]` stores `rseq_cs`; `[start, chk)` compares the CPU number; `[chk, commit)` is the body
whose last instruction is the final store; `commit` is the post-commit address; `abort` the abort
handler; `ne` the tear-down code of the comparison-failed exit (if any). -/
structure Prog (n : Nat) where
  code : List Instr
  be : Bool
  csAddr : W n
  start : Nat
  chk : Nat
  commit : Nat
  abort : Nat
  ne : Nat

/-- Functional update. -/
def upd {β : Type} (f : Nat → β) (k : Nat) (v : β) : Nat → β := fun x => if x = k then v else f x

namespace LSt
variable {n : Nat}
/-- set a register and fall through -/
def setR (l : LSt n) (i r : Nat) (v : W n) : LSt n :=
  { l with regs := upd l.regs r v, pc := .at (i + 1) }
/-- set the flag and fall through -/
def setF (l : LSt n) (i : Nat) (z : Bool) : LSt n := { l with zf := z, pc := .at (i + 1) }
/-- conditional jump -/
def br (l : LSt n) (i : Nat) (c : Bool) (t : Pc) : LSt n :=
  { l with pc := if c then t else .at (i + 1) }
/-- fall through -/
def nx (l : LSt n) (i : Nat) : LSt n := { l with pc := .at (i + 1) }
end LSt

variable {n : Nat}

/-- One instruction at index `i`.  `fv` is the value of the CPU field (`cpu_id` or `mm_cid`) of the
calling thread at that instant. -/
def exec (p : Prog n) (fv : BitVec 32) (i : Nat) (ins : Instr) (l : LSt n) (m : Mem n) :
    LSt n × Mem n :=
  let R := l.regs
  match ins with
  | .cs r => (l.setR i r p.csAddr, m)
  | .ldCpuS r => (l.setR i r (fv.signExtend (8 * n)), m)
  | .ldCpuZ r => (l.setR i r (fv.setWidth (8 * n)), m)
  | .cmpCpu r => (l.setF i ((R r).setWidth 32 == fv), m)
  | .cmp32 a b => (l.setF i ((R a).setWidth 32 == (R b).setWidth 32), m)
  | .cmp a b => (l.setF i (R a == R b), m)
  | .tst r => (l.setF i (R r == 0#(8 * n)), m)
  | .cmpM b r => (l.setF i (ldw p.be m (R b) == R r), m)
  | .jne t => (l.br i (!l.zf) t, m)
  | .je t => (l.br i l.zf t, m)
  | .bne a b t => (l.br i (R a != R b) t, m)
  | .beq a b t => (l.br i (R a == R b) t, m)
  | .cbnz r t => (l.br i (R r != 0#(8 * n)) t, m)
  | .cbz r t => (l.br i (R r == 0#(8 * n)) t, m)
  | .cbnz32 r t => (l.br i ((R r).setWidth 32 != 0#32) t, m)
  | .jmp t => ({ l with pc := t }, m)
  | .mov r a => (l.setR i r (R a), m)
  | .add r a b => (l.setR i r (R a + R b), m)
  | .sub r a b => (l.setR i r (R a - R b), m)
  | .sub32 r a b =>
      (l.setR i r (((R a).setWidth 32 - (R b).setWidth 32).setWidth (8 * n)), m)
  | .addi r a k => (l.setR i r (R a + BitVec.ofInt (8 * n) k), m)
  | .addf r a k =>
      let v := R a + BitVec.ofInt (8 * n) k
      ({ l with regs := upd R r v, zf := v == 0#(8 * n), pc := .at (i + 1) }, m)
  | .addf2 r b =>
      let v := R r + R b
      ({ l with regs := upd R r v, zf := v == 0#(8 * n), pc := .at (i + 1) }, m)
  | .ld r b => (l.setR i r (ldw p.be m (R b)), m)
  | .ldx r a b => (l.setR i r (ldw p.be m (R a + R b)), m)
  | .st r b => (l.nx i, stw p.be m (R b) (R r))
  | .stl r b => (l.nx i, stw p.be m (R b) (R r))
  | .addM r b =>
      let v := ldw p.be m (R b) + R r
      ({ l with zf := v == 0#(8 * n), pc := .at (i + 1) }, stw p.be m (R b) v)
  | .ldb r b => (l.setR i r ((m (R b)).setWidth (8 * n)), m)
  | .ldbx r a b => (l.setR i r ((m (R a + R b)).setWidth (8 * n)), m)
  | .stb r b => (l.nx i, stb1 m (R b) ((R r).setWidth 8))
  | .stbx r a b => (l.nx i, stb1 m (R a + R b) ((R r).setWidth 8))
  | .lbzu r b =>
      let a := R b + 1#(8 * n)
      ({ l with regs := upd (upd R b a) r ((m a).setWidth (8 * n)), pc := .at (i + 1) }, m)
  | .stbu r b =>
      let a := R b + 1#(8 * n)
      ({ l with regs := upd R b a, pc := .at (i + 1) }, stb1 m a ((R r).setWidth 8))
  | .ldS r s => (l.setR i r (l.slots s), m)
  | .stS r s => ({ l with slots := upd l.slots s (R r), pc := .at (i + 1) }, m)
  | .fence => (l.nx i, m)

/-- One step of a helper.  A finished helper (or, which `WF` excludes, a control transfer outside the
code) stays where it is. -/
def step (p : Prog n) (fv : BitVec 32) (s : LSt n × Mem n) : LSt n × Mem n :=
  match s.1.pc with
  | .ret _ => s
  | .at i =>
    match p.code[i]? with
    | none => s
    | some ins => exec p fv i ins s.1 s.2

/-- `k` steps without interference. -/
def run (p : Prog n) (fv : BitVec 32) : Nat → LSt n × Mem n → LSt n × Mem n
  | 0, s => s
  | k + 1, s => run p fv k (step p fv s)

/-- Address `x` is one of the `n` bytes of the word at `a`. -/
def InWord (a x : W n) : Prop := (x - a).toNat < n

/-- Byte addresses of shared memory an instruction reads or writes. -/
def touched (ins : Instr) (l : LSt n) (x : W n) : Prop :=
  let R := l.regs
  match ins with
  | .cmpM b _ | .ld _ b | .st _ b | .stl _ b | .addM _ b => InWord (R b) x
  | .ldx _ a b => InWord (R a + R b) x
  | .ldb _ b | .stb _ b => x = R b
  | .ldbx _ a b | .stbx _ a b => x = R a + R b
  | .lbzu _ b | .stbu _ b => x = R b + 1#(8 * n)
  | _ => False

/-- Byte addresses of shared memory an instruction writes. -/
def stores (ins : Instr) (l : LSt n) (x : W n) : Prop :=
  let R := l.regs
  match ins with
  | .st _ b | .stl _ b | .addM _ b => InWord (R b) x
  | .stb _ b => x = R b
  | .stbx _ a b => x = R a + R b
  | .stbu _ b => x = R b + 1#(8 * n)
  | _ => False

end Verif.Rseq
