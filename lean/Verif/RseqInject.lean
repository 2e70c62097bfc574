import Verif.RseqTwiceProps
import Verif.RseqTaint
/-
Builds with delay injection (`tests/param_test.c:62-279`, `include/rseq/inject.h`).

`tests/param_test.c` defines `RSEQ_INJECT_ASM(n)` before it includes `rseq/rseq.h`, and every helper has that
macro between its instructions: each occurrence becomes a loop that counts down from `loop_cnt[n]` in a
scratch register, to widen the windows in which the helper can be interrupted.  `inject.h` asks that the
injected code be "fully reentrant".  All `param_test*` programs but the benchmarks are such builds, with
and without `RSEQ_COMPARE_TWICE`.

The model of an injected helper is the program of `RseqArch.lean` (or `RseqTwice.lean`) with the loops
inserted and jump targets, descriptor and zone boundaries moved accordingly; a label in front of an
injection point stays in front of it.  Simplifications:
* `loop_cnt[n]` and `asm_loop_cnt_n` (static ints, set by `main` before the threads start) are the private
  slots `200 + n`, with arbitrary contents; forming the address of `asm_loop_cnt_n` (x86 `lea`, i386
  `movl`/`leal` through `ref_ip`) is part of the load.
* The 32-bit counter operations are word operations.  The number of iterations for a negative counter
  therefore differs on 64-bit targets; which registers are changed does not.
* `RSEQ_INJECT_C(9)` and `RSEQ_INJECT_FAILED` are C code outside the assembly and belong to the caller.
-/

namespace Verif.Rseq

variable {n : Nat}

/-! ### Insertion -/

/-- The index in the new program of what precedes instruction `i` (a label of `i`), if `w i` instructions
are inserted in front of each instruction `i`. -/
def newAt (w : Nat → Nat) : Nat → Nat
  | 0 => 0
  | i + 1 => newAt w i + w i + 1

/-- Move the jump target of an instruction. -/
def Pc.move (f : Nat → Nat) : Pc → Pc
  | .at i => .at (f i)
  | .ret r => .ret r

def Instr.move (f : Nat → Nat) : Instr → Instr
  | .jne t => .jne (t.move f)
  | .je t => .je (t.move f)
  | .bne a b t => .bne a b (t.move f)
  | .beq a b t => .beq a b (t.move f)
  | .cbnz r t => .cbnz r (t.move f)
  | .cbz r t => .cbz r (t.move f)
  | .cbnz32 r t => .cbnz32 r (t.move f)
  | .jmp t => .jmp (t.move f)
  | i => i

/-- How an architecture injects: whether its loop uses the condition codes, and its scratch register. -/
structure Inj where
  flags : Bool
  reg : Nat

/-- Instructions of one injected loop. -/
def Inj.len (J : Inj) : Nat := if J.flags then 5 else 4

/-- The loop for `loop_cnt[num]`, at index `b`. -/
def Inj.loop (J : Inj) (b num : Nat) : List Instr :=
  if J.flags then
    [.ldS J.reg (200 + num), .tst J.reg, .je (.at (b + 5)), .addf J.reg J.reg (-1), .jne (.at (b + 3))]
  else [.ldS J.reg (200 + num), .cbz J.reg (.at (b + 4)), .addi J.reg J.reg (-1), .cbnz J.reg (.at (b + 2))]

/-- The loops in front of one instruction. -/
def Inj.loops (J : Inj) : Nat → List Nat → List Instr
  | _, [] => []
  | b, num :: r => J.loop b num ++ J.loops (b + J.len) r

/-- Injection points in front of instruction `i`, given as pairs of an index and the number of the macro's
argument. -/
def ptsAt (ps : List (Nat × Nat)) (i : Nat) : List Nat := (ps.filter (·.1 == i)).map (·.2)

/-- Number of instructions inserted in front of instruction `i`. -/
def Inj.w (J : Inj) (ps : List (Nat × Nat)) (i : Nat) : Nat := J.len * (ptsAt ps i).length

/-- The new code. -/
def Inj.code (J : Inj) (ps : List (Nat × Nat)) : Nat → List Instr → List Instr
  | _, [] => []
  | i, ins :: r => J.loops (newAt (J.w ps) i) (ptsAt ps i) ++
      ins.move (newAt (J.w ps)) :: J.code ps (i + 1) r

/-- The helper with the loops. -/
def Inj.prog (J : Inj) (ps : List (Nat × Nat)) (P : Prog n) : Prog n where
  code := J.code ps 0 P.code
  be := P.be
  csAddr := P.csAddr
  start := newAt (J.w ps) P.start
  chk := newAt (J.w ps) P.chk
  commit := newAt (J.w ps) P.commit
  abort := newAt (J.w ps) P.abort
  ne := newAt (J.w ps) P.ne

/-! ### The injections of the test program -/

/-- `INJECT_ASM_REG` and the shape of `RSEQ_INJECT_ASM`: param_test.c:75-92, 99-114, 126-138, 150-162,
174-182 (`RSEQ_ASM_TMP_REG32` = w15), 194-206, 218-229, 241-252, 264-275. -/
def injOf : Arch → Inj
  | .i386 => ⟨true, rax⟩          -- eax: movl, leal, movl; test; jz; dec; jnz
  | .x86_64 => ⟨true, rax⟩        -- eax: lea, mov; test; jz; dec; jnz
  | .s390 => ⟨true, g0⟩           -- r0: l; ltr; je; ahi; jnz
  | .arm => ⟨true, 4⟩             -- r4: ldr; cmp; beq; subs; bne
  | .aarch64 => ⟨false, x15⟩      -- w15: ldr; cbz; sub; cbnz
  | .ppc => ⟨true, r18⟩           -- r18: lwz; cmpwi; beq; subic.; bne
  | .mips => ⟨false, 5⟩           -- $5: lw; beqz; addiu; bnez
  | .riscv => ⟨false, 6⟩          -- t1: lw; beqz; addi; bnez
  | .loongarch => ⟨false, 12⟩     -- $r12: ld.w; beqz; addi.w; bnez

/-- The instructions in front of which `RSEQ_INJECT_ASM` stands in a helper; one more stands at the
post-commit label.  Number 1 (in front of the descriptor's store; not on i386) and 2 (in front of the CPU
comparison) come from `RSEQ_ASM_STORE_RSEQ_CS` and `RSEQ_ASM_CBNE_CPU_ID` in `<arch>.h`. -/
def injPts : Arch → Kind → List Nat
  | .i386, .cbneStore => [1, 3, 5]
  | .i386, .cbeqStoreAddLoadStore => [1, 3, 6]
  | .i386, .cbneCbneStore => [1, 3, 5, 7]
  | .i386, .cbneStoreStore => [1, 3, 6, 7]
  | .i386, .cbneMemcpyStore => [1, 3, 6, 17]
  | .i386, _ => [1, 3]
  | .x86_64, .cbneStore | .s390, .cbneStore => [0, 1, 3, 5]
  | .x86_64, .cbeqStoreAddLoadStore | .s390, .cbeqStoreAddLoadStore => [0, 1, 3, 6]
  | .x86_64, .cbneCbneStore | .s390, .cbneCbneStore => [0, 1, 3, 5, 7]
  | .x86_64, .cbneStoreStore | .s390, .cbneStoreStore => [0, 1, 3, 5, 6]
  | .x86_64, .cbneMemcpyStore | .s390, .cbneMemcpyStore => [3, 4, 6, 8, 16]
  | .x86_64, _ | .s390, _ => [0, 1, 3]
  | .riscv, .cbneMemcpyStore => [0, 1, 3, 5, 15]
  | .mips, .cbneMemcpyStore | .loongarch, .cbneMemcpyStore => [3, 4, 6, 8, 15]
  | .riscv, .cbneCbneStore | .mips, .cbneCbneStore | .loongarch, .cbneCbneStore => [0, 1, 3, 5, 7]
  | .riscv, .cbneStoreStore | .mips, .cbneStoreStore | .loongarch, .cbneStoreStore => [0, 1, 3, 5, 6]
  | .riscv, .addStore | .mips, .addStore | .loongarch, .addStore => [0, 1, 3]
  | .riscv, _ | .mips, _ | .loongarch, _ => [0, 1, 3, 5]
  | .aarch64, .cbneMemcpyStore => [0, 1, 4, 7, 13]
  | .ppc, .cbneMemcpyStore => [3, 4, 7, 10, 19]
  | .arm, .cbneMemcpyStore => [0, 1, 4, 8, 19]
  | .aarch64, .cbneCbneStore | .ppc, .cbneCbneStore | .arm, .cbneCbneStore => [0, 1, 4, 7, 10]
  | .aarch64, .cbneStoreStore | .ppc, .cbneStoreStore | .arm, .cbneStoreStore => [0, 1, 4, 7, 8]
  | .aarch64, .addStore | .ppc, .addStore | .arm, .addStore => [0, 1, 4]
  | .aarch64, _ | .ppc, _ | .arm, _ => [0, 1, 4, 7]

/-- The first number. -/
def injFirst : Arch → Nat
  | .i386 => 2
  | _ => 1

/-- The injection points of the helper with post-commit index `c`, with their numbers. -/
def injAt (a : Arch) (k : Kind) (c : Nat) : List (Nat × Nat) :=
  (injPts a k ++ [c]).zipIdx (injFirst a)

/-- In a `RSEQ_COMPARE_TWICE` build: points after the block are moved by its length, and the repeated
comparison of the CPU number brings number 2 again. -/
def injAtTwice (a : Arch) (k : Kind) (c tk : Nat) : List (Nat × Nat) :=
  ((injAt a k c).map fun q => (if q.1 ≤ twiceAt a k then q.1 else q.1 + tk, q.2)) ++ [(twiceAt a k, 2)]

/-- The helper of a site in an injecting build. -/
def Site.inj (S : Site n) : Prog n :=
  (injOf S.arch).prog (injAt S.arch S.kind S.prog.commit) S.prog

/-- The helper of a site in an injecting `RSEQ_COMPARE_TWICE` build. -/
def Site.injTwice (S : Site n) : Prog n :=
  (injOf S.arch).prog (injAtTwice S.arch S.kind S.prog.commit S.blk.length) S.twice

/-- `RSEQ_INJECT_CLOBBER` adds the scratch register to the clobber list of the assembly statement
(param_test.c:77, 102, 128, 152, 196, 220, 243, 266; on aarch64 it is there already), so the compiler
does not place an operand in it. -/
def Site.InjOK (S : Site n) : Prop :=
  ∀ o, o ∈ S.kind.opnds ∨ o = .cpu → S.al o ≠ (injOf S.arch).reg

end Verif.Rseq
