import Verif.RseqPseudo
/-
The critical-section helpers of the nine architectures, instruction by instruction.

Each line carries its index, the zone label(s) it starts, the source line (of the file named in the
definition's comment) and the assembly text.  Operands in registers are `al .name`: `al` is the
compiler's register allocation, an arbitrary function (see `Setup` in `RseqPseudo.lean`).  Operands
that the source passes as "m" (C locals) are slots.  An operand accepted as immediate or register
("er", "ir", "Ir") is modelled as a register.

One instruction of the model may stand for several in two places: `cs` (address formation and store
of `rseq_cs`; everything before the label that follows is outside the critical section) and x86-32's
`call`/`ret` used to obtain the instruction pointer, which touches only the stack.

File names are relative to `/repo/include/rseq/arch`.
-/

namespace Verif.Rseq

variable {n : Nat}

/-! Temporary registers named in the sources. -/
/-- x86 %rax / %eax -/
abbrev rax : Nat := 0
/-- x86 %rbx / %ebx -/
abbrev rbx : Nat := 3
/-- x86 %rcx / %ecx -/
abbrev rcx : Nat := 1
/-- x86 %edx -/
abbrev rdx : Nat := 2
/-- aarch64 RSEQ_ASM_TMP_REG -/
abbrev x15 : Nat := 15
/-- aarch64 RSEQ_ASM_TMP_REG_2 -/
abbrev x14 : Nat := 14
/-- riscv RSEQ_ASM_TMP_REG_1 -/
abbrev t6 : Nat := 31
/-- riscv RSEQ_ASM_TMP_REG_2 -/
abbrev t5 : Nat := 30
/-- riscv RSEQ_ASM_TMP_REG_3 -/
abbrev t4 : Nat := 29
/-- riscv RSEQ_ASM_TMP_REG_4 -/
abbrev t3 : Nat := 28
/-- ppc r17 -/
abbrev r17 : Nat := 17
/-- ppc r18 -/
abbrev r18 : Nat := 18
/-- ppc r19 -/
abbrev r19 : Nat := 19
/-- ppc r20 -/
abbrev r20 : Nat := 20
/-- ppc r21 -/
abbrev r21 : Nat := 21
/-- s390 r0 -/
abbrev g0 : Nat := 0
/-- s390 r1 -/
abbrev g1 : Nat := 1
/-- mips $4, loongarch $r4 -/
abbrev m4 : Nat := 4
/-- arm r0 -/
abbrev a0 : Nat := 0
/-- arm r5 -/
abbrev a5 : Nat := 5
/-- arm r6 -/
abbrev a6 : Nat := 6
/-- arm r7 -/
abbrev a7 : Nat := 7

/-- `x86/bits.h:31-89` -/
def x86_64_cbneStore (al : Opnd → Nat) (be : Bool) (csa : W n) : Prog n where
  code := [
    .cs rax,                          --  0  43 leaq 3b(%rip),%rax; movq %rax,%fs:8(off)
    .cmpCpu (al .cpu),                --  1 <start>  44 cmpl cpu_id,%fs:field(off)
    .jne (.at 7),                     --  2  44 jnz 4f
    .cmpM (al .v) (al .expect),       --  3 <chk>  46 cmpq v,expect
    .jne (.ret 1),                    --  4  47 jne ne
    .st (al .newv) (al .v),           --  5  55 movq newv,v
    .jmp (.ret 0),                    --  6 <commit>  end of asm: return 0
    .jmp (.ret (-1))                  --  7 <abort>  RSEQ_ASM_DEFINE_ABORT: jmp abort
  ]
  be := be
  csAddr := csa
  start := 1
  chk := 3
  commit := 6
  abort := 7
  ne := 8

/-- `x86/bits.h:92-158` -/
def x86_64_cbeqStoreAddLoadStore (al : Opnd → Nat) (be : Bool) (csa : W n) : Prog n where
  code := [
    .cs rax,                          --  0  105 leaq 3b(%rip),%rax; movq %rax,%fs:8(off)
    .cmpCpu (al .cpu),                --  1 <start>  106 cmpl cpu_id,%fs:field(off)
    .jne (.at 11),                    --  2  106 jnz 4f
    .ld rbx (al .v),                  --  3 <chk>  108 movq v,%rbx
    .cmp rbx (al .expectnot),         --  4  109 cmpq %rbx,expectnot
    .je (.ret 1),                     --  5  110 je eq
    .st rbx (al .load),               --  6  118 movq %rbx,load
    .add rbx rbx (al .voffp),         --  7  119 addq voffp,%rbx
    .ld rbx rbx,                      --  8  120 movq (%rbx),%rbx
    .st rbx (al .v),                  --  9  122 movq %rbx,v
    .jmp (.ret 0),                    -- 10 <commit>  end of asm: return 0
    .jmp (.ret (-1))                  -- 11 <abort>  RSEQ_ASM_DEFINE_ABORT: jmp abort
  ]
  be := be
  csAddr := csa
  start := 1
  chk := 3
  commit := 10
  abort := 11
  ne := 12

/-- `x86/bits.h:161-207` -/
def x86_64_addStore (al : Opnd → Nat) (be : Bool) (csa : W n) : Prog n where
  code := [
    .cs rax,                          --  0  171 leaq 3b(%rip),%rax; movq %rax,%fs:8(off)
    .cmpCpu (al .cpu),                --  1 <start>  172 cmpl cpu_id,%fs:field(off)
    .jne (.at 5),                     --  2  172 jnz 4f
    .addM (al .count) (al .v),        --  3 <chk>  178 addq count,v
    .jmp (.ret 0),                    --  4 <commit>  end of asm: return 0
    .jmp (.ret (-1))                  --  5 <abort>  RSEQ_ASM_DEFINE_ABORT: jmp abort
  ]
  be := be
  csAddr := csa
  start := 1
  chk := 3
  commit := 4
  abort := 5
  ne := 6

/-- `x86/bits.h:211-262` -/
def x86_64_addLoadLoadAddStore (al : Opnd → Nat) (be : Bool) (csa : W n) : Prog n where
  code := [
    .cs rax,                          --  0  221 leaq 3b(%rip),%rax; movq %rax,%fs:8(off)
    .cmpCpu (al .cpu),                --  1 <start>  222 cmpl cpu_id,%fs:field(off)
    .jne (.at 8),                     --  2  222 jnz 4f
    .ld rbx (al .ptr),                --  3 <chk>  228 movq ptr,%rbx
    .add rbx rbx (al .off),           --  4  229 addq off,%rbx
    .ld rcx rbx,                      --  5  231 movq (%rbx),%rcx
    .addM (al .inc) rcx,              --  6  233 addq inc,(%rcx)
    .jmp (.ret 0),                    --  7 <commit>  end of asm: return 0
    .jmp (.ret (-1))                  --  8 <abort>  RSEQ_ASM_DEFINE_ABORT: jmp abort
  ]
  be := be
  csAddr := csa
  start := 1
  chk := 3
  commit := 7
  abort := 8
  ne := 9

/-- `x86/bits.h:265-340` -/
def x86_64_cbneCbneStore (al : Opnd → Nat) (be : Bool) (csa : W n) : Prog n where
  code := [
    .cs rax,                          --  0  280 leaq 3b(%rip),%rax; movq %rax,%fs:8(off)
    .cmpCpu (al .cpu),                --  1 <start>  281 cmpl cpu_id,%fs:field(off)
    .jne (.at 9),                     --  2  281 jnz 4f
    .cmpM (al .v) (al .expect),       --  3 <chk>  283 cmpq v,expect
    .jne (.ret 1),                    --  4  284 jne ne
    .cmpM (al .v2) (al .expect2),     --  5  286 cmpq v2,expect2
    .jne (.ret 1),                    --  6  287 jne ne
    .st (al .newv) (al .v),           --  7  297 movq newv,v
    .jmp (.ret 0),                    --  8 <commit>  end of asm: return 0
    .jmp (.ret (-1))                  --  9 <abort>  RSEQ_ASM_DEFINE_ABORT: jmp abort
  ]
  be := be
  csAddr := csa
  start := 1
  chk := 3
  commit := 8
  abort := 9
  ne := 10

/-- `x86/bits.h:347-413 (same code for relaxed and release: TSO)` -/
def x86_64_cbneStoreStore (al : Opnd → Nat) (be : Bool) (csa : W n) : Prog n where
  code := [
    .cs rax,                          --  0  361 leaq 3b(%rip),%rax; movq %rax,%fs:8(off)
    .cmpCpu (al .cpu),                --  1 <start>  362 cmpl cpu_id,%fs:field(off)
    .jne (.at 8),                     --  2  362 jnz 4f
    .cmpM (al .v) (al .expect),       --  3 <chk>  364 cmpq v,expect
    .jne (.ret 1),                    --  4  365 jne ne
    .st (al .newv2) (al .v2),         --  5  373 movq newv2,v2
    .st (al .newv) (al .v),           --  6  376 movq newv,v
    .jmp (.ret 0),                    --  7 <commit>  end of asm: return 0
    .jmp (.ret (-1))                  --  8 <abort>  RSEQ_ASM_DEFINE_ABORT: jmp abort
  ]
  be := be
  csAddr := csa
  start := 1
  chk := 3
  commit := 7
  abort := 8
  ne := 9

/-- `x86/bits.h:417-540 (same code for relaxed and release: TSO)` -/
def x86_64_cbneMemcpyStore (al : Opnd → Nat) (be : Bool) (csa : W n) : Prog n where
  code := [
    .stS (al .src) 100,               --  0  432 movq src -> scratch0
    .stS (al .dst) 101,               --  1  433 movq dst -> scratch1
    .stS (al .len) 102,               --  2  434 movq len -> scratch2
    .cs rax,                          --  3  436 leaq 3b(%rip),%rax; movq %rax,%fs:8(off)
    .cmpCpu (al .cpu),                --  4 <start>  437 cmpl cpu_id,%fs:field(off)
    .jne (.at 21),                    --  5  437 jnz 4f
    .cmpM (al .v) (al .expect),       --  6 <chk>  439 cmpq v,expect
    .jne (.at 25),                    --  7  440 jne 5f
    .tst (al .len),                   --  8  448 test len,len
    .je (.at 16),                     --  9  449 je 333f
    .ldb rax (al .src),               -- 10 <222>  451 movb (src),%al
    .stb rax (al .dst),               -- 11  452 movb %al,(dst)
    .addf (al .src) (al .src) 1,      -- 12  453 inc src
    .addf (al .dst) (al .dst) 1,      -- 13  454 inc dst
    .addf (al .len) (al .len) (-1),   -- 14  455 dec len
    .jne (.at 10),                    -- 15  456 jnz 222b
    .st (al .newv) (al .v),           -- 16 <333>  460 movq newv,v
    .ldS (al .len) 102,               -- 17 <commit>  464 movq scratch2 -> len
    .ldS (al .dst) 101,               -- 18  465 movq scratch1 -> dst
    .ldS (al .src) 100,               -- 19  466 movq scratch0 -> src
    .jmp (.ret 0),                    -- 20  end of asm: return 0
    .ldS (al .len) 102,               -- 21 <abort>  468 movq scratch2 -> len
    .ldS (al .dst) 101,               -- 22  469 movq scratch1 -> dst
    .ldS (al .src) 100,               -- 23  470 movq scratch0 -> src
    .jmp (.ret (-1)),                 -- 24  471 jmp abort
    .ldS (al .len) 102,               -- 25 <ne>  473 movq scratch2 -> len
    .ldS (al .dst) 101,               -- 26  474 movq scratch1 -> dst
    .ldS (al .src) 100,               -- 27  475 movq scratch0 -> src
    .jmp (.ret 1)                     -- 28  476 jmp ne
  ]
  be := be
  csAddr := csa
  start := 4
  chk := 6
  commit := 17
  abort := 21
  ne := 25

/-- `x86/bits.h:544-611` -/
def i386_cbneStore (al : Opnd → Nat) (be : Bool) (csa : W n) : Prog n where
  code := [
    .cs rax,                          --  0  564 call 880b; ref_ip; leal; movl %eax,%gs:8(off)
    .cmpCpu (al .cpu),                --  1 <start>  565 cmpl cpu_id,%gs:field(off)
    .jne (.at 7),                     --  2  565 jnz 4f
    .cmpM (al .v) (al .expect),       --  3 <chk>  567 cmpl v,expect
    .jne (.ret 1),                    --  4  568 jne ne
    .st (al .newv) (al .v),           --  5  576 movl newv,v
    .jmp (.ret 0),                    --  6 <commit>  end of asm: return 0
    .jmp (.ret (-1))                  --  7 <abort>  RSEQ_ASM_DEFINE_ABORT: jmp abort
  ]
  be := be
  csAddr := csa
  start := 1
  chk := 3
  commit := 6
  abort := 7
  ne := 8

/-- `x86/bits.h:614-689` -/
def i386_cbeqStoreAddLoadStore (al : Opnd → Nat) (be : Bool) (csa : W n) : Prog n where
  code := [
    .cs rax,                          --  0  635 call 880b; ref_ip; leal; movl %eax,%gs:8(off)
    .cmpCpu (al .cpu),                --  1 <start>  636 cmpl cpu_id,%gs:field(off)
    .jne (.at 11),                    --  2  636 jnz 4f
    .ld rbx (al .v),                  --  3 <chk>  638 movl v,%ebx
    .cmp rbx (al .expectnot),         --  4  639 cmpl %ebx,expectnot
    .je (.ret 1),                     --  5  640 je eq
    .st rbx (al .load),               --  6  648 movl %ebx,load
    .add rbx rbx (al .voffp),         --  7  649 addl voffp,%ebx
    .ld rbx rbx,                      --  8  650 movl (%ebx),%ebx
    .st rbx (al .v),                  --  9  652 movl %ebx,v
    .jmp (.ret 0),                    -- 10 <commit>  end of asm: return 0
    .jmp (.ret (-1))                  -- 11 <abort>  RSEQ_ASM_DEFINE_ABORT: jmp abort
  ]
  be := be
  csAddr := csa
  start := 1
  chk := 3
  commit := 10
  abort := 11
  ne := 12

/-- `x86/bits.h:692-746` -/
def i386_addStore (al : Opnd → Nat) (be : Bool) (csa : W n) : Prog n where
  code := [
    .cs rax,                          --  0  711 call 880b; ref_ip; leal; movl %eax,%gs:8(off)
    .cmpCpu (al .cpu),                --  1 <start>  712 cmpl cpu_id,%gs:field(off)
    .jne (.at 5),                     --  2  712 jnz 4f
    .addM (al .count) (al .v),        --  3 <chk>  717 addl count,v
    .jmp (.ret 0),                    --  4 <commit>  end of asm: return 0
    .jmp (.ret (-1))                  --  5 <abort>  RSEQ_ASM_DEFINE_ABORT: jmp abort
  ]
  be := be
  csAddr := csa
  start := 1
  chk := 3
  commit := 4
  abort := 5
  ne := 6

/-- `x86/bits.h:749-837` -/
def i386_cbneCbneStore (al : Opnd → Nat) (be : Bool) (csa : W n) : Prog n where
  code := [
    .cs rax,                          --  0  772 call 880b; ref_ip; leal; movl %eax,%gs:8(off)
    .cmpCpu (al .cpu),                --  1 <start>  773 cmpl cpu_id,%gs:field(off)
    .jne (.at 10),                    --  2  773 jnz 4f
    .cmpM (al .v) (al .expect),       --  3 <chk>  775 cmpl v,expect
    .jne (.ret 1),                    --  4  776 jne ne
    .cmpM (al .v2) (al .expect2),     --  5  778 cmpl expect2,v2
    .jne (.ret 1),                    --  6  779 jne ne
    .ldS rax (slotOf .newv),          --  7  788 movl newv,%eax
    .st rax (al .v),                  --  8  790 movl %eax,v
    .jmp (.ret 0),                    --  9 <commit>  end of asm: return 0
    .jmp (.ret (-1))                  -- 10 <abort>  RSEQ_ASM_DEFINE_ABORT: jmp abort
  ]
  be := be
  csAddr := csa
  start := 1
  chk := 3
  commit := 9
  abort := 10
  ne := 11

/-- `x86/bits.h:841-923` (relaxed variant) -/
def i386_cbneStoreStore (al : Opnd → Nat) (be : Bool) (csa : W n) : Prog n where
  code := [
    .cs rax,                          --  0  863 call 880b; ref_ip; leal; movl %eax,%gs:8(off)
    .cmpCpu (al .cpu),                --  1 <start>  864 cmpl cpu_id,%gs:field(off)
    .jne (.at 9),                     --  2  864 jnz 4f
    .ldS rax (slotOf .expect),        --  3 <chk>  866 movl expect,%eax
    .cmpM (al .v) rax,                --  4  867 cmpl v,%eax
    .jne (.ret 1),                    --  5  868 jne ne
    .st (al .newv2) (al .v2),         --  6  877 movl newv2,v2
    .st (al .newv) (al .v),           --  7  883 movl newv,v
    .jmp (.ret 0),                    --  8 <commit>  end of asm: return 0
    .jmp (.ret (-1))                  --  9 <abort>  RSEQ_ASM_DEFINE_ABORT: jmp abort
  ]
  be := be
  csAddr := csa
  start := 1
  chk := 3
  commit := 8
  abort := 9
  ne := 10

/-- `x86/bits.h:841-923` (release variant) -/
def i386_cbneStoreStore_rel (al : Opnd → Nat) (be : Bool) (csa : W n) : Prog n where
  code := [
    .cs rax,                          --  0  863 call 880b; ref_ip; leal; movl %eax,%gs:8(off)
    .cmpCpu (al .cpu),                --  1 <start>  864 cmpl cpu_id,%gs:field(off)
    .jne (.at 10),                    --  2  864 jnz 4f
    .ldS rax (slotOf .expect),        --  3 <chk>  866 movl expect,%eax
    .cmpM (al .v) rax,                --  4  867 cmpl v,%eax
    .jne (.ret 1),                    --  5  868 jne ne
    .st (al .newv2) (al .v2),         --  6  877 movl newv2,v2
    .fence,                           --  7  880 lock; addl $0,-128(%esp)
    .st (al .newv) (al .v),           --  8  883 movl newv,v
    .jmp (.ret 0),                    --  9 <commit>  end of asm: return 0
    .jmp (.ret (-1))                  -- 10 <abort>  RSEQ_ASM_DEFINE_ABORT: jmp abort
  ]
  be := be
  csAddr := csa
  start := 1
  chk := 3
  commit := 9
  abort := 10
  ne := 11

/-- `x86/bits.h:927-1040` (relaxed variant) -/
def i386_cbneMemcpyStore (al : Opnd → Nat) (be : Bool) (csa : W n) : Prog n where
  code := [
    .cs rax,                          --  0  960 call 880b; ref_ip; leal; movl %eax,%gs:8(off)
    .cmpCpu (al .cpu),                --  1 <start>  961 cmpl cpu_id,%gs:field(off)
    .jne (.at 20),                    --  2  961 jnz 4f
    .ldS rbx (slotOf .expect),        --  3 <chk>  964 movl expect,%ebx
    .cmpM (al .v) rbx,                --  4  965 cmpl %ebx,v
    .jne (.ret 1),                    --  5  966 jne ne
    .ldS rbx (slotOf .dst),           --  6  975 movl dst,%ebx
    .ldS rcx (slotOf .src),           --  7  977 movl src,%ecx
    .ldS rdx (slotOf .len),           --  8  979 movl len,%edx
    .tst rdx,                         --  9  980 test %edx,%edx
    .je (.at 17),                     -- 10  981 je 333f
    .ldb rax rcx,                     -- 11 <222>  983 movb (%ecx),%al
    .stb rax rbx,                     -- 12  984 movb %al,(%ebx)
    .addf rcx rcx 1,                  -- 13  985 inc %ecx
    .addf rbx rbx 1,                  -- 14  986 inc %ebx
    .addf rdx rdx (-1),               -- 15  987 dec %edx
    .jne (.at 11),                    -- 16  988 jnz 222b
    .ldS rbx (slotOf .newv),          -- 17 <333>  995 movl newv,%ebx
    .st rbx (al .v),                  -- 18  997 movl %ebx,v
    .jmp (.ret 0),                    -- 19 <commit>  end of asm: return 0
    .jmp (.ret (-1))                  -- 20 <abort>  RSEQ_ASM_DEFINE_ABORT: jmp abort
  ]
  be := be
  csAddr := csa
  start := 1
  chk := 3
  commit := 19
  abort := 20
  ne := 21

/-- `x86/bits.h:927-1040` (release variant) -/
def i386_cbneMemcpyStore_rel (al : Opnd → Nat) (be : Bool) (csa : W n) : Prog n where
  code := [
    .cs rax,                          --  0  960 call 880b; ref_ip; leal; movl %eax,%gs:8(off)
    .cmpCpu (al .cpu),                --  1 <start>  961 cmpl cpu_id,%gs:field(off)
    .jne (.at 21),                    --  2  961 jnz 4f
    .ldS rbx (slotOf .expect),        --  3 <chk>  964 movl expect,%ebx
    .cmpM (al .v) rbx,                --  4  965 cmpl %ebx,v
    .jne (.ret 1),                    --  5  966 jne ne
    .ldS rbx (slotOf .dst),           --  6  975 movl dst,%ebx
    .ldS rcx (slotOf .src),           --  7  977 movl src,%ecx
    .ldS rdx (slotOf .len),           --  8  979 movl len,%edx
    .tst rdx,                         --  9  980 test %edx,%edx
    .je (.at 17),                     -- 10  981 je 333f
    .ldb rax rcx,                     -- 11 <222>  983 movb (%ecx),%al
    .stb rax rbx,                     -- 12  984 movb %al,(%ebx)
    .addf rcx rcx 1,                  -- 13  985 inc %ecx
    .addf rbx rbx 1,                  -- 14  986 inc %ebx
    .addf rdx rdx (-1),               -- 15  987 dec %edx
    .jne (.at 11),                    -- 16  988 jnz 222b
    .fence,                           -- 17 <333>  992 lock; addl $0,-128(%esp)
    .ldS rbx (slotOf .newv),          -- 18  995 movl newv,%ebx
    .st rbx (al .v),                  -- 19  997 movl %ebx,v
    .jmp (.ret 0),                    -- 20 <commit>  end of asm: return 0
    .jmp (.ret (-1))                  -- 21 <abort>  RSEQ_ASM_DEFINE_ABORT: jmp abort
  ]
  be := be
  csAddr := csa
  start := 1
  chk := 3
  commit := 20
  abort := 21
  ne := 22

/-- `aarch64/bits.h:21-75, aarch64.h:153-254` -/
def aarch64_cbneStore (al : Opnd → Nat) (be : Bool) (csa : W n) : Prog n where
  code := [
    .cs x15,                          --  0  32 adrp; add; str x15,rseq_cs
    .ldCpuZ x15,                      --  1 <start>  33 ldr w15,field
    .sub32 x15 x15 (al .cpu),         --  2  33 sub w15,w15,w cpu_id
    .cbnz32 x15 (.at 9),              --  3  33 cbnz w15,4f
    .ld x15 (al .v),                  --  4 <chk>  35 ldr x15,v
    .sub x15 x15 (al .expect),        --  5  35 sub x15,x15,expect
    .cbnz x15 (.ret 1),               --  6  35 cbnz x15,ne
    .st (al .newv) (al .v),           --  7  41 str newv,v
    .jmp (.ret 0),                    --  8 <commit>  end of asm: return 0
    .jmp (.ret (-1))                  --  9 <abort>  RSEQ_ASM_DEFINE_ABORT: jmp abort
  ]
  be := be
  csAddr := csa
  start := 1
  chk := 4
  commit := 8
  abort := 9
  ne := 10

/-- `aarch64/bits.h:78-137` -/
def aarch64_cbeqStoreAddLoadStore (al : Opnd → Nat) (be : Bool) (csa : W n) : Prog n where
  code := [
    .cs x15,                          --  0  90 adrp; add; str x15,rseq_cs
    .ldCpuZ x15,                      --  1 <start>  91 ldr w15,field
    .sub32 x15 x15 (al .cpu),         --  2  91 sub w15,w15,w cpu_id
    .cbnz32 x15 (.at 12),             --  3  91 cbnz w15,4f
    .ld x15 (al .v),                  --  4 <chk>  93 ldr x15,v
    .sub x15 x15 (al .expectnot),     --  5  93 sub x15,x15,expectnot
    .cbz x15 (.ret 1),                --  6  93 cbz x15,eq
    .ld x15 (al .v),                  --  7  99 ldr x15,v
    .st x15 (al .load),               --  8  100 str x15,load
    .ldx x15 x15 (al .voffp),         --  9  101 ldr x15,[x15,voffp]
    .st x15 (al .v),                  -- 10  102 str x15,v
    .jmp (.ret 0),                    -- 11 <commit>  end of asm: return 0
    .jmp (.ret (-1))                  -- 12 <abort>  RSEQ_ASM_DEFINE_ABORT: jmp abort
  ]
  be := be
  csAddr := csa
  start := 1
  chk := 4
  commit := 11
  abort := 12
  ne := 13

/-- `aarch64/bits.h:140-184` -/
def aarch64_addStore (al : Opnd → Nat) (be : Bool) (csa : W n) : Prog n where
  code := [
    .cs x15,                          --  0  149 adrp; add; str x15,rseq_cs
    .ldCpuZ x15,                      --  1 <start>  150 ldr w15,field
    .sub32 x15 x15 (al .cpu),         --  2  150 sub w15,w15,w cpu_id
    .cbnz32 x15 (.at 8),              --  3  150 cbnz w15,4f
    .ld x15 (al .v),                  --  4 <chk>  155 ldr x15,v
    .add x15 x15 (al .count),         --  5  156 add x15,x15,count
    .st x15 (al .v),                  --  6  157 str x15,v
    .jmp (.ret 0),                    --  7 <commit>  end of asm: return 0
    .jmp (.ret (-1))                  --  8 <abort>  RSEQ_ASM_DEFINE_ABORT: jmp abort
  ]
  be := be
  csAddr := csa
  start := 1
  chk := 4
  commit := 7
  abort := 8
  ne := 9

/-- `aarch64/bits.h:187-257` -/
def aarch64_cbneCbneStore (al : Opnd → Nat) (be : Bool) (csa : W n) : Prog n where
  code := [
    .cs x15,                          --  0  201 adrp; add; str x15,rseq_cs
    .ldCpuZ x15,                      --  1 <start>  202 ldr w15,field
    .sub32 x15 x15 (al .cpu),         --  2  202 sub w15,w15,w cpu_id
    .cbnz32 x15 (.at 12),             --  3  202 cbnz w15,4f
    .ld x15 (al .v),                  --  4 <chk>  204 ldr x15,v
    .sub x15 x15 (al .expect),        --  5  204 sub x15,x15,expect
    .cbnz x15 (.ret 1),               --  6  204 cbnz x15,ne
    .ld x15 (al .v2),                 --  7  206 ldr x15,v2
    .sub x15 x15 (al .expect2),       --  8  206 sub x15,x15,expect2
    .cbnz x15 (.ret 1),               --  9  206 cbnz x15,ne
    .st (al .newv) (al .v),           -- 10  213 str newv,v
    .jmp (.ret 0),                    -- 11 <commit>  end of asm: return 0
    .jmp (.ret (-1))                  -- 12 <abort>  RSEQ_ASM_DEFINE_ABORT: jmp abort
  ]
  be := be
  csAddr := csa
  start := 1
  chk := 4
  commit := 11
  abort := 12
  ne := 13

/-- `aarch64/bits.h:261-325` (relaxed variant) -/
def aarch64_cbneStoreStore (al : Opnd → Nat) (be : Bool) (csa : W n) : Prog n where
  code := [
    .cs x15,                          --  0  274 adrp; add; str x15,rseq_cs
    .ldCpuZ x15,                      --  1 <start>  275 ldr w15,field
    .sub32 x15 x15 (al .cpu),         --  2  275 sub w15,w15,w cpu_id
    .cbnz32 x15 (.at 10),             --  3  275 cbnz w15,4f
    .ld x15 (al .v),                  --  4 <chk>  277 ldr x15,v
    .sub x15 x15 (al .expect),        --  5  277 sub x15,x15,expect
    .cbnz x15 (.ret 1),               --  6  277 cbnz x15,ne
    .st (al .newv2) (al .v2),         --  7  283 str newv2,v2
    .st (al .newv) (al .v),           --  8  288 str newv,v
    .jmp (.ret 0),                    --  9 <commit>  end of asm: return 0
    .jmp (.ret (-1))                  -- 10 <abort>  RSEQ_ASM_DEFINE_ABORT: jmp abort
  ]
  be := be
  csAddr := csa
  start := 1
  chk := 4
  commit := 9
  abort := 10
  ne := 11

/-- `aarch64/bits.h:261-325` (release variant) -/
def aarch64_cbneStoreStore_rel (al : Opnd → Nat) (be : Bool) (csa : W n) : Prog n where
  code := [
    .cs x15,                          --  0  274 adrp; add; str x15,rseq_cs
    .ldCpuZ x15,                      --  1 <start>  275 ldr w15,field
    .sub32 x15 x15 (al .cpu),         --  2  275 sub w15,w15,w cpu_id
    .cbnz32 x15 (.at 10),             --  3  275 cbnz w15,4f
    .ld x15 (al .v),                  --  4 <chk>  277 ldr x15,v
    .sub x15 x15 (al .expect),        --  5  277 sub x15,x15,expect
    .cbnz x15 (.ret 1),               --  6  277 cbnz x15,ne
    .st (al .newv2) (al .v2),         --  7  283 str newv2,v2
    .stl (al .newv) (al .v),          --  8  286 stlr newv,v
    .jmp (.ret 0),                    --  9 <commit>  end of asm: return 0
    .jmp (.ret (-1))                  -- 10 <abort>  RSEQ_ASM_DEFINE_ABORT: jmp abort
  ]
  be := be
  csAddr := csa
  start := 1
  chk := 4
  commit := 9
  abort := 10
  ne := 11

/-- `aarch64/bits.h:328-393, aarch64.h:244-253` (relaxed variant) -/
def aarch64_cbneMemcpyStore (al : Opnd → Nat) (be : Bool) (csa : W n) : Prog n where
  code := [
    .cs x15,                          --  0  341 adrp; add; str x15,rseq_cs
    .ldCpuZ x15,                      --  1 <start>  342 ldr w15,field
    .sub32 x15 x15 (al .cpu),         --  2  342 sub w15,w15,w cpu_id
    .cbnz32 x15 (.at 15),             --  3  342 cbnz w15,4f
    .ld x15 (al .v),                  --  4 <chk>  344 ldr x15,v
    .sub x15 x15 (al .expect),        --  5  344 sub x15,x15,expect
    .cbnz x15 (.ret 1),               --  6  344 cbnz x15,ne
    .cbz (al .len) (.at 13),          --  7  350 cbz len,333f
    .mov x14 (al .len),               --  8  350 mov x14,len
    .addi x14 x14 (-1),               --  9 <222>  350 sub x14,x14,#1
    .ldbx x15 (al .src) x14,          -- 10  350 ldrb w15,[src,x14]
    .stbx x15 (al .dst) x14,          -- 11  350 strb w15,[dst,x14]
    .cbnz x14 (.at 9),                -- 12  350 cbnz x14,222b
    .st (al .newv) (al .v),           -- 13 <333>  355 str newv,v
    .jmp (.ret 0),                    -- 14 <commit>  end of asm: return 0
    .jmp (.ret (-1))                  -- 15 <abort>  RSEQ_ASM_DEFINE_ABORT: jmp abort
  ]
  be := be
  csAddr := csa
  start := 1
  chk := 4
  commit := 14
  abort := 15
  ne := 16

/-- `aarch64/bits.h:328-393, aarch64.h:244-253` (release variant) -/
def aarch64_cbneMemcpyStore_rel (al : Opnd → Nat) (be : Bool) (csa : W n) : Prog n where
  code := [
    .cs x15,                          --  0  341 adrp; add; str x15,rseq_cs
    .ldCpuZ x15,                      --  1 <start>  342 ldr w15,field
    .sub32 x15 x15 (al .cpu),         --  2  342 sub w15,w15,w cpu_id
    .cbnz32 x15 (.at 15),             --  3  342 cbnz w15,4f
    .ld x15 (al .v),                  --  4 <chk>  344 ldr x15,v
    .sub x15 x15 (al .expect),        --  5  344 sub x15,x15,expect
    .cbnz x15 (.ret 1),               --  6  344 cbnz x15,ne
    .cbz (al .len) (.at 13),          --  7  350 cbz len,333f
    .mov x14 (al .len),               --  8  350 mov x14,len
    .addi x14 x14 (-1),               --  9 <222>  350 sub x14,x14,#1
    .ldbx x15 (al .src) x14,          -- 10  350 ldrb w15,[src,x14]
    .stbx x15 (al .dst) x14,          -- 11  350 strb w15,[dst,x14]
    .cbnz x14 (.at 9),                -- 12  350 cbnz x14,222b
    .stl (al .newv) (al .v),          -- 13 <333>  353 stlr newv,v
    .jmp (.ret 0),                    -- 14 <commit>  end of asm: return 0
    .jmp (.ret (-1))                  -- 15 <abort>  RSEQ_ASM_DEFINE_ABORT: jmp abort
  ]
  be := be
  csAddr := csa
  start := 1
  chk := 4
  commit := 14
  abort := 15
  ne := 16

/-- `riscv/bits.h:16-66, riscv.h:125-221` -/
def riscv_cbneStore (al : Opnd → Nat) (be : Bool) (csa : W n) : Prog n where
  code := [
    .cs t6,                           --  0  26 la t6,1b; sd t6,rseq_cs
    .ldCpuS t6,                       --  1 <start>  27 lw t6,field
    .bne t6 (al .cpu) (.at 7),        --  2  27 bne t6,cpu_id,4f
    .ld t6 (al .v),                   --  3 <chk>  29 ld t6,v
    .bne t6 (al .expect) (.ret 1),    --  4  29 bne t6,expect,ne
    .st (al .newv) (al .v),           --  5  35 sd newv,v
    .jmp (.ret 0),                    --  6 <commit>  end of asm: return 0
    .jmp (.ret (-1))                  --  7 <abort>  RSEQ_ASM_DEFINE_ABORT: jmp abort
  ]
  be := be
  csAddr := csa
  start := 1
  chk := 3
  commit := 6
  abort := 7
  ne := 8

/-- `riscv/bits.h:69-123` -/
def riscv_cbeqStoreAddLoadStore (al : Opnd → Nat) (be : Bool) (csa : W n) : Prog n where
  code := [
    .cs t6,                           --  0  80 la t6,1b; sd t6,rseq_cs
    .ldCpuS t6,                       --  1 <start>  81 lw t6,field
    .bne t6 (al .cpu) (.at 11),       --  2  81 bne t6,cpu_id,4f
    .ld t6 (al .v),                   --  3 <chk>  83 ld t6,v
    .beq t6 (al .expectnot) (.ret 1), --  4  83 beq t6,expectnot,eq
    .ld t6 (al .v),                   --  5  89 ld t6,v
    .st t6 (al .load),                --  6  90 sd t6,load
    .add t6 (al .voffp) t6,           --  7  91 add t6,voffp,t6
    .ld t6 t6,                        --  8  91 ld t6,(t6)
    .st t6 (al .v),                   --  9  92 sd t6,v
    .jmp (.ret 0),                    -- 10 <commit>  end of asm: return 0
    .jmp (.ret (-1))                  -- 11 <abort>  RSEQ_ASM_DEFINE_ABORT: jmp abort
  ]
  be := be
  csAddr := csa
  start := 1
  chk := 3
  commit := 10
  abort := 11
  ne := 12

/-- `riscv/bits.h:126-167` -/
def riscv_addStore (al : Opnd → Nat) (be : Bool) (csa : W n) : Prog n where
  code := [
    .cs t6,                           --  0  134 la t6,1b; sd t6,rseq_cs
    .ldCpuS t6,                       --  1 <start>  135 lw t6,field
    .bne t6 (al .cpu) (.at 7),        --  2  135 bne t6,cpu_id,4f
    .ld t6 (al .v),                   --  3 <chk>  140 ld t6,v
    .add t6 t6 (al .count),           --  4  141 add t6,t6,count
    .st t6 (al .v),                   --  5  142 sd t6,v
    .jmp (.ret 0),                    --  6 <commit>  end of asm: return 0
    .jmp (.ret (-1))                  --  7 <abort>  RSEQ_ASM_DEFINE_ABORT: jmp abort
  ]
  be := be
  csAddr := csa
  start := 1
  chk := 3
  commit := 6
  abort := 7
  ne := 8

/-- `riscv/bits.h:170-235` -/
def riscv_cbneCbneStore (al : Opnd → Nat) (be : Bool) (csa : W n) : Prog n where
  code := [
    .cs t6,                           --  0  183 la t6,1b; sd t6,rseq_cs
    .ldCpuS t6,                       --  1 <start>  184 lw t6,field
    .bne t6 (al .cpu) (.at 9),        --  2  184 bne t6,cpu_id,4f
    .ld t6 (al .v),                   --  3 <chk>  186 ld t6,v
    .bne t6 (al .expect) (.ret 1),    --  4  186 bne t6,expect,ne
    .ld t6 (al .v2),                  --  5  188 ld t6,v2
    .bne t6 (al .expect2) (.ret 1),   --  6  188 bne t6,expect2,ne
    .st (al .newv) (al .v),           --  7  195 sd newv,v
    .jmp (.ret 0),                    --  8 <commit>  end of asm: return 0
    .jmp (.ret (-1))                  --  9 <abort>  RSEQ_ASM_DEFINE_ABORT: jmp abort
  ]
  be := be
  csAddr := csa
  start := 1
  chk := 3
  commit := 8
  abort := 9
  ne := 10

/-- `riscv/bits.h:239-299` (relaxed variant) -/
def riscv_cbneStoreStore (al : Opnd → Nat) (be : Bool) (csa : W n) : Prog n where
  code := [
    .cs t6,                           --  0  251 la t6,1b; sd t6,rseq_cs
    .ldCpuS t6,                       --  1 <start>  252 lw t6,field
    .bne t6 (al .cpu) (.at 8),        --  2  252 bne t6,cpu_id,4f
    .ld t6 (al .v),                   --  3 <chk>  254 ld t6,v
    .bne t6 (al .expect) (.ret 1),    --  4  254 bne t6,expect,ne
    .st (al .newv2) (al .v2),         --  5  260 sd newv2,v2
    .st (al .newv) (al .v),           --  6  263/265 sd newv,v
    .jmp (.ret 0),                    --  7 <commit>  end of asm: return 0
    .jmp (.ret (-1))                  --  8 <abort>  RSEQ_ASM_DEFINE_ABORT: jmp abort
  ]
  be := be
  csAddr := csa
  start := 1
  chk := 3
  commit := 7
  abort := 8
  ne := 9

/-- `riscv/bits.h:239-299` (release variant) -/
def riscv_cbneStoreStore_rel (al : Opnd → Nat) (be : Bool) (csa : W n) : Prog n where
  code := [
    .cs t6,                           --  0  251 la t6,1b; sd t6,rseq_cs
    .ldCpuS t6,                       --  1 <start>  252 lw t6,field
    .bne t6 (al .cpu) (.at 9),        --  2  252 bne t6,cpu_id,4f
    .ld t6 (al .v),                   --  3 <chk>  254 ld t6,v
    .bne t6 (al .expect) (.ret 1),    --  4  254 bne t6,expect,ne
    .st (al .newv2) (al .v2),         --  5  260 sd newv2,v2
    .fence,                           --  6  263 fence rw,w
    .st (al .newv) (al .v),           --  7  263/265 sd newv,v
    .jmp (.ret 0),                    --  8 <commit>  end of asm: return 0
    .jmp (.ret (-1))                  --  9 <abort>  RSEQ_ASM_DEFINE_ABORT: jmp abort
  ]
  be := be
  csAddr := csa
  start := 1
  chk := 3
  commit := 8
  abort := 9
  ne := 10

/-- `riscv/bits.h:302-364, riscv.h:209-221` (relaxed variant) -/
def riscv_cbneMemcpyStore (al : Opnd → Nat) (be : Bool) (csa : W n) : Prog n where
  code := [
    .cs t6,                           --  0  313 la t6,1b; sd t6,rseq_cs
    .ldCpuS t6,                       --  1 <start>  314 lw t6,field
    .bne t6 (al .cpu) (.at 17),       --  2  314 bne t6,cpu_id,4f
    .ld t6 (al .v),                   --  3 <chk>  316 ld t6,v
    .bne t6 (al .expect) (.ret 1),    --  4  316 bne t6,expect,ne
    .cbz (al .len) (.at 15),          --  5  322 beqz len,333f
    .mov t6 (al .len),                --  6  322 mv t6,len
    .mov t5 (al .src),                --  7  322 mv t5,src
    .mov t4 (al .dst),                --  8  322 mv t4,dst
    .ldb t3 t5,                       --  9 <222>  322 lb t3,0(t5)
    .stb t3 t4,                       -- 10  322 sb t3,0(t4)
    .addi t6 t6 (-1),                 -- 11  322 addi t6,t6,-1
    .addi t5 t5 1,                    -- 12  322 addi t5,t5,1
    .addi t4 t4 1,                    -- 13  322 addi t4,t4,1
    .cbnz t6 (.at 9),                 -- 14  322 bnez t6,222b
    .st (al .newv) (al .v),           -- 15 <333>  325/327 sd newv,v
    .jmp (.ret 0),                    -- 16 <commit>  end of asm: return 0
    .jmp (.ret (-1))                  -- 17 <abort>  RSEQ_ASM_DEFINE_ABORT: jmp abort
  ]
  be := be
  csAddr := csa
  start := 1
  chk := 3
  commit := 16
  abort := 17
  ne := 18

/-- `riscv/bits.h:302-364, riscv.h:209-221` (release variant) -/
def riscv_cbneMemcpyStore_rel (al : Opnd → Nat) (be : Bool) (csa : W n) : Prog n where
  code := [
    .cs t6,                           --  0  313 la t6,1b; sd t6,rseq_cs
    .ldCpuS t6,                       --  1 <start>  314 lw t6,field
    .bne t6 (al .cpu) (.at 18),       --  2  314 bne t6,cpu_id,4f
    .ld t6 (al .v),                   --  3 <chk>  316 ld t6,v
    .bne t6 (al .expect) (.ret 1),    --  4  316 bne t6,expect,ne
    .cbz (al .len) (.at 15),          --  5  322 beqz len,333f
    .mov t6 (al .len),                --  6  322 mv t6,len
    .mov t5 (al .src),                --  7  322 mv t5,src
    .mov t4 (al .dst),                --  8  322 mv t4,dst
    .ldb t3 t5,                       --  9 <222>  322 lb t3,0(t5)
    .stb t3 t4,                       -- 10  322 sb t3,0(t4)
    .addi t6 t6 (-1),                 -- 11  322 addi t6,t6,-1
    .addi t5 t5 1,                    -- 12  322 addi t5,t5,1
    .addi t4 t4 1,                    -- 13  322 addi t4,t4,1
    .cbnz t6 (.at 9),                 -- 14  322 bnez t6,222b
    .fence,                           -- 15 <333>  325 fence rw,w
    .st (al .newv) (al .v),           -- 16  325/327 sd newv,v
    .jmp (.ret 0),                    -- 17 <commit>  end of asm: return 0
    .jmp (.ret (-1))                  -- 18 <abort>  RSEQ_ASM_DEFINE_ABORT: jmp abort
  ]
  be := be
  csAddr := csa
  start := 1
  chk := 3
  commit := 17
  abort := 18
  ne := 19

/-- `ppc/bits.h:21-82, ppc.h:131-225` -/
def ppc_cbneStore (al : Opnd → Nat) (be : Bool) (csa : W n) : Prog n where
  code := [
    .cs r17,                          --  0  33 lis..ori r17,3b; std r17,rseq_cs
    .ldCpuZ r17,                      --  1 <start>  35 lwz r17,field
    .cmp32 (al .cpu) r17,             --  2  35 cmpw cr7,cpu_id,r17
    .jne (.at 9),                     --  3  35 bne- cr7,4f
    .ld r17 (al .v),                  --  4 <chk>  38 ld r17,v
    .cmp r17 (al .expect),            --  5  38 cmpd cr7,r17,expect
    .jne (.ret 1),                    --  6  38 bne- cr7,ne
    .st (al .newv) (al .v),           --  7  47 std newv,v
    .jmp (.ret 0),                    --  8 <commit>  end of asm: return 0
    .jmp (.ret (-1))                  --  9 <abort>  RSEQ_ASM_DEFINE_ABORT: jmp abort
  ]
  be := be
  csAddr := csa
  start := 1
  chk := 4
  commit := 8
  abort := 9
  ne := 10

/-- `ppc/bits.h:85-155` -/
def ppc_cbeqStoreAddLoadStore (al : Opnd → Nat) (be : Bool) (csa : W n) : Prog n where
  code := [
    .cs r17,                          --  0  98 lis..ori r17,3b; std r17,rseq_cs
    .ldCpuZ r17,                      --  1 <start>  100 lwz r17,field
    .cmp32 (al .cpu) r17,             --  2  100 cmpw cr7,cpu_id,r17
    .jne (.at 12),                    --  3  100 bne- cr7,4f
    .ld r17 (al .v),                  --  4 <chk>  103 ld r17,v
    .cmp r17 (al .expectnot),         --  5  103 cmpd cr7,r17,expectnot
    .je (.ret 1),                     --  6  103 beq- cr7,eq
    .ld r17 (al .v),                  --  7  112 ld r17,v
    .st r17 (al .load),               --  8  114 std r17,load
    .ldx r17 (al .voffp) r17,         --  9  116 ldx r17,voffp,r17
    .st r17 (al .v),                  -- 10  118 std r17,v
    .jmp (.ret 0),                    -- 11 <commit>  end of asm: return 0
    .jmp (.ret (-1))                  -- 12 <abort>  RSEQ_ASM_DEFINE_ABORT: jmp abort
  ]
  be := be
  csAddr := csa
  start := 1
  chk := 4
  commit := 11
  abort := 12
  ne := 13

/-- `ppc/bits.h:158-210` -/
def ppc_addStore (al : Opnd → Nat) (be : Bool) (csa : W n) : Prog n where
  code := [
    .cs r17,                          --  0  168 lis..ori r17,3b; std r17,rseq_cs
    .ldCpuZ r17,                      --  1 <start>  170 lwz r17,field
    .cmp32 (al .cpu) r17,             --  2  170 cmpw cr7,cpu_id,r17
    .jne (.at 8),                     --  3  170 bne- cr7,4f
    .ld r17 (al .v),                  --  4 <chk>  177 ld r17,v
    .add r17 (al .count) r17,         --  5  179 add r17,count,r17
    .st r17 (al .v),                  --  6  181 std r17,v
    .jmp (.ret 0),                    --  7 <commit>  end of asm: return 0
    .jmp (.ret (-1))                  --  8 <abort>  RSEQ_ASM_DEFINE_ABORT: jmp abort
  ]
  be := be
  csAddr := csa
  start := 1
  chk := 4
  commit := 7
  abort := 8
  ne := 9

/-- `ppc/bits.h:213-294` -/
def ppc_cbneCbneStore (al : Opnd → Nat) (be : Bool) (csa : W n) : Prog n where
  code := [
    .cs r17,                          --  0  228 lis..ori r17,3b; std r17,rseq_cs
    .ldCpuZ r17,                      --  1 <start>  230 lwz r17,field
    .cmp32 (al .cpu) r17,             --  2  230 cmpw cr7,cpu_id,r17
    .jne (.at 12),                    --  3  230 bne- cr7,4f
    .ld r17 (al .v),                  --  4 <chk>  233 ld r17,v
    .cmp r17 (al .expect),            --  5  233 cmpd cr7,r17,expect
    .jne (.ret 1),                    --  6  233 bne- cr7,ne
    .ld r17 (al .v2),                 --  7  236 ld r17,v2
    .cmp r17 (al .expect2),           --  8  236 cmpd cr7,r17,expect2
    .jne (.ret 1),                    --  9  236 bne- cr7,ne
    .st (al .newv) (al .v),           -- 10  247 std newv,v
    .jmp (.ret 0),                    -- 11 <commit>  end of asm: return 0
    .jmp (.ret (-1))                  -- 12 <abort>  RSEQ_ASM_DEFINE_ABORT: jmp abort
  ]
  be := be
  csAddr := csa
  start := 1
  chk := 4
  commit := 11
  abort := 12
  ne := 13

/-- `ppc/bits.h:298-372` (relaxed variant) -/
def ppc_cbneStoreStore (al : Opnd → Nat) (be : Bool) (csa : W n) : Prog n where
  code := [
    .cs r17,                          --  0  312 lis..ori r17,3b; std r17,rseq_cs
    .ldCpuZ r17,                      --  1 <start>  314 lwz r17,field
    .cmp32 (al .cpu) r17,             --  2  314 cmpw cr7,cpu_id,r17
    .jne (.at 10),                    --  3  314 bne- cr7,4f
    .ld r17 (al .v),                  --  4 <chk>  317 ld r17,v
    .cmp r17 (al .expect),            --  5  317 cmpd cr7,r17,expect
    .jne (.ret 1),                    --  6  317 bne- cr7,ne
    .st (al .newv2) (al .v2),         --  7  326 std newv2,v2
    .st (al .newv) (al .v),           --  8  333 std newv,v
    .jmp (.ret 0),                    --  9 <commit>  end of asm: return 0
    .jmp (.ret (-1))                  -- 10 <abort>  RSEQ_ASM_DEFINE_ABORT: jmp abort
  ]
  be := be
  csAddr := csa
  start := 1
  chk := 4
  commit := 9
  abort := 10
  ne := 11

/-- `ppc/bits.h:298-372` (release variant) -/
def ppc_cbneStoreStore_rel (al : Opnd → Nat) (be : Bool) (csa : W n) : Prog n where
  code := [
    .cs r17,                          --  0  312 lis..ori r17,3b; std r17,rseq_cs
    .ldCpuZ r17,                      --  1 <start>  314 lwz r17,field
    .cmp32 (al .cpu) r17,             --  2  314 cmpw cr7,cpu_id,r17
    .jne (.at 11),                    --  3  314 bne- cr7,4f
    .ld r17 (al .v),                  --  4 <chk>  317 ld r17,v
    .cmp r17 (al .expect),            --  5  317 cmpd cr7,r17,expect
    .jne (.ret 1),                    --  6  317 bne- cr7,ne
    .st (al .newv2) (al .v2),         --  7  326 std newv2,v2
    .fence,                           --  8  330 lwsync
    .st (al .newv) (al .v),           --  9  333 std newv,v
    .jmp (.ret 0),                    -- 10 <commit>  end of asm: return 0
    .jmp (.ret (-1))                  -- 11 <abort>  RSEQ_ASM_DEFINE_ABORT: jmp abort
  ]
  be := be
  csAddr := csa
  start := 1
  chk := 4
  commit := 10
  abort := 11
  ne := 12

/-- `ppc/bits.h:375-455, ppc.h:198-209` (relaxed variant) -/
def ppc_cbneMemcpyStore (al : Opnd → Nat) (be : Bool) (csa : W n) : Prog n where
  code := [
    .mov r19 (al .len),               --  0  389 mr r19,len
    .mov r20 (al .src),               --  1  390 mr r20,src
    .mov r21 (al .dst),               --  2  391 mr r21,dst
    .cs r17,                          --  3  393 lis..ori r17,3b; std r17,rseq_cs
    .ldCpuZ r17,                      --  4 <start>  395 lwz r17,field
    .cmp32 (al .cpu) r17,             --  5  395 cmpw cr7,cpu_id,r17
    .jne (.at 21),                    --  6  395 bne- cr7,4f
    .ld r17 (al .v),                  --  7 <chk>  398 ld r17,v
    .cmp r17 (al .expect),            --  8  398 cmpd cr7,r17,expect
    .jne (.ret 1),                    --  9  398 bne- cr7,ne
    .tst r19,                         -- 10  407 cmpdi r19,0
    .je (.at 19),                     -- 11  407 beq 333f
    .addi r20 r20 (-1),               -- 12  407 addi r20,r20,-1
    .addi r21 r21 (-1),               -- 13  407 addi r21,r21,-1
    .lbzu r18 r20,                    -- 14 <222>  407 lbzu r18,1(r20)
    .stbu r18 r21,                    -- 15  407 stbu r18,1(r21)
    .addi r19 r19 (-1),               -- 16  407 addi r19,r19,-1
    .tst r19,                         -- 17  407 cmpdi r19,0
    .jne (.at 14),                    -- 18  407 bne 222b
    .st (al .newv) (al .v),           -- 19 <333>  414 std newv,v
    .jmp (.ret 0),                    -- 20 <commit>  end of asm: return 0
    .jmp (.ret (-1))                  -- 21 <abort>  RSEQ_ASM_DEFINE_ABORT: jmp abort
  ]
  be := be
  csAddr := csa
  start := 4
  chk := 7
  commit := 20
  abort := 21
  ne := 22

/-- `ppc/bits.h:375-455, ppc.h:198-209` (release variant) -/
def ppc_cbneMemcpyStore_rel (al : Opnd → Nat) (be : Bool) (csa : W n) : Prog n where
  code := [
    .mov r19 (al .len),               --  0  389 mr r19,len
    .mov r20 (al .src),               --  1  390 mr r20,src
    .mov r21 (al .dst),               --  2  391 mr r21,dst
    .cs r17,                          --  3  393 lis..ori r17,3b; std r17,rseq_cs
    .ldCpuZ r17,                      --  4 <start>  395 lwz r17,field
    .cmp32 (al .cpu) r17,             --  5  395 cmpw cr7,cpu_id,r17
    .jne (.at 22),                    --  6  395 bne- cr7,4f
    .ld r17 (al .v),                  --  7 <chk>  398 ld r17,v
    .cmp r17 (al .expect),            --  8  398 cmpd cr7,r17,expect
    .jne (.ret 1),                    --  9  398 bne- cr7,ne
    .tst r19,                         -- 10  407 cmpdi r19,0
    .je (.at 19),                     -- 11  407 beq 333f
    .addi r20 r20 (-1),               -- 12  407 addi r20,r20,-1
    .addi r21 r21 (-1),               -- 13  407 addi r21,r21,-1
    .lbzu r18 r20,                    -- 14 <222>  407 lbzu r18,1(r20)
    .stbu r18 r21,                    -- 15  407 stbu r18,1(r21)
    .addi r19 r19 (-1),               -- 16  407 addi r19,r19,-1
    .tst r19,                         -- 17  407 cmpdi r19,0
    .jne (.at 14),                    -- 18  407 bne 222b
    .fence,                           -- 19 <333>  411 lwsync
    .st (al .newv) (al .v),           -- 20  414 std newv,v
    .jmp (.ret 0),                    -- 21 <commit>  end of asm: return 0
    .jmp (.ret (-1))                  -- 22 <abort>  RSEQ_ASM_DEFINE_ABORT: jmp abort
  ]
  be := be
  csAddr := csa
  start := 4
  chk := 7
  commit := 21
  abort := 22
  ne := 23

/-- `s390/bits.h:16-76, s390.h:140-150` -/
def s390_cbneStore (al : Opnd → Nat) (be : Bool) (csa : W n) : Prog n where
  code := [
    .cs g0,                           --  0  28 larl r0,3b; stg r0,rseq_cs
    .cmpCpu (al .cpu),                --  1 <start>  29 c cpu_id,field
    .jne (.at 7),                     --  2  29 jnz 4f
    .cmpM (al .v) (al .expect),       --  3 <chk>  31 cg expect,v
    .jne (.ret 1),                    --  4  32 jnz ne
    .st (al .newv) (al .v),           --  5  40 stg newv,v
    .jmp (.ret 0),                    --  6 <commit>  end of asm: return 0
    .jmp (.ret (-1))                  --  7 <abort>  RSEQ_ASM_DEFINE_ABORT: jmp abort
  ]
  be := be
  csAddr := csa
  start := 1
  chk := 3
  commit := 6
  abort := 7
  ne := 8

/-- `s390/bits.h:79-147` -/
def s390_cbeqStoreAddLoadStore (al : Opnd → Nat) (be : Bool) (csa : W n) : Prog n where
  code := [
    .cs g0,                           --  0  92 larl r0,3b; stg r0,rseq_cs
    .cmpCpu (al .cpu),                --  1 <start>  93 c cpu_id,field
    .jne (.at 11),                    --  2  93 jnz 4f
    .ld g1 (al .v),                   --  3 <chk>  95 lg r1,v
    .cmp g1 (al .expectnot),          --  4  96 cgr r1,expectnot
    .je (.ret 1),                     --  5  97 je eq
    .st g1 (al .load),                --  6  105 stg r1,load
    .addf2 g1 (al .voffp),            --  7  106 agr r1,voffp
    .ld g1 g1,                        --  8  107 lg r1,0(r1)
    .st g1 (al .v),                   --  9  109 stg r1,v
    .jmp (.ret 0),                    -- 10 <commit>  end of asm: return 0
    .jmp (.ret (-1))                  -- 11 <abort>  RSEQ_ASM_DEFINE_ABORT: jmp abort
  ]
  be := be
  csAddr := csa
  start := 1
  chk := 3
  commit := 10
  abort := 11
  ne := 12

/-- `s390/bits.h:150-199` -/
def s390_addStore (al : Opnd → Nat) (be : Bool) (csa : W n) : Prog n where
  code := [
    .cs g0,                           --  0  160 larl r0,3b; stg r0,rseq_cs
    .cmpCpu (al .cpu),                --  1 <start>  161 c cpu_id,field
    .jne (.at 7),                     --  2  161 jnz 4f
    .ld g0 (al .v),                   --  3 <chk>  166 lg r0,v
    .addf2 g0 (al .count),            --  4  167 agr r0,count
    .st g0 (al .v),                   --  5  169 stg r0,v
    .jmp (.ret 0),                    --  6 <commit>  end of asm: return 0
    .jmp (.ret (-1))                  --  7 <abort>  RSEQ_ASM_DEFINE_ABORT: jmp abort
  ]
  be := be
  csAddr := csa
  start := 1
  chk := 3
  commit := 6
  abort := 7
  ne := 8

/-- `s390/bits.h:202-283` -/
def s390_cbneCbneStore (al : Opnd → Nat) (be : Bool) (csa : W n) : Prog n where
  code := [
    .cs g0,                           --  0  217 larl r0,3b; stg r0,rseq_cs
    .cmpCpu (al .cpu),                --  1 <start>  218 c cpu_id,field
    .jne (.at 9),                     --  2  218 jnz 4f
    .cmpM (al .v) (al .expect),       --  3 <chk>  220 cg expect,v
    .jne (.ret 1),                    --  4  221 jnz ne
    .cmpM (al .v2) (al .expect2),     --  5  223 cg expect2,v2
    .jne (.ret 1),                    --  6  224 jnz ne
    .st (al .newv) (al .v),           --  7  234 stg newv,v
    .jmp (.ret 0),                    --  8 <commit>  end of asm: return 0
    .jmp (.ret (-1))                  --  9 <abort>  RSEQ_ASM_DEFINE_ABORT: jmp abort
  ]
  be := be
  csAddr := csa
  start := 1
  chk := 3
  commit := 8
  abort := 9
  ne := 10

/-- `s390/bits.h:287-357 (same code for relaxed and release)` -/
def s390_cbneStoreStore (al : Opnd → Nat) (be : Bool) (csa : W n) : Prog n where
  code := [
    .cs g0,                           --  0  301 larl r0,3b; stg r0,rseq_cs
    .cmpCpu (al .cpu),                --  1 <start>  302 c cpu_id,field
    .jne (.at 8),                     --  2  302 jnz 4f
    .cmpM (al .v) (al .expect),       --  3 <chk>  304 cg expect,v
    .jne (.ret 1),                    --  4  305 jnz ne
    .st (al .newv2) (al .v2),         --  5  313 stg newv2,v2
    .st (al .newv) (al .v),           --  6  316 stg newv,v
    .jmp (.ret 0),                    --  7 <commit>  end of asm: return 0
    .jmp (.ret (-1))                  --  8 <abort>  RSEQ_ASM_DEFINE_ABORT: jmp abort
  ]
  be := be
  csAddr := csa
  start := 1
  chk := 3
  commit := 7
  abort := 8
  ne := 9

/-- `s390/bits.h:360-478 (same code for relaxed and release)` -/
def s390_cbneMemcpyStore (al : Opnd → Nat) (be : Bool) (csa : W n) : Prog n where
  code := [
    .stS (al .src) 100,               --  0  375 stg src -> scratch0
    .stS (al .dst) 101,               --  1  376 stg dst -> scratch1
    .stS (al .len) 102,               --  2  377 stg len -> scratch2
    .cs g0,                           --  3  379 larl r0,3b; stg r0,rseq_cs
    .cmpCpu (al .cpu),                --  4 <start>  380 c cpu_id,field
    .jne (.at 21),                    --  5  380 jnz 4f
    .cmpM (al .v) (al .expect),       --  6 <chk>  382 cg expect,v
    .jne (.at 25),                    --  7  383 jnz 5f
    .tst (al .len),                   --  8  391 ltgr len,len
    .je (.at 16),                     --  9  392 jz 333f
    .ldb g0 (al .src),                -- 10 <222>  394 ic r0,0(src)
    .stb g0 (al .dst),                -- 11  395 stc r0,0(dst)
    .addf (al .src) (al .src) 1,      -- 12  396 aghi src,1
    .addf (al .dst) (al .dst) 1,      -- 13  397 aghi dst,1
    .addf (al .len) (al .len) (-1),   -- 14  398 aghi len,-1
    .jne (.at 10),                    -- 15  399 jnz 222b
    .st (al .newv) (al .v),           -- 16 <333>  403 stg newv,v
    .ldS (al .len) 102,               -- 17 <commit>  407 lg scratch2 -> len
    .ldS (al .dst) 101,               -- 18  408 lg scratch1 -> dst
    .ldS (al .src) 100,               -- 19  409 lg scratch0 -> src
    .jmp (.ret 0),                    -- 20  end of asm: return 0
    .ldS (al .len) 102,               -- 21 <abort>  411 lg scratch2 -> len
    .ldS (al .dst) 101,               -- 22  412 lg scratch1 -> dst
    .ldS (al .src) 100,               -- 23  413 lg scratch0 -> src
    .jmp (.ret (-1)),                 -- 24  414 jg abort
    .ldS (al .len) 102,               -- 25 <ne>  416 lg scratch2 -> len
    .ldS (al .dst) 101,               -- 26  417 lg scratch1 -> dst
    .ldS (al .src) 100,               -- 27  418 lg scratch0 -> src
    .jmp (.ret 1)                     -- 28  419 jg ne
  ]
  be := be
  csAddr := csa
  start := 4
  chk := 6
  commit := 17
  abort := 21
  ne := 25

/-- `mips/bits.h:21-78, mips.h:190-200` -/
def mips_cbneStore (al : Opnd → Nat) (be : Bool) (csa : W n) : Prog n where
  code := [
    .cs m4,                           --  0  33 la m4,3f; sd m4,rseq_cs
    .ldCpuS m4,                       --  1 <start>  34 lw m4,field
    .bne m4 (al .cpu) (.at 7),        --  2  34 bne m4,cpu_id,4f
    .ld m4 (al .v),                   --  3 <chk>  36 ld m4,v
    .bne m4 (al .expect) (.ret 1),    --  4  37 bne m4,expect,ne
    .st (al .newv) (al .v),           --  5  45 sd newv,v
    .jmp (.ret 0),                    --  6 <commit>  48 b 5f: return 0
    .jmp (.ret (-1))                  --  7 <abort>  RSEQ_ASM_DEFINE_ABORT: jmp abort
  ]
  be := be
  csAddr := csa
  start := 1
  chk := 3
  commit := 6
  abort := 7
  ne := 8

/-- `mips/bits.h:81-144` -/
def mips_cbeqStoreAddLoadStore (al : Opnd → Nat) (be : Bool) (csa : W n) : Prog n where
  code := [
    .cs m4,                           --  0  94 la m4,3f; sd m4,rseq_cs
    .ldCpuS m4,                       --  1 <start>  95 lw m4,field
    .bne m4 (al .cpu) (.at 10),       --  2  95 bne m4,cpu_id,4f
    .ld m4 (al .v),                   --  3 <chk>  97 ld m4,v
    .beq m4 (al .expectnot) (.ret 1), --  4  98 beq m4,expectnot,eq
    .st m4 (al .load),                --  5  105 sd m4,load
    .add m4 m4 (al .voffp),           --  6  106 daddiu m4,voffp
    .ld m4 m4,                        --  7  107 ld m4,0(m4)
    .st m4 (al .v),                   --  8  109 sd m4,v
    .jmp (.ret 0),                    --  9 <commit>  112 b 5f: return 0
    .jmp (.ret (-1))                  -- 10 <abort>  RSEQ_ASM_DEFINE_ABORT: jmp abort
  ]
  be := be
  csAddr := csa
  start := 1
  chk := 3
  commit := 9
  abort := 10
  ne := 11

/-- `mips/bits.h:147-194` -/
def mips_addStore (al : Opnd → Nat) (be : Bool) (csa : W n) : Prog n where
  code := [
    .cs m4,                           --  0  157 la m4,3f; sd m4,rseq_cs
    .ldCpuS m4,                       --  1 <start>  158 lw m4,field
    .bne m4 (al .cpu) (.at 7),        --  2  158 bne m4,cpu_id,4f
    .ld m4 (al .v),                   --  3 <chk>  163 ld m4,v
    .add m4 m4 (al .count),           --  4  164 daddiu m4,count
    .st m4 (al .v),                   --  5  166 sd m4,v
    .jmp (.ret 0),                    --  6 <commit>  169 b 5f: return 0
    .jmp (.ret (-1))                  --  7 <abort>  RSEQ_ASM_DEFINE_ABORT: jmp abort
  ]
  be := be
  csAddr := csa
  start := 1
  chk := 3
  commit := 6
  abort := 7
  ne := 8

/-- `mips/bits.h:197-273` -/
def mips_cbneCbneStore (al : Opnd → Nat) (be : Bool) (csa : W n) : Prog n where
  code := [
    .cs m4,                           --  0  212 la m4,3f; sd m4,rseq_cs
    .ldCpuS m4,                       --  1 <start>  213 lw m4,field
    .bne m4 (al .cpu) (.at 9),        --  2  213 bne m4,cpu_id,4f
    .ld m4 (al .v),                   --  3 <chk>  215 ld m4,v
    .bne m4 (al .expect) (.ret 1),    --  4  216 bne m4,expect,ne
    .ld m4 (al .v2),                  --  5  218 ld m4,v2
    .bne m4 (al .expect2) (.ret 1),   --  6  219 bne m4,expect2,ne
    .st (al .newv) (al .v),           --  7  229 sd newv,v
    .jmp (.ret 0),                    --  8 <commit>  232 b 5f: return 0
    .jmp (.ret (-1))                  --  9 <abort>  RSEQ_ASM_DEFINE_ABORT: jmp abort
  ]
  be := be
  csAddr := csa
  start := 1
  chk := 3
  commit := 8
  abort := 9
  ne := 10

/-- `mips/bits.h:277-346` (relaxed variant) -/
def mips_cbneStoreStore (al : Opnd → Nat) (be : Bool) (csa : W n) : Prog n where
  code := [
    .cs m4,                           --  0  291 la m4,3f; sd m4,rseq_cs
    .ldCpuS m4,                       --  1 <start>  292 lw m4,field
    .bne m4 (al .cpu) (.at 8),        --  2  292 bne m4,cpu_id,4f
    .ld m4 (al .v),                   --  3 <chk>  294 ld m4,v
    .bne m4 (al .expect) (.ret 1),    --  4  295 bne m4,expect,ne
    .st (al .newv2) (al .v2),         --  5  303 sd newv2,v2
    .st (al .newv) (al .v),           --  6  309 sd newv,v
    .jmp (.ret 0),                    --  7 <commit>  312 b 5f: return 0
    .jmp (.ret (-1))                  --  8 <abort>  RSEQ_ASM_DEFINE_ABORT: jmp abort
  ]
  be := be
  csAddr := csa
  start := 1
  chk := 3
  commit := 7
  abort := 8
  ne := 9

/-- `mips/bits.h:277-346` (release variant) -/
def mips_cbneStoreStore_rel (al : Opnd → Nat) (be : Bool) (csa : W n) : Prog n where
  code := [
    .cs m4,                           --  0  291 la m4,3f; sd m4,rseq_cs
    .ldCpuS m4,                       --  1 <start>  292 lw m4,field
    .bne m4 (al .cpu) (.at 9),        --  2  292 bne m4,cpu_id,4f
    .ld m4 (al .v),                   --  3 <chk>  294 ld m4,v
    .bne m4 (al .expect) (.ret 1),    --  4  295 bne m4,expect,ne
    .st (al .newv2) (al .v2),         --  5  303 sd newv2,v2
    .fence,                           --  6  306 sync
    .st (al .newv) (al .v),           --  7  309 sd newv,v
    .jmp (.ret 0),                    --  8 <commit>  312 b 5f: return 0
    .jmp (.ret (-1))                  --  9 <abort>  RSEQ_ASM_DEFINE_ABORT: jmp abort
  ]
  be := be
  csAddr := csa
  start := 1
  chk := 3
  commit := 8
  abort := 9
  ne := 10

/-- `mips/bits.h:349-470` (relaxed variant) -/
def mips_cbneMemcpyStore (al : Opnd → Nat) (be : Bool) (csa : W n) : Prog n where
  code := [
    .stS (al .src) 100,               --  0  364 sd src -> scratch0
    .stS (al .dst) 101,               --  1  365 sd dst -> scratch1
    .stS (al .len) 102,               --  2  366 sd len -> scratch2
    .cs m4,                           --  3  368 la m4,3f; sd m4,rseq_cs
    .ldCpuS m4,                       --  4 <start>  369 lw m4,field
    .bne m4 (al .cpu) (.at 20),       --  5  369 bne m4,cpu_id,4f
    .ld m4 (al .v),                   --  6 <chk>  371 ld m4,v
    .bne m4 (al .expect) (.at 24),    --  7  372 bne m4,expect,ne
    .cbz (al .len) (.at 15),          --  8  380 beqz len,333f
    .ldb m4 (al .src),                --  9 <222>  382 lb m4,0(src)
    .stb m4 (al .dst),                -- 10  383 sb m4,0(dst)
    .addi (al .src) (al .src) 1,      -- 11  384 daddiu src,1
    .addi (al .dst) (al .dst) 1,      -- 12  385 daddiu dst,1
    .addi (al .len) (al .len) (-1),   -- 13  386 daddiu len,-1
    .cbnz (al .len) (.at 9),          -- 14  387 bnez len,222b
    .st (al .newv) (al .v),           -- 15 <333>  394 sd newv,v
    .ldS (al .len) 102,               -- 16 <commit>  398 ld scratch2 -> len
    .ldS (al .dst) 101,               -- 17  399 ld scratch1 -> dst
    .ldS (al .src) 100,               -- 18  400 ld scratch0 -> src
    .jmp (.ret 0),                    -- 19  401 b 8f: return 0
    .ldS (al .len) 102,               -- 20 <abort>  404 ld scratch2 -> len
    .ldS (al .dst) 101,               -- 21  405 ld scratch1 -> dst
    .ldS (al .src) 100,               -- 22  406 ld scratch0 -> src
    .jmp (.ret (-1)),                 -- 23  b abort
    .ldS (al .len) 102,               -- 24 <ne>  410 ld scratch2 -> len
    .ldS (al .dst) 101,               -- 25  411 ld scratch1 -> dst
    .ldS (al .src) 100,               -- 26  412 ld scratch0 -> src
    .jmp (.ret 1)                     -- 27  b ne
  ]
  be := be
  csAddr := csa
  start := 4
  chk := 6
  commit := 16
  abort := 20
  ne := 24

/-- `mips/bits.h:349-470` (release variant) -/
def mips_cbneMemcpyStore_rel (al : Opnd → Nat) (be : Bool) (csa : W n) : Prog n where
  code := [
    .stS (al .src) 100,               --  0  364 sd src -> scratch0
    .stS (al .dst) 101,               --  1  365 sd dst -> scratch1
    .stS (al .len) 102,               --  2  366 sd len -> scratch2
    .cs m4,                           --  3  368 la m4,3f; sd m4,rseq_cs
    .ldCpuS m4,                       --  4 <start>  369 lw m4,field
    .bne m4 (al .cpu) (.at 21),       --  5  369 bne m4,cpu_id,4f
    .ld m4 (al .v),                   --  6 <chk>  371 ld m4,v
    .bne m4 (al .expect) (.at 25),    --  7  372 bne m4,expect,ne
    .cbz (al .len) (.at 15),          --  8  380 beqz len,333f
    .ldb m4 (al .src),                --  9 <222>  382 lb m4,0(src)
    .stb m4 (al .dst),                -- 10  383 sb m4,0(dst)
    .addi (al .src) (al .src) 1,      -- 11  384 daddiu src,1
    .addi (al .dst) (al .dst) 1,      -- 12  385 daddiu dst,1
    .addi (al .len) (al .len) (-1),   -- 13  386 daddiu len,-1
    .cbnz (al .len) (.at 9),          -- 14  387 bnez len,222b
    .fence,                           -- 15 <333>  391 sync
    .st (al .newv) (al .v),           -- 16  394 sd newv,v
    .ldS (al .len) 102,               -- 17 <commit>  398 ld scratch2 -> len
    .ldS (al .dst) 101,               -- 18  399 ld scratch1 -> dst
    .ldS (al .src) 100,               -- 19  400 ld scratch0 -> src
    .jmp (.ret 0),                    -- 20  401 b 8f: return 0
    .ldS (al .len) 102,               -- 21 <abort>  404 ld scratch2 -> len
    .ldS (al .dst) 101,               -- 22  405 ld scratch1 -> dst
    .ldS (al .src) 100,               -- 23  406 ld scratch0 -> src
    .jmp (.ret (-1)),                 -- 24  b abort
    .ldS (al .len) 102,               -- 25 <ne>  410 ld scratch2 -> len
    .ldS (al .dst) 101,               -- 26  411 ld scratch1 -> dst
    .ldS (al .src) 100,               -- 27  412 ld scratch0 -> src
    .jmp (.ret 1)                     -- 28  b ne
  ]
  be := be
  csAddr := csa
  start := 4
  chk := 6
  commit := 17
  abort := 21
  ne := 25

/-- `loongarch/bits.h:25-87, loongarch.h:149-159` -/
def loongarch_cbneStore (al : Opnd → Nat) (be : Bool) (csa : W n) : Prog n where
  code := [
    .cs m4,                           --  0  37 la m4,3f; st.d m4,rseq_cs
    .ldCpuS m4,                       --  1 <start>  38 ld.w m4,field
    .bne m4 (al .cpu) (.at 7),        --  2  38 bne m4,cpu_id,4f
    .ld m4 (al .v),                   --  3 <chk>  40 ld.d m4,v
    .bne m4 (al .expect) (.ret 1),    --  4  41 bne m4,expect,ne
    .st (al .newv) (al .v),           --  5  49 st.d newv,v
    .jmp (.ret 0),                    --  6 <commit>  52 b 5f: return 0
    .jmp (.ret (-1))                  --  7 <abort>  RSEQ_ASM_DEFINE_ABORT: jmp abort
  ]
  be := be
  csAddr := csa
  start := 1
  chk := 3
  commit := 6
  abort := 7
  ne := 8

/-- `loongarch/bits.h:90-158` -/
def loongarch_cbeqStoreAddLoadStore (al : Opnd → Nat) (be : Bool) (csa : W n) : Prog n where
  code := [
    .cs m4,                           --  0  103 la m4,3f; st.d m4,rseq_cs
    .ldCpuS m4,                       --  1 <start>  104 ld.w m4,field
    .bne m4 (al .cpu) (.at 10),       --  2  104 bne m4,cpu_id,4f
    .ld m4 (al .v),                   --  3 <chk>  106 ld.d m4,v
    .beq m4 (al .expectnot) (.ret 1), --  4  107 beq m4,expectnot,eq
    .st m4 (al .load),                --  5  114 st.d m4,load
    .add m4 m4 (al .voffp),           --  6  115 addi.d m4,voffp
    .ld m4 m4,                        --  7  116 ld.d m4,0(m4)
    .st m4 (al .v),                   --  8  118 st.d m4,v
    .jmp (.ret 0),                    --  9 <commit>  121 b 5f: return 0
    .jmp (.ret (-1))                  -- 10 <abort>  RSEQ_ASM_DEFINE_ABORT: jmp abort
  ]
  be := be
  csAddr := csa
  start := 1
  chk := 3
  commit := 9
  abort := 10
  ne := 11

/-- `loongarch/bits.h:161-211` -/
def loongarch_addStore (al : Opnd → Nat) (be : Bool) (csa : W n) : Prog n where
  code := [
    .cs m4,                           --  0  171 la m4,3f; st.d m4,rseq_cs
    .ldCpuS m4,                       --  1 <start>  172 ld.w m4,field
    .bne m4 (al .cpu) (.at 7),        --  2  172 bne m4,cpu_id,4f
    .ld m4 (al .v),                   --  3 <chk>  177 ld.d m4,v
    .add m4 m4 (al .count),           --  4  178 addi.d m4,count
    .st m4 (al .v),                   --  5  180 st.d m4,v
    .jmp (.ret 0),                    --  6 <commit>  183 b 5f: return 0
    .jmp (.ret (-1))                  --  7 <abort>  RSEQ_ASM_DEFINE_ABORT: jmp abort
  ]
  be := be
  csAddr := csa
  start := 1
  chk := 3
  commit := 6
  abort := 7
  ne := 8

/-- `loongarch/bits.h:214-296` -/
def loongarch_cbneCbneStore (al : Opnd → Nat) (be : Bool) (csa : W n) : Prog n where
  code := [
    .cs m4,                           --  0  229 la m4,3f; st.d m4,rseq_cs
    .ldCpuS m4,                       --  1 <start>  230 ld.w m4,field
    .bne m4 (al .cpu) (.at 9),        --  2  230 bne m4,cpu_id,4f
    .ld m4 (al .v),                   --  3 <chk>  232 ld.d m4,v
    .bne m4 (al .expect) (.ret 1),    --  4  233 bne m4,expect,ne
    .ld m4 (al .v2),                  --  5  235 ld.d m4,v2
    .bne m4 (al .expect2) (.ret 1),   --  6  236 bne m4,expect2,ne
    .st (al .newv) (al .v),           --  7  246 st.d newv,v
    .jmp (.ret 0),                    --  8 <commit>  249 b 5f: return 0
    .jmp (.ret (-1))                  --  9 <abort>  RSEQ_ASM_DEFINE_ABORT: jmp abort
  ]
  be := be
  csAddr := csa
  start := 1
  chk := 3
  commit := 8
  abort := 9
  ne := 10

/-- `loongarch/bits.h:300-374` (relaxed variant) -/
def loongarch_cbneStoreStore (al : Opnd → Nat) (be : Bool) (csa : W n) : Prog n where
  code := [
    .cs m4,                           --  0  314 la m4,3f; st.d m4,rseq_cs
    .ldCpuS m4,                       --  1 <start>  315 ld.w m4,field
    .bne m4 (al .cpu) (.at 8),        --  2  315 bne m4,cpu_id,4f
    .ld m4 (al .v),                   --  3 <chk>  317 ld.d m4,v
    .bne m4 (al .expect) (.ret 1),    --  4  318 bne m4,expect,ne
    .st (al .newv2) (al .v2),         --  5  326 st.d newv2,v2
    .st (al .newv) (al .v),           --  6  332 st.d newv,v
    .jmp (.ret 0),                    --  7 <commit>  335 b 5f: return 0
    .jmp (.ret (-1))                  --  8 <abort>  RSEQ_ASM_DEFINE_ABORT: jmp abort
  ]
  be := be
  csAddr := csa
  start := 1
  chk := 3
  commit := 7
  abort := 8
  ne := 9

/-- `loongarch/bits.h:300-374` (release variant) -/
def loongarch_cbneStoreStore_rel (al : Opnd → Nat) (be : Bool) (csa : W n) : Prog n where
  code := [
    .cs m4,                           --  0  314 la m4,3f; st.d m4,rseq_cs
    .ldCpuS m4,                       --  1 <start>  315 ld.w m4,field
    .bne m4 (al .cpu) (.at 9),        --  2  315 bne m4,cpu_id,4f
    .ld m4 (al .v),                   --  3 <chk>  317 ld.d m4,v
    .bne m4 (al .expect) (.ret 1),    --  4  318 bne m4,expect,ne
    .st (al .newv2) (al .v2),         --  5  326 st.d newv2,v2
    .fence,                           --  6  329 dbar 0x12
    .st (al .newv) (al .v),           --  7  332 st.d newv,v
    .jmp (.ret 0),                    --  8 <commit>  335 b 5f: return 0
    .jmp (.ret (-1))                  --  9 <abort>  RSEQ_ASM_DEFINE_ABORT: jmp abort
  ]
  be := be
  csAddr := csa
  start := 1
  chk := 3
  commit := 8
  abort := 9
  ne := 10

/-- `loongarch/bits.h:377-503` (relaxed variant) -/
def loongarch_cbneMemcpyStore (al : Opnd → Nat) (be : Bool) (csa : W n) : Prog n where
  code := [
    .stS (al .src) 100,               --  0  392 st.d src -> scratch0
    .stS (al .dst) 101,               --  1  393 st.d dst -> scratch1
    .stS (al .len) 102,               --  2  394 st.d len -> scratch2
    .cs m4,                           --  3  396 la m4,3f; st.d m4,rseq_cs
    .ldCpuS m4,                       --  4 <start>  397 ld.w m4,field
    .bne m4 (al .cpu) (.at 20),       --  5  397 bne m4,cpu_id,4f
    .ld m4 (al .v),                   --  6 <chk>  399 ld.d m4,v
    .bne m4 (al .expect) (.at 24),    --  7  400 bne m4,expect,ne
    .cbz (al .len) (.at 15),          --  8  408 beqz len,333f
    .ldb m4 (al .src),                --  9 <222>  410 ld.b m4,0(src)
    .stb m4 (al .dst),                -- 10  411 st.b m4,0(dst)
    .addi (al .src) (al .src) 1,      -- 11  412 addi.d src,1
    .addi (al .dst) (al .dst) 1,      -- 12  413 addi.d dst,1
    .addi (al .len) (al .len) (-1),   -- 13  414 addi.d len,-1
    .cbnz (al .len) (.at 9),          -- 14  415 bnez len,222b
    .st (al .newv) (al .v),           -- 15 <333>  422 st.d newv,v
    .ldS (al .len) 102,               -- 16 <commit>  426 ld.d scratch2 -> len
    .ldS (al .dst) 101,               -- 17  427 ld.d scratch1 -> dst
    .ldS (al .src) 100,               -- 18  428 ld.d scratch0 -> src
    .jmp (.ret 0),                    -- 19  429 b 8f: return 0
    .ldS (al .len) 102,               -- 20 <abort>  432 ld.d scratch2 -> len
    .ldS (al .dst) 101,               -- 21  433 ld.d scratch1 -> dst
    .ldS (al .src) 100,               -- 22  434 ld.d scratch0 -> src
    .jmp (.ret (-1)),                 -- 23  b abort
    .ldS (al .len) 102,               -- 24 <ne>  438 ld.d scratch2 -> len
    .ldS (al .dst) 101,               -- 25  439 ld.d scratch1 -> dst
    .ldS (al .src) 100,               -- 26  440 ld.d scratch0 -> src
    .jmp (.ret 1)                     -- 27  b ne
  ]
  be := be
  csAddr := csa
  start := 4
  chk := 6
  commit := 16
  abort := 20
  ne := 24

/-- `loongarch/bits.h:377-503` (release variant) -/
def loongarch_cbneMemcpyStore_rel (al : Opnd → Nat) (be : Bool) (csa : W n) : Prog n where
  code := [
    .stS (al .src) 100,               --  0  392 st.d src -> scratch0
    .stS (al .dst) 101,               --  1  393 st.d dst -> scratch1
    .stS (al .len) 102,               --  2  394 st.d len -> scratch2
    .cs m4,                           --  3  396 la m4,3f; st.d m4,rseq_cs
    .ldCpuS m4,                       --  4 <start>  397 ld.w m4,field
    .bne m4 (al .cpu) (.at 21),       --  5  397 bne m4,cpu_id,4f
    .ld m4 (al .v),                   --  6 <chk>  399 ld.d m4,v
    .bne m4 (al .expect) (.at 25),    --  7  400 bne m4,expect,ne
    .cbz (al .len) (.at 15),          --  8  408 beqz len,333f
    .ldb m4 (al .src),                --  9 <222>  410 ld.b m4,0(src)
    .stb m4 (al .dst),                -- 10  411 st.b m4,0(dst)
    .addi (al .src) (al .src) 1,      -- 11  412 addi.d src,1
    .addi (al .dst) (al .dst) 1,      -- 12  413 addi.d dst,1
    .addi (al .len) (al .len) (-1),   -- 13  414 addi.d len,-1
    .cbnz (al .len) (.at 9),          -- 14  415 bnez len,222b
    .fence,                           -- 15 <333>  419 dbar 0x12
    .st (al .newv) (al .v),           -- 16  422 st.d newv,v
    .ldS (al .len) 102,               -- 17 <commit>  426 ld.d scratch2 -> len
    .ldS (al .dst) 101,               -- 18  427 ld.d scratch1 -> dst
    .ldS (al .src) 100,               -- 19  428 ld.d scratch0 -> src
    .jmp (.ret 0),                    -- 20  429 b 8f: return 0
    .ldS (al .len) 102,               -- 21 <abort>  432 ld.d scratch2 -> len
    .ldS (al .dst) 101,               -- 22  433 ld.d scratch1 -> dst
    .ldS (al .src) 100,               -- 23  434 ld.d scratch0 -> src
    .jmp (.ret (-1)),                 -- 24  b abort
    .ldS (al .len) 102,               -- 25 <ne>  438 ld.d scratch2 -> len
    .ldS (al .dst) 101,               -- 26  439 ld.d scratch1 -> dst
    .ldS (al .src) 100,               -- 27  440 ld.d scratch0 -> src
    .jmp (.ret 1)                     -- 28  b ne
  ]
  be := be
  csAddr := csa
  start := 4
  chk := 6
  commit := 17
  abort := 21
  ne := 25

/-- `arm/bits.h:20-84, arm.h:125-190` -/
def arm_cbneStore (al : Opnd → Nat) (be : Bool) (csa : W n) : Prog n where
  code := [
    .cs a0,                           --  0  32 adr r0,3f; str r0,rseq_cs
    .ldCpuZ a0,                       --  1 <start>  33 ldr r0,field
    .cmp32 (al .cpu) a0,              --  2  33 cmp cpu_id,r0
    .jne (.at 9),                     --  3  33 bne 4f
    .ld a0 (al .v),                   --  4 <chk>  35 ldr r0,v
    .cmp (al .expect) a0,             --  5  36 cmp expect,r0
    .jne (.ret 1),                    --  6  37 bne ne
    .st (al .newv) (al .v),           --  7  46 str newv,v
    .jmp (.ret 0),                    --  8 <commit>  49 b 5f: return 0
    .jmp (.ret (-1))                  --  9 <abort>  RSEQ_ASM_DEFINE_ABORT: jmp abort
  ]
  be := be
  csAddr := csa
  start := 1
  chk := 4
  commit := 8
  abort := 9
  ne := 10

/-- `arm/bits.h:87-157` -/
def arm_cbeqStoreAddLoadStore (al : Opnd → Nat) (be : Bool) (csa : W n) : Prog n where
  code := [
    .cs a0,                           --  0  100 adr r0,3f; str r0,rseq_cs
    .ldCpuZ a0,                       --  1 <start>  101 ldr r0,field
    .cmp32 (al .cpu) a0,              --  2  101 cmp cpu_id,r0
    .jne (.at 12),                    --  3  101 bne 4f
    .ld a0 (al .v),                   --  4 <chk>  103 ldr r0,v
    .cmp (al .expectnot) a0,          --  5  104 cmp expectnot,r0
    .je (.ret 1),                     --  6  105 beq eq
    .st a0 (al .load),                --  7  113 str r0,load
    .add a0 a0 (al .voffp),           --  8  114 add r0,voffp
    .ld a0 a0,                        --  9  115 ldr r0,[r0]
    .st a0 (al .v),                   -- 10  117 str r0,v
    .jmp (.ret 0),                    -- 11 <commit>  120 b 5f: return 0
    .jmp (.ret (-1))                  -- 12 <abort>  RSEQ_ASM_DEFINE_ABORT: jmp abort
  ]
  be := be
  csAddr := csa
  start := 1
  chk := 4
  commit := 11
  abort := 12
  ne := 13

/-- `arm/bits.h:160-210` -/
def arm_addStore (al : Opnd → Nat) (be : Bool) (csa : W n) : Prog n where
  code := [
    .cs a0,                           --  0  170 adr r0,3f; str r0,rseq_cs
    .ldCpuZ a0,                       --  1 <start>  171 ldr r0,field
    .cmp32 (al .cpu) a0,              --  2  171 cmp cpu_id,r0
    .jne (.at 8),                     --  3  171 bne 4f
    .ld a0 (al .v),                   --  4 <chk>  176 ldr r0,v
    .add a0 a0 (al .count),           --  5  177 add r0,count
    .st a0 (al .v),                   --  6  179 str r0,v
    .jmp (.ret 0),                    --  7 <commit>  182 b 5f: return 0
    .jmp (.ret (-1))                  --  8 <abort>  RSEQ_ASM_DEFINE_ABORT: jmp abort
  ]
  be := be
  csAddr := csa
  start := 1
  chk := 4
  commit := 7
  abort := 8
  ne := 9

/-- `arm/bits.h:213-299` -/
def arm_cbneCbneStore (al : Opnd → Nat) (be : Bool) (csa : W n) : Prog n where
  code := [
    .cs a0,                           --  0  228 adr r0,3f; str r0,rseq_cs
    .ldCpuZ a0,                       --  1 <start>  229 ldr r0,field
    .cmp32 (al .cpu) a0,              --  2  229 cmp cpu_id,r0
    .jne (.at 12),                    --  3  229 bne 4f
    .ld a0 (al .v),                   --  4 <chk>  231 ldr r0,v
    .cmp (al .expect) a0,             --  5  232 cmp expect,r0
    .jne (.ret 1),                    --  6  233 bne ne
    .ld a0 (al .v2),                  --  7  235 ldr r0,v2
    .cmp (al .expect2) a0,            --  8  236 cmp expect2,r0
    .jne (.ret 1),                    --  9  237 bne ne
    .st (al .newv) (al .v),           -- 10  249 str newv,v
    .jmp (.ret 0),                    -- 11 <commit>  252 b 5f: return 0
    .jmp (.ret (-1))                  -- 12 <abort>  RSEQ_ASM_DEFINE_ABORT: jmp abort
  ]
  be := be
  csAddr := csa
  start := 1
  chk := 4
  commit := 11
  abort := 12
  ne := 13

/-- `arm/bits.h:303-379` (relaxed variant) -/
def arm_cbneStoreStore (al : Opnd → Nat) (be : Bool) (csa : W n) : Prog n where
  code := [
    .cs a0,                           --  0  317 adr r0,3f; str r0,rseq_cs
    .ldCpuZ a0,                       --  1 <start>  318 ldr r0,field
    .cmp32 (al .cpu) a0,              --  2  318 cmp cpu_id,r0
    .jne (.at 10),                    --  3  318 bne 4f
    .ld a0 (al .v),                   --  4 <chk>  320 ldr r0,v
    .cmp (al .expect) a0,             --  5  321 cmp expect,r0
    .jne (.ret 1),                    --  6  322 bne ne
    .st (al .newv2) (al .v2),         --  7  331 str newv2,v2
    .st (al .newv) (al .v),           --  8  337 str newv,v
    .jmp (.ret 0),                    --  9 <commit>  340 b 5f: return 0
    .jmp (.ret (-1))                  -- 10 <abort>  RSEQ_ASM_DEFINE_ABORT: jmp abort
  ]
  be := be
  csAddr := csa
  start := 1
  chk := 4
  commit := 9
  abort := 10
  ne := 11

/-- `arm/bits.h:303-379` (release variant) -/
def arm_cbneStoreStore_rel (al : Opnd → Nat) (be : Bool) (csa : W n) : Prog n where
  code := [
    .cs a0,                           --  0  317 adr r0,3f; str r0,rseq_cs
    .ldCpuZ a0,                       --  1 <start>  318 ldr r0,field
    .cmp32 (al .cpu) a0,              --  2  318 cmp cpu_id,r0
    .jne (.at 11),                    --  3  318 bne 4f
    .ld a0 (al .v),                   --  4 <chk>  320 ldr r0,v
    .cmp (al .expect) a0,             --  5  321 cmp expect,r0
    .jne (.ret 1),                    --  6  322 bne ne
    .st (al .newv2) (al .v2),         --  7  331 str newv2,v2
    .fence,                           --  8  334 dmb
    .st (al .newv) (al .v),           --  9  337 str newv,v
    .jmp (.ret 0),                    -- 10 <commit>  340 b 5f: return 0
    .jmp (.ret (-1))                  -- 11 <abort>  RSEQ_ASM_DEFINE_ABORT: jmp abort
  ]
  be := be
  csAddr := csa
  start := 1
  chk := 4
  commit := 10
  abort := 11
  ne := 12

/-- `arm/bits.h:383-500` (relaxed variant) -/
def arm_cbneMemcpyStore (al : Opnd → Nat) (be : Bool) (csa : W n) : Prog n where
  code := [
    .cs a0,                           --  0  413 adr r0,3f; str r0,rseq_cs
    .ldCpuZ a0,                       --  1 <start>  414 ldr r0,field
    .cmp32 (al .cpu) a0,              --  2  414 cmp cpu_id,r0
    .jne (.at 22),                    --  3  414 bne 4f
    .ld a0 (al .v),                   --  4 <chk>  416 ldr r0,v
    .ldS a5 (slotOf .expect),         --  5  418 ldr r5,expect
    .cmp a5 a0,                       --  6  419 cmp r5,r0
    .jne (.ret 1),                    --  7  420 bne ne
    .ldS a5 (slotOf .dst),            --  8  429 ldr r5,dst
    .ldS a6 (slotOf .src),            --  9  431 ldr r6,src
    .ldS a7 (slotOf .len),            -- 10  433 ldr r7,len
    .tst a7,                          -- 11  435 cmp r7,#0
    .je (.at 19),                     -- 12  436 beq 333f
    .ldb a0 a6,                       -- 13 <222>  438 ldrb r0,[r6]
    .stb a0 a5,                       -- 14  439 strb r0,[r5]
    .addf a6 a6 1,                    -- 15  440 adds r6,#1
    .addf a5 a5 1,                    -- 16  441 adds r5,#1
    .addf a7 a7 (-1),                 -- 17  442 subs r7,#1
    .jne (.at 13),                    -- 18  443 bne 222b
    .ldS a5 (slotOf .newv),           -- 19 <333>  450 ldr r5,newv
    .st a5 (al .v),                   -- 20  452 str r5,v
    .jmp (.ret 0),                    -- 21 <commit>  455 b 5f: return 0
    .jmp (.ret (-1))                  -- 22 <abort>  RSEQ_ASM_DEFINE_ABORT: jmp abort
  ]
  be := be
  csAddr := csa
  start := 1
  chk := 4
  commit := 21
  abort := 22
  ne := 23

/-- `arm/bits.h:383-500` (release variant) -/
def arm_cbneMemcpyStore_rel (al : Opnd → Nat) (be : Bool) (csa : W n) : Prog n where
  code := [
    .cs a0,                           --  0  413 adr r0,3f; str r0,rseq_cs
    .ldCpuZ a0,                       --  1 <start>  414 ldr r0,field
    .cmp32 (al .cpu) a0,              --  2  414 cmp cpu_id,r0
    .jne (.at 23),                    --  3  414 bne 4f
    .ld a0 (al .v),                   --  4 <chk>  416 ldr r0,v
    .ldS a5 (slotOf .expect),         --  5  418 ldr r5,expect
    .cmp a5 a0,                       --  6  419 cmp r5,r0
    .jne (.ret 1),                    --  7  420 bne ne
    .ldS a5 (slotOf .dst),            --  8  429 ldr r5,dst
    .ldS a6 (slotOf .src),            --  9  431 ldr r6,src
    .ldS a7 (slotOf .len),            -- 10  433 ldr r7,len
    .tst a7,                          -- 11  435 cmp r7,#0
    .je (.at 19),                     -- 12  436 beq 333f
    .ldb a0 a6,                       -- 13 <222>  438 ldrb r0,[r6]
    .stb a0 a5,                       -- 14  439 strb r0,[r5]
    .addf a6 a6 1,                    -- 15  440 adds r6,#1
    .addf a5 a5 1,                    -- 16  441 adds r5,#1
    .addf a7 a7 (-1),                 -- 17  442 subs r7,#1
    .jne (.at 13),                    -- 18  443 bne 222b
    .fence,                           -- 19 <333>  447 dmb
    .ldS a5 (slotOf .newv),           -- 20  450 ldr r5,newv
    .st a5 (al .v),                   -- 21  452 str r5,v
    .jmp (.ret 0),                    -- 22 <commit>  455 b 5f: return 0
    .jmp (.ret (-1))                  -- 23 <abort>  RSEQ_ASM_DEFINE_ABORT: jmp abort
  ]
  be := be
  csAddr := csa
  start := 1
  chk := 4
  commit := 22
  abort := 23
  ne := 24

/-- Which program a call runs: architecture, helper, and whether the release variant is asked for
(`rseq/arch/templates/bits.h`, `RSEQ_TEMPLATE_IDENTIFIER`; the release variant exists only for the
last two helpers, `rseq_load_add_load_load_add_store__ptr` only on x86-64). -/
def program (al : Opnd → Nat) (be : Bool) (csa : W n) : Arch → Kind → Bool → Option (Prog n)
  | .x86_64, .cbneStore, false => some (x86_64_cbneStore al be csa)
  | .x86_64, .cbeqStoreAddLoadStore, false => some (x86_64_cbeqStoreAddLoadStore al be csa)
  | .x86_64, .addStore, false => some (x86_64_addStore al be csa)
  | .x86_64, .addLoadLoadAddStore, false => some (x86_64_addLoadLoadAddStore al be csa)
  | .x86_64, .cbneCbneStore, false => some (x86_64_cbneCbneStore al be csa)
  | .x86_64, .cbneStoreStore, false => some (x86_64_cbneStoreStore al be csa)
  | .x86_64, .cbneStoreStore, true => some (x86_64_cbneStoreStore al be csa)
  | .x86_64, .cbneMemcpyStore, false => some (x86_64_cbneMemcpyStore al be csa)
  | .x86_64, .cbneMemcpyStore, true => some (x86_64_cbneMemcpyStore al be csa)
  | .i386, .cbneStore, false => some (i386_cbneStore al be csa)
  | .i386, .cbeqStoreAddLoadStore, false => some (i386_cbeqStoreAddLoadStore al be csa)
  | .i386, .addStore, false => some (i386_addStore al be csa)
  | .i386, .cbneCbneStore, false => some (i386_cbneCbneStore al be csa)
  | .i386, .cbneStoreStore, false => some (i386_cbneStoreStore al be csa)
  | .i386, .cbneStoreStore, true => some (i386_cbneStoreStore_rel al be csa)
  | .i386, .cbneMemcpyStore, false => some (i386_cbneMemcpyStore al be csa)
  | .i386, .cbneMemcpyStore, true => some (i386_cbneMemcpyStore_rel al be csa)
  | .aarch64, .cbneStore, false => some (aarch64_cbneStore al be csa)
  | .aarch64, .cbeqStoreAddLoadStore, false => some (aarch64_cbeqStoreAddLoadStore al be csa)
  | .aarch64, .addStore, false => some (aarch64_addStore al be csa)
  | .aarch64, .cbneCbneStore, false => some (aarch64_cbneCbneStore al be csa)
  | .aarch64, .cbneStoreStore, false => some (aarch64_cbneStoreStore al be csa)
  | .aarch64, .cbneStoreStore, true => some (aarch64_cbneStoreStore_rel al be csa)
  | .aarch64, .cbneMemcpyStore, false => some (aarch64_cbneMemcpyStore al be csa)
  | .aarch64, .cbneMemcpyStore, true => some (aarch64_cbneMemcpyStore_rel al be csa)
  | .riscv, .cbneStore, false => some (riscv_cbneStore al be csa)
  | .riscv, .cbeqStoreAddLoadStore, false => some (riscv_cbeqStoreAddLoadStore al be csa)
  | .riscv, .addStore, false => some (riscv_addStore al be csa)
  | .riscv, .cbneCbneStore, false => some (riscv_cbneCbneStore al be csa)
  | .riscv, .cbneStoreStore, false => some (riscv_cbneStoreStore al be csa)
  | .riscv, .cbneStoreStore, true => some (riscv_cbneStoreStore_rel al be csa)
  | .riscv, .cbneMemcpyStore, false => some (riscv_cbneMemcpyStore al be csa)
  | .riscv, .cbneMemcpyStore, true => some (riscv_cbneMemcpyStore_rel al be csa)
  | .ppc, .cbneStore, false => some (ppc_cbneStore al be csa)
  | .ppc, .cbeqStoreAddLoadStore, false => some (ppc_cbeqStoreAddLoadStore al be csa)
  | .ppc, .addStore, false => some (ppc_addStore al be csa)
  | .ppc, .cbneCbneStore, false => some (ppc_cbneCbneStore al be csa)
  | .ppc, .cbneStoreStore, false => some (ppc_cbneStoreStore al be csa)
  | .ppc, .cbneStoreStore, true => some (ppc_cbneStoreStore_rel al be csa)
  | .ppc, .cbneMemcpyStore, false => some (ppc_cbneMemcpyStore al be csa)
  | .ppc, .cbneMemcpyStore, true => some (ppc_cbneMemcpyStore_rel al be csa)
  | .s390, .cbneStore, false => some (s390_cbneStore al be csa)
  | .s390, .cbeqStoreAddLoadStore, false => some (s390_cbeqStoreAddLoadStore al be csa)
  | .s390, .addStore, false => some (s390_addStore al be csa)
  | .s390, .cbneCbneStore, false => some (s390_cbneCbneStore al be csa)
  | .s390, .cbneStoreStore, false => some (s390_cbneStoreStore al be csa)
  | .s390, .cbneStoreStore, true => some (s390_cbneStoreStore al be csa)
  | .s390, .cbneMemcpyStore, false => some (s390_cbneMemcpyStore al be csa)
  | .s390, .cbneMemcpyStore, true => some (s390_cbneMemcpyStore al be csa)
  | .mips, .cbneStore, false => some (mips_cbneStore al be csa)
  | .mips, .cbeqStoreAddLoadStore, false => some (mips_cbeqStoreAddLoadStore al be csa)
  | .mips, .addStore, false => some (mips_addStore al be csa)
  | .mips, .cbneCbneStore, false => some (mips_cbneCbneStore al be csa)
  | .mips, .cbneStoreStore, false => some (mips_cbneStoreStore al be csa)
  | .mips, .cbneStoreStore, true => some (mips_cbneStoreStore_rel al be csa)
  | .mips, .cbneMemcpyStore, false => some (mips_cbneMemcpyStore al be csa)
  | .mips, .cbneMemcpyStore, true => some (mips_cbneMemcpyStore_rel al be csa)
  | .loongarch, .cbneStore, false => some (loongarch_cbneStore al be csa)
  | .loongarch, .cbeqStoreAddLoadStore, false => some (loongarch_cbeqStoreAddLoadStore al be csa)
  | .loongarch, .addStore, false => some (loongarch_addStore al be csa)
  | .loongarch, .cbneCbneStore, false => some (loongarch_cbneCbneStore al be csa)
  | .loongarch, .cbneStoreStore, false => some (loongarch_cbneStoreStore al be csa)
  | .loongarch, .cbneStoreStore, true => some (loongarch_cbneStoreStore_rel al be csa)
  | .loongarch, .cbneMemcpyStore, false => some (loongarch_cbneMemcpyStore al be csa)
  | .loongarch, .cbneMemcpyStore, true => some (loongarch_cbneMemcpyStore_rel al be csa)
  | .arm, .cbneStore, false => some (arm_cbneStore al be csa)
  | .arm, .cbeqStoreAddLoadStore, false => some (arm_cbeqStoreAddLoadStore al be csa)
  | .arm, .addStore, false => some (arm_addStore al be csa)
  | .arm, .cbneCbneStore, false => some (arm_cbneCbneStore al be csa)
  | .arm, .cbneStoreStore, false => some (arm_cbneStoreStore al be csa)
  | .arm, .cbneStoreStore, true => some (arm_cbneStoreStore_rel al be csa)
  | .arm, .cbneMemcpyStore, false => some (arm_cbneMemcpyStore al be csa)
  | .arm, .cbneMemcpyStore, true => some (arm_cbneMemcpyStore_rel al be csa)
  | _, _, _ => none

/-- Registers named in the clobber lists of the sources. -/
def clobbers : Arch → Kind → List Nat
  | .x86_64, .cbeqStoreAddLoadStore => [rax, rbx]
  | .x86_64, .addLoadLoadAddStore => [rax, rbx, rcx]
  | .x86_64, _ => [rax]
  | .i386, .cbeqStoreAddLoadStore => [rax, rbx]
  | .i386, .cbneMemcpyStore => [rax, rbx, rcx, rdx]
  | .i386, _ => [rax]
  | .aarch64, .cbneMemcpyStore => [x15, x14]
  | .aarch64, _ => [x15]
  | .riscv, .cbneMemcpyStore => [t6, t5, t4, t3]
  | .riscv, _ => [t6]
  | .ppc, .cbneMemcpyStore => [r17, r18, r19, r20, r21]
  | .ppc, _ => [r17]
  | .s390, .cbeqStoreAddLoadStore => [g0, g1]
  | .s390, _ => [g0]
  | .mips, _ => [m4]
  | .loongarch, _ => [m4]
  | .arm, .cbneMemcpyStore => [a0, a5, a6, a7]
  | .arm, _ => [a0]

end Verif.Rseq
