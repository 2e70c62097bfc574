import Verif.RseqCall
/-
Builds with `RSEQ_COMPARE_TWICE` (`include/rseq/arch/*/bits.h`, every helper).

With that macro defined each helper repeats, right after its last comparison and before its first store,
the comparison of the CPU number and the comparison(s) of the variable(s); if a repetition fails it jumps
to `error1`, `error2` or `error3`, which call `rseq_bug()` (`include/rseq/utils.h`: print, `abort()`).

The model of such a helper is the program of `RseqArch.lean` with that block inserted and, for the
memory-copy helpers of x86-64, s390, mips and loongarch, two tear-down sequences (labels 6 and 7) appended.
Leaving through `error1`, `error2`, `error3` is modelled as leaving with value 2, 3, 4, which no helper
returns otherwise; the C code does not return at all then.

The threads, the kernel and the steps are those of `RseqConc.lean` (`TStep` is `Step` with the program of a
site as a parameter; `step_eq` in `RseqTwiceProps.lean` states that the two coincide for the old programs).
-/

namespace Verif.Rseq

variable {n : Nat}

/-- Positions after the insertion of `k` instructions at index `p`. -/
def Pc.shift (p k : Nat) : Pc → Pc
  | .at i => .at (if i < p then i else i + k)
  | .ret r => .ret r

/-- An instruction with its jump target adjusted. -/
def Instr.shift (p k : Nat) : Instr → Instr
  | .jne t => .jne (t.shift p k)
  | .je t => .je (t.shift p k)
  | .bne a b t => .bne a b (t.shift p k)
  | .beq a b t => .beq a b (t.shift p k)
  | .cbnz r t => .cbnz r (t.shift p k)
  | .cbz r t => .cbz r (t.shift p k)
  | .cbnz32 r t => .cbnz32 r (t.shift p k)
  | .jmp t => .jmp (t.shift p k)
  | i => i

/-- Insert `blk` at index `p` and append `tail`. -/
def insertBlock (P : Prog n) (p : Nat) (blk tail : List Instr) : Prog n where
  code := (P.code.take p).map (·.shift p blk.length) ++ (blk ++
    ((P.code.drop p).map (·.shift p blk.length) ++ tail))
  be := P.be
  csAddr := P.csAddr
  start := P.start
  chk := P.chk
  commit := P.commit + blk.length
  abort := P.abort + blk.length
  ne := P.ne + blk.length

/-- `RSEQ_ASM_CBNE_CPU_ID(cpu_id, current_cpu_id, t)` -/
def cpuChk (al : Opnd → Nat) (t : Pc) : Arch → List Instr
  | .x86_64 | .i386 => [.cmpCpu (al .cpu), .jne t]                            -- x86.h cmpl; jnz
  | .s390 => [.cmpCpu (al .cpu), .jne t]                                      -- s390.h c; jnz
  | .aarch64 => [.ldCpuZ x15, .sub32 x15 x15 (al .cpu), .cbnz32 x15 t]        -- ldr w15; sub; cbnz
  | .riscv => [.ldCpuS t6, .bne t6 (al .cpu) t]                               -- lw t6; bne
  | .ppc => [.ldCpuZ r17, .cmp32 (al .cpu) r17, .jne t]                       -- lwz r17; cmpw; bne-
  | .mips | .loongarch => [.ldCpuS m4, .bne m4 (al .cpu) t]                   -- lw $4; bne
  | .arm => [.ldCpuZ a0, .cmp32 (al .cpu) a0, .jne t]                         -- ldr r0; cmp; bne

/-- `[v]` is compared with `e`; jump if different (`RSEQ_ASM_OP_CBNE` where it exists). -/
def neChk (al : Opnd → Nat) (v e : Opnd) (t : Pc) : Arch → List Instr
  | .x86_64 | .i386 | .s390 => [.cmpM (al v) (al e), .jne t]
  | .aarch64 => [.ld x15 (al v), .sub x15 x15 (al e), .cbnz x15 t]
  | .riscv => [.ld t6 (al v), .bne t6 (al e) t]
  | .ppc => [.ld r17 (al v), .cmp r17 (al e), .jne t]
  | .mips | .loongarch => [.ld m4 (al v), .bne m4 (al e) t]
  | .arm => [.ld a0 (al v), .cmp (al e) a0, .jne t]

/-- `[v]` is compared with `e`; jump if equal. -/
def eqChk (al : Opnd → Nat) (v e : Opnd) (t : Pc) : Arch → List Instr
  | .x86_64 | .i386 => [.ld rbx (al v), .cmp rbx (al e), .je t]
  | .s390 => [.ld g1 (al v), .cmp g1 (al e), .je t]
  | .aarch64 => [.ld x15 (al v), .sub x15 x15 (al e), .cbz x15 t]
  | .riscv => [.ld t6 (al v), .beq t6 (al e) t]
  | .ppc => [.ld r17 (al v), .cmp r17 (al e), .je t]
  | .mips | .loongarch => [.ld m4 (al v), .beq m4 (al e) t]
  | .arm => [.ld a0 (al v), .cmp (al e) a0, .je t]

/-- The `#ifdef RSEQ_COMPARE_TWICE` block of each helper; `e1`, `e2`, `e3` are its three exits.
x86/bits.h:50-52, 113-116, 175, 225, 290-294, 368-370, 443-445 (x86-64); 571-573, 643-646, 714, 782-786,
871-874, 969-971 (i386); aarch64/bits.h:38-39, 96-97, 153, 209-211, 280-281, 347-348; riscv/bits.h:32-33,
86-87, 138, 191-193, 257-258, 319-320; ppc/bits.h:42-44, 107-109, 174, 240-244, 321-323, 402-404;
s390/bits.h:35-37, 100-103, 164, 227-231, 308-310, 386-388; mips/bits.h:40-42, 101-103, 161, 222-226,
298-300, 375-377; loongarch/bits.h:44-46, 110-112, 175, 239-243, 321-323, 403-405; arm/bits.h:40-43,
108-111, 174, 240-246, 325-328, 423-426. -/
def twiceBlk (al : Opnd → Nat) (e1 e2 e3 : Pc) : Arch → Kind → List Instr
  | a, .addStore => cpuChk al e1 a
  | a, .addLoadLoadAddStore => cpuChk al e1 a
  | a, .cbneStore => cpuChk al e1 a ++ neChk al .v .expect e2 a
  | a, .cbeqStoreAddLoadStore => cpuChk al e1 a ++ eqChk al .v .expectnot e2 a
  | a, .cbneCbneStore => cpuChk al e1 a ++ (neChk al .v .expect e2 a ++ neChk al .v2 .expect2 e3 a)
  | .i386, .cbneStoreStore =>
      cpuChk al e1 .i386 ++ [.ldS rax (slotOf .expect), .cmpM (al .v) rax, .jne e2]
  | a, .cbneStoreStore => cpuChk al e1 a ++ neChk al .v .expect e2 a
  | .i386, .cbneMemcpyStore => cpuChk al e1 .i386 ++ [.cmpM (al .v) rbx, .jne e2]
  | .arm, .cbneMemcpyStore => cpuChk al e1 .arm ++ [.ld a0 (al .v), .cmp a5 a0, .jne e2]
  | a, .cbneMemcpyStore => cpuChk al e1 a ++ neChk al .v .expect e2 a

/-- Index at which the block is inserted. -/
def twiceAt : Arch → Kind → Nat
  | .x86_64, .cbeqStoreAddLoadStore | .i386, .cbeqStoreAddLoadStore | .s390, .cbeqStoreAddLoadStore => 6
  | .i386, .cbneStoreStore | .i386, .cbneMemcpyStore => 6
  | .x86_64, .cbneMemcpyStore | .s390, .cbneMemcpyStore | .mips, .cbneMemcpyStore
  | .loongarch, .cbneMemcpyStore | .arm, .cbneMemcpyStore => 8
  | .ppc, .cbneMemcpyStore => 10
  | .aarch64, .addStore | .ppc, .addStore | .arm, .addStore => 4
  | .aarch64, .cbneCbneStore | .ppc, .cbneCbneStore | .arm, .cbneCbneStore => 10
  | .aarch64, _ | .ppc, _ | .arm, _ => 7
  | _, .addStore | _, .addLoadLoadAddStore => 3
  | _, .cbneCbneStore => 7
  | _, _ => 5

/-- Whether the memory-copy helper of the architecture leaves its block through tear-down code. -/
def hasTear : Arch → Kind → Bool
  | .x86_64, .cbneMemcpyStore | .s390, .cbneMemcpyStore | .mips, .cbneMemcpyStore
  | .loongarch, .cbneMemcpyStore => true
  | _, _ => false

/-- `RSEQ_ASM_DEFINE_TEARDOWN(6, ..., error1)` and `(7, ..., error2)`: x86/bits.h:478-487,
s390/bits.h:421-430, mips/bits.h:415-426, loongarch/bits.h:443-454. -/
def tearDown (al : Opnd → Nat) : List Instr :=
  [.ldS (al .len) 102, .ldS (al .dst) 101, .ldS (al .src) 100, .jmp (.ret 2),
   .ldS (al .len) 102, .ldS (al .dst) 101, .ldS (al .src) 100, .jmp (.ret 3)]

/-- The exits of the block, for a program of `len` instructions. -/
def twiceExit (len : Nat) (a : Arch) (k : Kind) : Pc × Pc :=
  if hasTear a k then (.at (len + 4), .at (len + 8)) else (.ret 2, .ret 3)

/-- The helper of the same site in a `RSEQ_COMPARE_TWICE` build. -/
def twiceOf (al : Opnd → Nat) (a : Arch) (k : Kind) (P : Prog n) : Prog n :=
  insertBlock P (twiceAt a k)
    (twiceBlk al (twiceExit P.code.length a k).1 (twiceExit P.code.length a k).2 (.ret 4) a k)
    (if hasTear a k then tearDown al else [])

/-- The program of a site in a `RSEQ_COMPARE_TWICE` build. -/
def Site.twice (S : Site n) : Prog n := twiceOf S.al S.arch S.kind S.prog

/-- The block of a site, its position and length. -/
def Site.blk (S : Site n) : List Instr :=
  twiceBlk S.al (twiceExit S.prog.code.length S.arch S.kind).1
    (twiceExit S.prog.code.length S.arch S.kind).2 (.ret 4) S.arch S.kind
def Site.tp (S : Site n) : Nat := twiceAt S.arch S.kind
def Site.tk (S : Site n) : Nat := S.blk.length
def Site.tail (S : Site n) : List Instr := if hasTear S.arch S.kind then tearDown S.al else []

theorem Site.twice_eq (S : Site n) : S.twice = insertBlock S.prog S.tp S.blk S.tail := rfl

/-! ### The machine -/

variable (T : Nat → Site n) (P : Nat → Prog n)

/-- The kernel's rule applied to the interrupted helper (`fixTop`). -/
def tfixTop (x : Thread n) : Option (Frame n) :=
  match x.top with
  | none => none
  | some f =>
    match f.l.pc with
    | .ret _ => some f
    | .at i =>
      if x.reg = true ∧ x.cs = some f.pid ∧ (P f.pid).start ≤ i ∧ i < (P f.pid).commit then
        some { f with l := { f.l with pc := .at (P f.pid).abort } }
      else some f

/-- One step of thread `t` (or of the kernel on its behalf); as `Step`, but a helper inlined at site `i`
is the program `P i`. -/
inductive TStep (s : State n) (t : Nat) : Lab n → State n → Prop
  | invoke (f : Frame n) (hr : (s.th t).run = true) (ht : (s.th t).top = none) (hf : Starts T f s.mem)
      (hu : (s.th t).reg = false → (s.th t).fv f.fld ≠ f.cpu) :
      TStep s t (.invoke f) (s.set t { s.th t with top := some f })
  | exec (f : Frame n) (i : Nat) (ins : Instr) (l' : LSt n) (m' : Mem n) (hr : (s.th t).run = true)
      (ht : (s.th t).top = some f) (hp : f.l.pc = .at i)
      (hc : (P f.pid).code[i]? = some ins)
      (he : exec (P f.pid) ((s.th t).fv f.fld) i ins f.l s.mem = (l', m')) :
      TStep s t .exec
        { mem := m'
          th := upd s.th t { s.th t with
            top := some { f with
              l := l'
              foot := fun x => touched ins f.l x ∨ f.foot x
              last := if memFree ins = true then f.last else m'
              commits := if i + 1 = (P f.pid).commit then f.commits + 1 else f.commits
              ep := if isCs ins = true then (s.th t).ev else f.ep }
            cs := if isCs ins = true then some f.pid else (s.th t).cs } }
  | ret (f : Frame n) (r : Int) (hr : (s.th t).run = true) (ht : (s.th t).top = some f)
      (hp : f.l.pc = .ret r) : TStep s t .ret (s.set t { s.th t with top := none })
  | user (m' : Mem n) (hr : (s.th t).run = true) (ht : (s.th t).top = none) :
      TStep s t .user { s with mem := m' }
  | preempt (hr : (s.th t).run = true) : TStep s t .preempt (s.set t { s.th t with run := false })
  | resume (c k : BitVec 32) (hr : (s.th t).run = false)
      (hd : ∀ u, u ≠ t → (s.th u).run = true → (s.th u).kcpu ≠ c ∧ (s.th u).kcid ≠ k) :
      TStep s t .resume (s.set t { s.th t with
        run := true, top := tfixTop P (s.th t), cs := fixCs (s.th t), kcpu := c, kcid := k
        cpuId := if (s.th t).reg = true then c else (s.th t).cpuId
        mmCid := if (s.th t).reg = true then k else (s.th t).mmCid
        ev := (s.th t).ev + 1 })
  | signal (hr : (s.th t).run = true) :
      TStep s t .signal (s.set t { s.th t with
        top := none, saved := tfixTop P (s.th t) :: (s.th t).saved, cs := fixCs (s.th t)
        ev := (s.th t).ev + 1 })
  | sigret (f : Option (Frame n)) (rest : List (Option (Frame n))) (hr : (s.th t).run = true)
      (ht : (s.th t).top = none) (hs : (s.th t).saved = f :: rest) :
      TStep s t .sigret (s.set t { s.th t with top := f, saved := rest })
  | register (hr : (s.th t).run = true) (ht : (s.th t).top = none)
      (hs : ∀ f ∈ (s.th t).saved, f = none) (hn : (s.th t).reg = false) :
      TStep s t .register (s.set t { s.th t with
        reg := true, cpuId := (s.th t).kcpu, mmCid := (s.th t).kcid })
  | unregister (hr : (s.th t).run = true) (ht : (s.th t).top = none)
      (hs : ∀ f ∈ (s.th t).saved, f = none) (hn : (s.th t).reg = true) :
      TStep s t .unregister (s.set t { s.th t with
        reg := false, cpuId := BitVec.allOnes 32, mmCid := 0#32 })
  | clear (hr : (s.th t).run = true) (ht : (s.th t).top = none) :
      TStep s t .clear (s.set t { s.th t with cs := none })

/-- As `Polite`: the step of thread `t` keeps the bytes that any other running thread has accessed in the
section it is in. -/
def TPolite (s : State n) (t : Nat) (s' : State n) : Prop :=
  ∀ u f, u ≠ t → (s.th u).run = true → (s.th u).top = some f →
    zone (P f.pid) f.l.pc = .body →
    (∀ a, f.foot a → s.mem a = s'.mem a) ∨ Quiet (P f.pid) f.l

/-- States reachable by polite steps. -/
inductive TReach (m0 : Mem n) : State n → Prop
  | init : TReach m0 { mem := m0, th := fun _ => thread0 }
  | step {s s' : State n} {t : Nat} {lab : Lab n} (h : TReach m0 s) (hs : TStep T P s t lab s')
      (hp : TPolite P s t s') : TReach m0 s'

/-- One call, as `Call`. -/
inductive TCall (t d : Nat) (s0 : State n) : List (Ev n) → State n → Prop
  | nil : TCall t d s0 [] s0
  | cons {es : List (Ev n)} {s s' : State n} {u : Nat} {lab : Lab n} (h : TCall t d s0 es s)
      (hs : TStep T P s u lab s') (hp : TPolite P s u s') (hin : (frameAt (s'.th t) d).isSome) :
      TCall t d s0 (⟨s, u, lab, s'⟩ :: es) s'

end Verif.Rseq
