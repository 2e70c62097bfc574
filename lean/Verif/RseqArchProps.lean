import Verif.RseqStraight
import Verif.RseqMemcpy
/-
C35: on every architecture, every helper implements the pseudo-code of `pseudocode.h`.
-/

namespace Verif.Rseq

variable {n : Nat}

/-- Architectures whose memory-copy helper changes the registers of its input operands. -/
def modifiesInputs : Arch → Bool
  | .x86_64 | .s390 | .mips | .loongarch => true
  | _ => false

/-- Preconditions of a call: for the memory-copy helper, source and destination do not overlap, and,
on the four architectures that change their input registers, src, dst and len have registers of their
own. -/
def CallOK (arch : Arch) (al : Opnd → Nat) : Op n → Prop
  | .cbneMemcpyStore _ _ dst src len _ =>
      NoOverlap dst src len ∧ (modifiesInputs arch = true → OwnRegs al)
  | _ => True

/-- **C35.** Every helper program of every architecture implements its pseudo-code: whenever its
assembly is entered as the compiler guarantees (`Setup`), an execution that no event interrupts
returns exactly the pseudo-code's value and leaves exactly the pseudo-code's memory if the thread's
CPU field equals the `cpu` argument, returns -1 without touching memory if not, and preserves every
register outside the clobber list. -/
theorem helpers_implement_pseudocode (hn : 4 ≤ n) (arch : Arch) (rel be : Bool) (al : Opnd → Nat)
    (csa : W n) (op : Op n) (p : Prog n) (hp : program al be csa arch op.kind rel = some p)
    (hok : CallOK arch al op) :
    Implements p (clobbers arch op.kind) (signExt arch) al op := by
  cases op with
  | cbneStore v expect newv =>
    cases arch <;> cases rel <;> simp only [program, Op.kind, Option.some.injEq, reduceCtorEq] at hp <;>
      subst hp
    · exact x86_64_cbneStore_ok hn al be csa v expect newv
    · exact i386_cbneStore_ok hn al be csa v expect newv
    · exact aarch64_cbneStore_ok hn al be csa v expect newv
    · exact riscv_cbneStore_ok hn al be csa v expect newv
    · exact ppc_cbneStore_ok hn al be csa v expect newv
    · exact s390_cbneStore_ok hn al be csa v expect newv
    · exact mips_cbneStore_ok hn al be csa v expect newv
    · exact loongarch_cbneStore_ok hn al be csa v expect newv
    · exact arm_cbneStore_ok hn al be csa v expect newv
  | cbeqStoreAddLoadStore v expectnot voffp load =>
    cases arch <;> cases rel <;> simp only [program, Op.kind, Option.some.injEq, reduceCtorEq] at hp <;>
      subst hp
    · exact x86_64_cbeqStoreAddLoadStore_ok hn al be csa v expectnot voffp load
    · exact i386_cbeqStoreAddLoadStore_ok hn al be csa v expectnot voffp load
    · exact aarch64_cbeqStoreAddLoadStore_ok hn al be csa v expectnot voffp load
    · exact riscv_cbeqStoreAddLoadStore_ok hn al be csa v expectnot voffp load
    · exact ppc_cbeqStoreAddLoadStore_ok hn al be csa v expectnot voffp load
    · exact s390_cbeqStoreAddLoadStore_ok hn al be csa v expectnot voffp load
    · exact mips_cbeqStoreAddLoadStore_ok hn al be csa v expectnot voffp load
    · exact loongarch_cbeqStoreAddLoadStore_ok hn al be csa v expectnot voffp load
    · exact arm_cbeqStoreAddLoadStore_ok hn al be csa v expectnot voffp load
  | addStore v count =>
    cases arch <;> cases rel <;> simp only [program, Op.kind, Option.some.injEq, reduceCtorEq] at hp <;>
      subst hp
    · exact x86_64_addStore_ok hn al be csa v count
    · exact i386_addStore_ok hn al be csa v count
    · exact aarch64_addStore_ok hn al be csa v count
    · exact riscv_addStore_ok hn al be csa v count
    · exact ppc_addStore_ok hn al be csa v count
    · exact s390_addStore_ok hn al be csa v count
    · exact mips_addStore_ok hn al be csa v count
    · exact loongarch_addStore_ok hn al be csa v count
    · exact arm_addStore_ok hn al be csa v count
  | addLoadLoadAddStore ptr off inc =>
    cases arch <;> cases rel <;> simp only [program, Op.kind, Option.some.injEq, reduceCtorEq] at hp <;>
      subst hp
    · exact x86_64_addLoadLoadAddStore_ok hn al be csa ptr off inc
  | cbneCbneStore v expect v2 expect2 newv =>
    cases arch <;> cases rel <;> simp only [program, Op.kind, Option.some.injEq, reduceCtorEq] at hp <;>
      subst hp
    · exact x86_64_cbneCbneStore_ok hn al be csa v expect v2 expect2 newv
    · exact i386_cbneCbneStore_ok hn al be csa v expect v2 expect2 newv
    · exact aarch64_cbneCbneStore_ok hn al be csa v expect v2 expect2 newv
    · exact riscv_cbneCbneStore_ok hn al be csa v expect v2 expect2 newv
    · exact ppc_cbneCbneStore_ok hn al be csa v expect v2 expect2 newv
    · exact s390_cbneCbneStore_ok hn al be csa v expect v2 expect2 newv
    · exact mips_cbneCbneStore_ok hn al be csa v expect v2 expect2 newv
    · exact loongarch_cbneCbneStore_ok hn al be csa v expect v2 expect2 newv
    · exact arm_cbneCbneStore_ok hn al be csa v expect v2 expect2 newv
  | cbneStoreStore v expect v2 newv2 newv =>
    cases arch <;> cases rel <;> simp only [program, Op.kind, Option.some.injEq] at hp <;>
      subst hp
    · exact x86_64_cbneStoreStore_ok hn al be csa v expect v2 newv2 newv
    · exact x86_64_cbneStoreStore_ok hn al be csa v expect v2 newv2 newv
    · exact i386_cbneStoreStore_ok hn al be csa v expect v2 newv2 newv
    · exact i386_cbneStoreStore_rel_ok hn al be csa v expect v2 newv2 newv
    · exact aarch64_cbneStoreStore_ok hn al be csa v expect v2 newv2 newv
    · exact aarch64_cbneStoreStore_rel_ok hn al be csa v expect v2 newv2 newv
    · exact riscv_cbneStoreStore_ok hn al be csa v expect v2 newv2 newv
    · exact riscv_cbneStoreStore_rel_ok hn al be csa v expect v2 newv2 newv
    · exact ppc_cbneStoreStore_ok hn al be csa v expect v2 newv2 newv
    · exact ppc_cbneStoreStore_rel_ok hn al be csa v expect v2 newv2 newv
    · exact s390_cbneStoreStore_ok hn al be csa v expect v2 newv2 newv
    · exact s390_cbneStoreStore_ok hn al be csa v expect v2 newv2 newv
    · exact mips_cbneStoreStore_ok hn al be csa v expect v2 newv2 newv
    · exact mips_cbneStoreStore_rel_ok hn al be csa v expect v2 newv2 newv
    · exact loongarch_cbneStoreStore_ok hn al be csa v expect v2 newv2 newv
    · exact loongarch_cbneStoreStore_rel_ok hn al be csa v expect v2 newv2 newv
    · exact arm_cbneStoreStore_ok hn al be csa v expect v2 newv2 newv
    · exact arm_cbneStoreStore_rel_ok hn al be csa v expect v2 newv2 newv
  | cbneMemcpyStore v expect dst src len newv =>
    obtain ⟨hno, ho⟩ := hok
    cases arch <;> cases rel <;> simp only [program, Op.kind, Option.some.injEq] at hp <;>
      subst hp
    · exact x86_64_cbneMemcpyStore_ok hn al be csa v expect dst src len newv hno (ho rfl)
    · exact x86_64_cbneMemcpyStore_ok hn al be csa v expect dst src len newv hno (ho rfl)
    · exact i386_cbneMemcpyStore_ok hn al be csa v expect dst src len newv hno
    · exact i386_cbneMemcpyStore_rel_ok hn al be csa v expect dst src len newv hno
    · exact aarch64_cbneMemcpyStore_ok hn al be csa v expect dst src len newv hno
    · exact aarch64_cbneMemcpyStore_rel_ok hn al be csa v expect dst src len newv hno
    · exact riscv_cbneMemcpyStore_ok hn al be csa v expect dst src len newv hno
    · exact riscv_cbneMemcpyStore_rel_ok hn al be csa v expect dst src len newv hno
    · exact ppc_cbneMemcpyStore_ok hn al be csa v expect dst src len newv hno
    · exact ppc_cbneMemcpyStore_rel_ok hn al be csa v expect dst src len newv hno
    · exact s390_cbneMemcpyStore_ok hn al be csa v expect dst src len newv hno (ho rfl)
    · exact s390_cbneMemcpyStore_ok hn al be csa v expect dst src len newv hno (ho rfl)
    · exact mips_cbneMemcpyStore_ok hn al be csa v expect dst src len newv hno (ho rfl)
    · exact mips_cbneMemcpyStore_rel_ok hn al be csa v expect dst src len newv hno (ho rfl)
    · exact loongarch_cbneMemcpyStore_ok hn al be csa v expect dst src len newv hno (ho rfl)
    · exact loongarch_cbneMemcpyStore_rel_ok hn al be csa v expect dst src len newv hno (ho rfl)
    · exact arm_cbneMemcpyStore_ok hn al be csa v expect dst src len newv hno
    · exact arm_cbneMemcpyStore_rel_ok hn al be csa v expect dst src len newv hno

/-- Which helpers exist: the release variants only for the two helpers with an attempt store, and
`rseq_load_add_load_load_add_store` only on x86-64. -/
theorem program_exists_iff (al : Opnd → Nat) (be : Bool) (csa : W n) (arch : Arch) (k : Kind)
    (rel : Bool) :
    (program al be csa arch k rel).isSome = true ↔
      (rel = true → k = .cbneStoreStore ∨ k = .cbneMemcpyStore) ∧
      (k = .addLoadLoadAddStore → arch = .x86_64) := by
  cases arch <;> cases k <;> cases rel <;> simp [program]

/-! ### The execution of a helper is deterministic, so `Returns` names one outcome -/

theorem run_ret (p : Prog n) (fv : BitVec 32) (k : Nat) (s : LSt n × Mem n) (r : Int)
    (h : s.1.pc = .ret r) : run p fv k s = s := by
  induction k with
  | zero => rfl
  | succ k ih =>
    have : step p fv s = s := by unfold step; rw [h]
    simp only [run]; rw [this]; exact ih

theorem Returns.unique {p : Prog n} {fv : BitVec 32} {clob : List Nat} {l : LSt n} {m m1 m2 : Mem n}
    {r1 r2 : Int} (h1 : Returns p fv clob l m r1 m1) (h2 : Returns p fv clob l m r2 m2) :
    r1 = r2 ∧ m1 = m2 := by
  obtain ⟨k1, a1, b1, -⟩ := h1
  obtain ⟨k2, a2, b2, -⟩ := h2
  have e1 : run p fv (k1 + k2) (l, m) = run p fv k1 (l, m) := by
    rw [run_add, run_ret p fv k2 _ r1 a1]
  have e2 : run p fv (k1 + k2) (l, m) = run p fv k2 (l, m) := by
    rw [Nat.add_comm, run_add, run_ret p fv k1 _ r2 a2]
  have e := e1.symm.trans e2
  rw [e] at a1 b1
  rw [a1] at a2
  exact ⟨by injection a2, b1.symm.trans b2⟩

/-! ### Example -/

/-- A register assignment with every operand in a register of its own. -/
def exAl : Opnd → Nat
  | .cpu => 50 | .v => 51 | .expect => 52 | .newv => 53 | .expectnot => 54 | .voffp => 55
  | .load => 56 | .count => 57 | .v2 => 58 | .expect2 => 59 | .newv2 => 60 | .dst => 61
  | .src => 62 | .len => 63 | .ptr => 64 | .off => 65 | .inc => 66

theorem exAl_own : OwnRegs exAl := by constructor <;> decide

/-- Local state in which operands of `op` are in the registers given by `inv` and in their slots. -/
def entry (inv : Nat → Option Opnd) (op : Op n) (cpu : BitVec 32) : LSt n where
  regs x := match inv x with
    | some .cpu => cpu.signExtend (8 * n)
    | some o => (op.val o).getD 0#(8 * n)
    | none => 0#(8 * n)
  slots x := match x with
    | 0 => (op.val .expect).getD 0#(8 * n)
    | 1 => (op.val .newv).getD 0#(8 * n)
    | 2 => (op.val .dst).getD 0#(8 * n)
    | 3 => (op.val .src).getD 0#(8 * n)
    | 4 => (op.val .len).getD 0#(8 * n)
    | _ => 0#(8 * n)
  zf := false
  pc := .at 0

/-- Inverse of `exAl`. -/
def exInv : Nat → Option Opnd
  | 50 => some .cpu | 51 => some .v | 52 => some .expect | 53 => some .newv | 54 => some .expectnot
  | 55 => some .voffp | 56 => some .load | 57 => some .count | 58 => some .v2 | 59 => some .expect2
  | 60 => some .newv2 | 61 => some .dst | 62 => some .src | 63 => some .len | 64 => some .ptr
  | 65 => some .off | 66 => some .inc | _ => none

theorem exAl_free (arch : Arch) (k : Kind) (o : Opnd) : exAl o ∉ clobbers arch k := by
  cases o <;> cases arch <;> cases k <;> decide

theorem op_val_cpu (op : Op n) : op.val .cpu = none := by cases op <;> rfl

/-- Every call can be set up: the hypotheses of `helpers_implement_pseudocode` are satisfiable for
every architecture, helper, argument and CPU number. -/
theorem entry_setup (hn : 4 ≤ n) (arch : Arch) (op : Op n) (cpu : BitVec 32) :
    Setup (clobbers arch op.kind) (signExt arch) exAl op cpu (entry exInv op cpu) where
  pc := rfl
  reg := by
    intro o x h
    cases o <;> first | (rw [op_val_cpu] at h; exact absurd h (by simp)) | simp [entry, exAl, exInv, h]
  slot := by
    intro o x h h5
    cases o <;> first | (simp [slotOf] at h5; done) | simp [entry, slotOf, h]
  free := by
    intro o x _
    exact exAl_free arch op.kind o
  freeCpu := exAl_free arch op.kind .cpu
  cpuV := by
    show (cpu.signExtend (8 * n)).setWidth 32 = cpu
    exact setWidth32_signExtend hn cpu
  cpuS := by intro _; rfl

/-- Concrete call: copy two bytes from 0x3000 to 0x2000, then store 0x55 at 0x1000, which must contain 0. -/
def exOp : Op 8 := .cbneMemcpyStore 0x1000#64 0#64 0x2000#64 0x3000#64 2#64 0x55#64

theorem exOp_ok (arch : Arch) : CallOK arch exAl exOp := by
  refine ⟨?_, fun _ => exAl_own⟩
  intro i j hi hj
  have hi : i < 2 := hi
  have hj : j < 2 := hj
  have : ∀ i : Fin 2, ∀ j : Fin 2,
      0x3000#64 + BitVec.ofNat 64 i.1 ≠ 0x2000#64 + BitVec.ofNat 64 j.1 := by decide
  exact this ⟨i, hi⟩ ⟨j, hj⟩

/-- The example satisfies the theorem's hypotheses on every architecture and commits: it returns 0 and
its memory differs from the old one. -/
theorem ex_memcpy_commits (arch : Arch) (rel be : Bool) (csa : W 8) (p : Prog 8)
    (hp : program exAl be csa arch .cbneMemcpyStore rel = some p) (cpu : BitVec 32) :
    Returns p cpu (clobbers arch .cbneMemcpyStore) (entry exInv exOp cpu)
      (fun _ => 0#8) 0 (stw p.be (memcpy (fun _ => 0#8) 0x2000#64 0x3000#64 2#64) 0x1000#64 0x55#64) := by
  have h := (helpers_implement_pseudocode (by decide) arch rel be exAl csa exOp p hp (exOp_ok arch)
    cpu cpu _ (fun _ => 0#8) (entry_setup (by decide) arch exOp cpu)).1 rfl
  have hb : ldw p.be (fun _ => 0#8 : Mem 8) 0x1000#64 = 0#64 := by
    cases p.be <;> decide
  have e : pseudo p.be exOp (fun _ => 0#8) =
      (0, stw p.be (memcpy (fun _ => 0#8) 0x2000#64 0x3000#64 2#64) 0x1000#64 0x55#64) := by
    simp [pseudo, exOp, hb]
  rw [e] at h
  exact h

/-! ### F24: two input operands in one register -/

/-- The compiler may keep `newv` and `dst` in one register when they have the same value: both are
inputs of the assembly. -/
def shareAl : Opnd → Nat
  | .newv => 61
  | o => exAl o

/-- `newv = dst`: store a pointer to the copied data, as any user of a "copy then publish" helper
might. -/
def shareOp : Op 8 := .cbneMemcpyStore 0x1000#64 0#64 0x2000#64 0x3000#64 2#64 0x2000#64

theorem share_setup (arch : Arch) :
    Setup (clobbers arch .cbneMemcpyStore) (signExt arch) shareAl shareOp 0#32
      (entry exInv shareOp 0#32) where
  pc := rfl
  reg := by
    intro o x h
    cases o <;> first
      | (rw [op_val_cpu] at h; exact absurd h (by simp))
      | (simp [shareOp, Op.val] at h; done)
      | (simp [entry, shareAl, exAl, exInv, h]; done)
      | (simp only [shareOp, Op.val, Option.some.injEq] at h; subst h; rfl)
  slot := by
    intro o x h h5
    cases o <;> first | (simp [slotOf] at h5; done) | simp [entry, slotOf, h]
  free := by
    intro o x _
    cases o <;> cases arch <;> decide
  freeCpu := by cases arch <;> decide
  cpuV := by decide
  cpuS := by intro _; rfl

/-- **F24.** On x86-64, s390, mips and loongarch the memory-copy helper does not implement its
pseudo-code when the compiler assigns `newv` and `dst`, which have the same value, to one register:
the loop advances the register and the final store writes `dst + len`.  The precondition `OwnRegs`,
which nothing in the C source enforces, is needed. -/
theorem shared_register_breaks_memcpy (arch : Arch) (hm : modifiesInputs arch = true) (rel : Bool)
    (p : Prog 8) (hp : program shareAl false 0#64 arch .cbneMemcpyStore rel = some p) :
    ¬ Implements p (clobbers arch .cbneMemcpyStore) (signExt arch) shareAl shareOp := by
  intro h
  obtain ⟨k, h1, h2, -⟩ := (h 0#32 0#32 _ (fun _ => 0#8) (share_setup arch)).1 rfl
  have key : (run p 0#32 40 (entry exInv shareOp 0#32, fun _ => 0#8)).1.pc = .ret 0 ∧
      (run p 0#32 40 (entry exInv shareOp 0#32, fun _ => 0#8)).2 0x1000#64 = 2#8 ∧
      p.be = false := by
    cases arch <;> cases rel <;> simp only [modifiesInputs, Bool.false_eq_true] at hm <;>
      simp only [program, Option.some.injEq] at hp <;> subst hp <;>
      refine ⟨?_, ?_, ?_⟩ <;> decide
  obtain ⟨k1, k2, k3⟩ := key
  have e : run p 0#32 k (entry exInv shareOp 0#32, fun _ => 0#8) =
      run p 0#32 40 (entry exInv shareOp 0#32, fun _ => 0#8) := by
    have e1 := run_add p 0#32 k 40 (entry exInv shareOp 0#32, fun _ => 0#8)
    rw [run_ret p _ 40 _ _ h1] at e1
    have e2 := run_add p 0#32 40 k (entry exInv shareOp 0#32, fun _ => 0#8)
    rw [run_ret p _ k _ _ k1, Nat.add_comm] at e2
    exact e1.symm.trans e2
  rw [e] at h2
  have h3 := congrFun h2 0x1000#64
  rw [k2, k3] at h3
  exact absurd h3 (by decide)

end Verif.Rseq
