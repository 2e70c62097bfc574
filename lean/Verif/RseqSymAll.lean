import Verif.RseqSymSound
import Verif.RseqTaint
/-
All helper programs follow the pseudo-code's tree of accesses.
-/

namespace Verif.Rseq

variable {n : Nat}

/-- Only aarch64 copies from the end. -/
def backwards : Arch → Bool
  | .aarch64 => true
  | _ => false

/-- The form of an operand. -/
def lop (o : Opnd) : Lin := lat (oix o)

/-- These read the head of the list again after comparing it (aarch64/bits.h:93 and 99, riscv/bits.h:83 and 89,
ppc/bits.h:103 and 112). -/
def rereads : Arch → Bool
  | .aarch64 | .riscv | .ppc => true
  | _ => false

/-- The tree of a helper over linear forms. -/
def Kind.stree (b re : Bool) : Kind → STree
  | .cbneStore => .ldw (lop .v) 19 (.ifz (lsub (lat 19) (lop .expect)) (.stw (lop .v) (lop .newv) (.ret 0)) (.ret 1))
  | .addStore => .ldw (lop .v) 19 (.stw (lop .v) (ladd (lat 19) (lop .count)) (.ret 0))
  | .cbeqStoreAddLoadStore => .ldw (lop .v) 19 (.ifz (lsub (lat 19) (lop .expectnot)) (.ret 1)
      (if re = true then .ldw (lop .v) 20
        (.stw (lop .load) (lat 20) (.ldw (ladd (lat 20) (lop .voffp)) 21 (.stw (lop .v) (lat 21) (.ret 0))))
      else .stw (lop .load) (lat 19) (.ldw (ladd (lat 19) (lop .voffp)) 20 (.stw (lop .v) (lat 20) (.ret 0)))))
  | .addLoadLoadAddStore => .ldw (lop .ptr) 19 (.ldw (ladd (lat 19) (lop .off)) 20
      (.ldw (lat 20) 21 (.stw (lat 20) (ladd (lat 21) (lop .inc)) (.ret 0))))
  | .cbneCbneStore => .ldw (lop .v) 19 (.ifz (lsub (lat 19) (lop .expect))
      (.ldw (lop .v2) 20 (.ifz (lsub (lat 20) (lop .expect2)) (.stw (lop .v) (lop .newv) (.ret 0)) (.ret 1)))
      (.ret 1))
  | .cbneStoreStore => .ldw (lop .v) 19 (.ifz (lsub (lat 19) (lop .expect))
      (.stw (lop .v2) (lop .newv2) (.stw (lop .v) (lop .newv) (.ret 0))) (.ret 1))
  | .cbneMemcpyStore => .ldw (lop .v) 19 (.ifz (lsub (lat 19) (lop .expect))
      (.copy b (if b = true then lop .len else lcst 0)) (.ret 1))

/-- The symbolic state on entry. -/
def sy0 (b re : Bool) (k : Kind) : Sy where
  pc := .at 0
  regs := k.opnds.map fun o => (sym o, lop o)
  slots := (k.opnds.filter fun o => slotOf o != 5).map fun o => (slotOf o, lop o)
  zf := none
  tree := k.stree b re

/-- Registers at the head of the copy loop. -/
def headRegs : Arch → List (Nat × Lin)
  | .x86_64 | .s390 | .mips | .loongarch =>
    [(sym .v, lop .v), (sym .newv, lop .newv), (sym .src, ladd (lop .src) (lat 1)),
      (sym .dst, ladd (lop .dst) (lat 1)), (sym .len, lsub (lop .len) (lat 1))]
  | .i386 => [(sym .v, lop .v), (rbx, ladd (lop .dst) (lat 1)), (rcx, ladd (lop .src) (lat 1)),
      (rdx, lsub (lop .len) (lat 1))]
  | .aarch64 => [(sym .v, lop .v), (sym .newv, lop .newv), (sym .src, lop .src), (sym .dst, lop .dst), (x14, lat 1)]
  | .riscv => [(sym .v, lop .v), (sym .newv, lop .newv), (t6, lsub (lop .len) (lat 1)),
      (t5, ladd (lop .src) (lat 1)), (t4, ladd (lop .dst) (lat 1))]
  | .ppc => [(sym .v, lop .v), (sym .newv, lop .newv), (r19, lsub (lop .len) (lat 1)),
      (r20, ladd (ladd (lop .src) (lat 1)) (lcst (-1))), (r21, ladd (ladd (lop .dst) (lat 1)) (lcst (-1)))]
  | .arm => [(sym .v, lop .v), (a7, lsub (lop .len) (lat 1)), (a6, ladd (lop .src) (lat 1)),
      (a5, ladd (lop .dst) (lat 1))]

/-- The symbolic state at the head of the copy loop. -/
def syH (arch : Arch) (h : Nat) : Sy where
  pc := .at h
  regs := headRegs arch
  slots := [(1, lop .newv)]
  zf := none
  tree := .body (backwards arch) (lat 1)

/-- Target of the backward jump of a program; beyond the program if there is none. -/
def headOf (code : List Instr) : Nat :=
  code.zipIdx.foldl (fun h q => (succs q.2 q.1).foldl (fun h t =>
    match t with
    | .at j => if j ≤ q.2 then j else h
    | .ret _ => h) h) code.length

/-- Writing register `r` certainly leaves `r'` alone: the compiler gives operands no clobbered register, and
the programs that change `src`, `dst` and `len` need these in registers of their own. -/
def sepOK (arch : Arch) (k : Kind) (r r' : Nat) : Bool :=
  r != r' &&
    let c := clobbers arch k
    let ops := k.opnds.map sym
    let sdl := [sym .src, sym .dst, sym .len]
    (c.contains r && (c.contains r' || ops.contains r')) ||
    (k == .cbneMemcpyStore && modifiesInputs arch && sdl.contains r &&
      (c.contains r' || (sym .v :: sym .newv :: sdl).contains r'))

/-- The state is an instance of the one at the loop head. -/
def arrives (σ h : Sy) : Bool :=
  match σ.tree, h.tree with
  | .body b x, .body b' _ => b == b' && h.regs.all (fun q => σ.get q.1 == some (lsubst q.2 x)) &&
      h.slots.all (fun q => σ.slots.lookup q.1 == some (lsubst q.2 x))
  | _, _ => false

/-- All paths from `σ` to a return or to the head of the loop follow the tree. -/
def explore (sep : Nat → Nat → Bool) (code : List Instr) (start commit head : Nat) (loop : Bool) (H : Sy) :
    Nat → Sy → Bool
  | 0, _ => false
  | f + 1, σ =>
    match σ.pc with
    | .ret r => if r = -1 then σ.tree.not0 else σ.tree == .ret r
    | .at i =>
      (!(Nat.ble start i && Nat.blt i commit) || σ.tree.not0) &&
      match code[i]? with
      | none => false
      | some ins =>
        match σ.step sep i ins with
        | none => false
        | some L => L.all fun σ' =>
          if loop = true ∧ σ'.pc = .at head then arrives σ' H else explore sep code start commit head loop H f σ'

/-- Only the memory copy loops. -/
def loops (k : Kind) : Bool := k == .cbneMemcpyStore

/-- All paths from `σ` follow the tree. -/
def follows (arch : Arch) (k : Kind) (code : List Instr) (start commit f : Nat) (σ : Sy) : Bool :=
  explore (sepOK arch k) code start commit (headOf code) (loops k) (syH arch (headOf code)) f σ

/-- The check of a program. -/
def treeOK (arch : Arch) (k : Kind) (code : List Instr) (start commit : Nat) : Bool :=
  follows arch k code start commit 60 (sy0 (backwards arch) (rereads arch) k) &&
  (!loops k || follows arch k code start commit 60 (syH arch (headOf code)))

theorem all_tree8 : ∀ (arch : Arch) (k : Kind) (rel : Bool),
    ∀ p ∈ program sym false (0 : W 8) arch k rel, treeOK arch k p.code p.start p.commit = true := by
  intro arch k rel
  cases arch <;> cases k <;> cases rel <;> intro p hp <;>
    first | (cases hp; done) | (cases hp; decide +kernel)

theorem all_tree (be : Bool) (csa : W n) (arch : Arch) (k : Kind) (rel : Bool) :
    ∀ p ∈ program sym be csa arch k rel, treeOK arch k p.code p.start p.commit = true := by
  intro p hp
  rw [like_program] at hp
  obtain ⟨q, hq, rfl⟩ := Option.map_eq_some_iff.1 hp
  exact all_tree8 arch k rel q hq

end Verif.Rseq
