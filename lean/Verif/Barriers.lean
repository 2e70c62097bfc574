import Mathlib.Logic.Relation
import Verif.RseqPseudo
/-
Memory barrier macros on each architecture.

Models `rseq_smp_mb`, `rseq_smp_rmb`, `rseq_smp_wmb`, `rseq_smp_load_acquire`,
`rseq_smp_store_release` and `rseq_smp_acquire__after_ctrl_dep` of `include/rseq/arch/*.h`, and
`RSEQ_READ_ONCE`/`RSEQ_WRITE_ONCE` (compiler.h:33-36), as sequences of instructions.

A run is described axiomatically: each thread is a list of operations, with the values it read and
wrote; `rf` says which store each load read from; `co` orders the stores to each location.
An architecture allows some runs and forbids the others.

* x86, s390, aarch64 and riscv: one global order.  `ppo`, fences, and communication between threads
  have no cycle.
* ppc, arm, mips and loongarch: a store may reach other CPUs at different times.  The four rules of
  Alglave, Maranget and Tautschnig ("Herding Cats", 2014) with `sync`/`dmb`/`dbar 0x10` as full fences.

Simplifications:
* Accesses have one size and locations do not overlap.
* The compiler keeps the order of volatile accesses and of `asm volatile` with a memory clobber.
* `ppo` has only what the macros need: control dependencies to stores, `ldar`/`stlr`, and the store
  buffer order of x86 and s390.  The real architectures order more pairs, so they allow fewer runs.
* `rseq_barrier` (compiler.h:19) emits no instruction.
-/

namespace Verif.Barrier

open Relation (TransGen ReflTransGen)
open Verif.Rseq (Arch)

/-- Operations of a thread in C, with the location and the value read or written. -/
inductive Op
  /-- `RSEQ_READ_ONCE` or the load of an rseq helper -/
  | load (x : Nat) (v : Int)
  /-- `RSEQ_WRITE_ONCE` or the store of an rseq helper -/
  | store (x : Nat) (v : Int)
  | loadAcquire (x : Nat) (v : Int)
  | storeRelease (x : Nat) (v : Int)
  | mb | rmb | wmb
  /-- conditional jump on the value that operation `k` of this thread loaded -/
  | branch (k : Nat)
  /-- `rseq_smp_acquire__after_ctrl_dep` -/
  | acqCtrl
  deriving DecidableEq, Repr

/-- Barrier instructions. -/
inductive Bar
  /-- x86 `lock; addl` -/
  | lockAdd
  /-- s390 `bcr 15,0` -/
  | bcr
  /-- aarch64 -/
  | dmbIsh | dmbIshld | dmbIshst
  /-- arm -/
  | dmb
  /-- ppc `sync` -/
  | sync
  /-- ppc `lwsync` -/
  | lwsync
  /-- mips `sync` -/
  | mipsSync
  /-- riscv `fence p,s`: earlier reads, earlier writes, later reads, later writes -/
  | fence (pr pw sr sw : Bool)
  /-- loongarch `dbar hint` -/
  | dbar (hint : Nat)
  deriving DecidableEq, Repr

/-- Machine instructions. -/
inductive Instr
  | ld (x : Nat) (v : Int)
  | st (x : Nat) (v : Int)
  /-- aarch64 load-acquire -/
  | ldar (x : Nat) (v : Int)
  /-- aarch64 store-release -/
  | stlr (x : Nat) (v : Int)
  | bar (b : Bar)
  | br (k : Nat)
  deriving DecidableEq, Repr

/-! ### The macros -/

/-- `rseq_smp_mb` -/
def mbI : Arch → List Instr
  | .x86_64 | .i386 => [.bar .lockAdd]                    -- x86.h:49-50
  | .s390 => [.bar .bcr]                                  -- s390.h:33
  | .aarch64 => [.bar .dmbIsh]                            -- aarch64.h:39
  | .arm => [.bar .dmb]                                   -- arm.h:78
  | .ppc => [.bar .sync]                                  -- ppc.h:34
  | .mips => [.bar .mipsSync]                             -- mips.h:64
  | .riscv => [.bar (.fence true true true true)]         -- riscv.h:56
  | .loongarch => [.bar (.dbar 0x10)]                     -- loongarch.h:38

/-- `rseq_smp_rmb` -/
def rmbI : Arch → List Instr
  | .x86_64 | .i386 => []                                 -- x86.h:52
  | .s390 => mbI .s390                                    -- s390.h:35
  | .aarch64 => [.bar .dmbIshld]                          -- aarch64.h:41
  | .arm => [.bar .dmb]                                   -- arm.h:80
  | .ppc => [.bar .lwsync]                                -- ppc.h:38
  | .mips => mbI .mips                                    -- mips.h:66
  | .riscv => [.bar (.fence true false true false)]       -- riscv.h:58
  | .loongarch => [.bar (.dbar 0x15)]                     -- loongarch.h:40

/-- `rseq_smp_wmb` -/
def wmbI : Arch → List Instr
  | .x86_64 | .i386 => []                                 -- x86.h:54
  | .s390 => mbI .s390                                    -- s390.h:37
  | .aarch64 => [.bar .dmbIshst]                          -- aarch64.h:43
  | .arm => [.bar .dmb]                                   -- arm.h:82
  | .ppc => [.bar .lwsync]                                -- ppc.h:40
  | .mips => mbI .mips                                    -- mips.h:68
  | .riscv => [.bar (.fence false true false true)]       -- riscv.h:60
  | .loongarch => [.bar (.dbar 0x1a)]                     -- loongarch.h:42

/-- `rseq_smp_load_acquire` -/
def loadAcquireI (a : Arch) (x : Nat) (v : Int) : List Instr :=
  match a with
  | .x86_64 | .i386 => [.ld x v]                          -- x86.h:57-62
  | .s390 => [.ld x v]                                    -- s390.h:40-45
  | .aarch64 => [.ldar x v]                               -- aarch64.h:46-72
  | .arm => [.ld x v] ++ mbI .arm                         -- arm.h:85-90
  | .ppc => [.ld x v, .bar .lwsync]                       -- ppc.h:43-48
  | .mips => [.ld x v] ++ mbI .mips                       -- mips.h:71-76
  | .riscv => [.ld x v, .bar (.fence true false true true)]   -- riscv.h:63-68
  | .loongarch => [.ld x v, .bar (.dbar 0x14)]            -- loongarch.h:45-50

/-- `rseq_smp_store_release` -/
def storeReleaseI (a : Arch) (x : Nat) (v : Int) : List Instr :=
  match a with
  | .x86_64 | .i386 => [.st x v]                          -- x86.h:68-72
  | .s390 => [.st x v]                                    -- s390.h:51-55
  | .aarch64 => [.stlr x v]                               -- aarch64.h:78-108
  | .arm => mbI .arm ++ [.st x v]                         -- arm.h:96-100
  | .ppc => [.bar .lwsync, .st x v]                       -- ppc.h:54-58
  | .mips => mbI .mips ++ [.st x v]                       -- mips.h:82-86
  | .riscv => [.bar (.fence true true false true), .st x v]   -- riscv.h:74-78
  | .loongarch => [.bar (.dbar 0x12), .st x v]            -- loongarch.h:56-60

/-- `rseq_smp_acquire__after_ctrl_dep` -/
def acqCtrlI : Arch → List Instr
  | .ppc => [.bar .lwsync]                                -- ppc.h:51
  | a => rmbI a                                           -- x86.h:65, aarch64.h:75, arm.h:93, riscv.h:71, ...

/-- Instructions of an operation. -/
def expand (a : Arch) : Op → List Instr
  | .load x v => [.ld x v]
  | .store x v => [.st x v]
  | .loadAcquire x v => loadAcquireI a x v
  | .storeRelease x v => storeReleaseI a x v
  | .mb => mbI a
  | .rmb => rmbI a
  | .wmb => wmbI a
  | .branch k => [.br k]
  | .acqCtrl => acqCtrlI a

/-! ### What the barrier instructions order -/

/-- Read or write. -/
inductive RW
  | r | w
  deriving DecidableEq, Repr

/-- Does the barrier keep an earlier access of kind `k1` before a later access of kind `k2`?
From the architecture manuals; `dbar` as in Linux `arch/loongarch/include/asm/barrier.h`: hint bits
3..0 are clear for an ordered earlier read, earlier write, later read, later write. -/
def Bar.orders (b : Bar) (k1 k2 : RW) : Bool :=
  match b with
  | .lockAdd | .bcr | .dmbIsh | .dmb | .sync | .mipsSync => true
  | .dmbIshld => k1 == .r
  | .dmbIshst => k1 == .w && k2 == .w
  | .lwsync => !(k1 == .w && k2 == .r)
  | .fence pr pw sr sw =>
    (match k1 with | .r => pr | .w => pw) && (match k2 with | .r => sr | .w => sw)
  | .dbar h =>
    (match k1 with | .r => !h.testBit 3 | .w => !h.testBit 2) &&
    (match k2 with | .r => !h.testBit 1 | .w => !h.testBit 0)

/-- Full fences. -/
def Bar.full (b : Bar) : Bool :=
  b.orders .r .r && b.orders .r .w && b.orders .w .r && b.orders .w .w

/-- Fences that also order what the earlier reads saw: they order reads and writes before writes. -/
def Bar.cumulative (b : Bar) : Bool := b.orders .r .w && b.orders .w .w

/-! ### Runs -/

/-- An access: operation number `k` of thread `t`. -/
structure Ev where
  t : Nat
  k : Nat
  deriving DecidableEq, Repr

/-- A run. -/
structure Exec where
  ops : Nat → List Op
  /-- initial memory -/
  init : Nat → Int
  /-- `rf w r`: load `r` got its value from store `w` -/
  rf : Ev → Ev → Prop
  /-- order of the stores to each location -/
  co : Ev → Ev → Prop

/-- Instruction `p.2` of operation `p.1` of thread `t`. -/
def ins (a : Arch) (X : Exec) (t : Nat) (p : Nat × Nat) : Option Instr :=
  ((X.ops t)[p.1]?).bind fun o => (expand a o)[p.2]?

/-- Order of instructions in a thread. -/
def Before (p q : Nat × Nat) : Prop := p.1 < q.1 ∨ (p.1 = q.1 ∧ p.2 < q.2)

/-- Location and value of a load instruction. -/
def Instr.read : Instr → Option (Nat × Int)
  | .ld x v | .ldar x v => some (x, v)
  | _ => none

/-- Location and value of a store instruction. -/
def Instr.write : Instr → Option (Nat × Int)
  | .st x v | .stlr x v => some (x, v)
  | _ => none

/-- Kind of access of an instruction. -/
def Instr.rw : Instr → Option RW
  | .ld _ _ | .ldar _ _ => some .r
  | .st _ _ | .stlr _ _ => some .w
  | _ => none

/-- `e` loads `v` from `x`. -/
def Reads (a : Arch) (X : Exec) (e : Ev) (x : Nat) (v : Int) : Prop :=
  ∃ j i, ins a X e.t (e.k, j) = some i ∧ i.read = some (x, v)

/-- `e` stores `v` to `x`. -/
def Writes (a : Arch) (X : Exec) (e : Ev) (x : Nat) (v : Int) : Prop :=
  ∃ j i, ins a X e.t (e.k, j) = some i ∧ i.write = some (x, v)

/-- Instruction `j` of `e` is an access of kind `k`. -/
def Acc (a : Arch) (X : Exec) (e : Ev) (j : Nat) (k : RW) : Prop :=
  ∃ i, ins a X e.t (e.k, j) = some i ∧ i.rw = some k

/-- `rf` and `co` fit the values. -/
structure WF (a : Arch) (X : Exec) : Prop where
  rf_val : ∀ w r, X.rf w r → ∃ x v, Writes a X w x v ∧ Reads a X r x v
  rf_one : ∀ w w' r, X.rf w r → X.rf w' r → w = w'
  rf_init : ∀ r x v, Reads a X r x v → (∀ w, ¬ X.rf w r) → v = X.init x
  co_loc : ∀ w w', X.co w w' → ∃ x v v', Writes a X w x v ∧ Writes a X w' x v'
  co_irrefl : ∀ w, ¬ X.co w w
  co_trans : ∀ w w' w'', X.co w w' → X.co w' w'' → X.co w w''
  co_total : ∀ w w' x v v', Writes a X w x v → Writes a X w' x v' → w ≠ w' → X.co w w' ∨ X.co w' w

/-- `r` read an older value than `w` stored. -/
def Fr (a : Arch) (X : Exec) (r w : Ev) : Prop :=
  ∃ x v v', Reads a X r x v ∧ Writes a X w x v' ∧ ∀ w0, X.rf w0 r → X.co w0 w

/-- Communication. -/
def Com (a : Arch) (X : Exec) (e1 e2 : Ev) : Prop := X.rf e1 e2 ∨ X.co e1 e2 ∨ Fr a X e1 e2

/-- Between different threads. -/
def Ext (R : Ev → Ev → Prop) (e1 e2 : Ev) : Prop := R e1 e2 ∧ e1.t ≠ e2.t

/-- Program order between accesses to one location. -/
def PoLoc (a : Arch) (X : Exec) (e1 e2 : Ev) : Prop :=
  e1.t = e2.t ∧ e1.k < e2.k ∧ ∃ x, (∃ v, Reads a X e1 x v ∨ Writes a X e1 x v) ∧
    ∃ v, Reads a X e2 x v ∨ Writes a X e2 x v

/-- Barrier instruction `b` between two accesses of the given kinds. -/
def Between (a : Arch) (X : Exec) (b : Bar) (k1 k2 : RW) (e1 e2 : Ev) : Prop :=
  e1.t = e2.t ∧ ∃ j1 j2 p, Acc a X e1 j1 k1 ∧ Acc a X e2 j2 k2 ∧
    ins a X e1.t p = some (.bar b) ∧ Before (e1.k, j1) p ∧ Before p (e2.k, j2)

/-- Ordered by a barrier instruction. -/
def Fenced (a : Arch) (X : Exec) (e1 e2 : Ev) : Prop :=
  ∃ b k1 k2, Between a X b k1 k2 e1 e2 ∧ b.orders k1 k2 = true

/-- Ordered by a cumulative barrier. -/
def CFenced (a : Arch) (X : Exec) (e1 e2 : Ev) : Prop :=
  ∃ b k1 k2, Between a X b k1 k2 e1 e2 ∧ b.orders k1 k2 = true ∧ b.cumulative = true

/-- Separated by a full fence. -/
def FFenced (a : Arch) (X : Exec) (e1 e2 : Ev) : Prop :=
  ∃ b k1 k2, Between a X b k1 k2 e1 e2 ∧ b.full = true

/-- Control dependency from a load to a store. -/
def Ctrl (a : Arch) (X : Exec) (e1 e2 : Ev) : Prop :=
  e1.t = e2.t ∧ ∃ j1 j2 p, Acc a X e1 j1 .r ∧ Acc a X e2 j2 .w ∧
    ins a X e1.t p = some (.br e1.k) ∧ Before (e1.k, j1) p ∧ Before p (e2.k, j2)

/-- `ldar` before everything later, everything earlier before `stlr`. -/
def AcqRel (a : Arch) (X : Exec) (e1 e2 : Ev) : Prop :=
  e1.t = e2.t ∧ ∃ j1 j2 k1 k2, Acc a X e1 j1 k1 ∧ Acc a X e2 j2 k2 ∧ Before (e1.k, j1) (e2.k, j2) ∧
    ((∃ x v, ins a X e1.t (e1.k, j1) = some (.ldar x v)) ∨
      ∃ x v, ins a X e2.t (e2.k, j2) = some (.stlr x v))

/-- x86 and s390: only a store followed by a load may be exchanged. -/
def tso : Arch → Bool
  | .x86_64 | .i386 | .s390 => true
  | _ => false

def StoreBuffer (a : Arch) (X : Exec) (e1 e2 : Ev) : Prop :=
  tso a = true ∧ e1.t = e2.t ∧ ∃ j1 j2 k1 k2, Acc a X e1 j1 k1 ∧ Acc a X e2 j2 k2 ∧
    Before (e1.k, j1) (e2.k, j2) ∧ ¬ (k1 = .w ∧ k2 = .r)

/-- Preserved program order. -/
def Ppo (a : Arch) (X : Exec) (e1 e2 : Ev) : Prop :=
  Ctrl a X e1 e2 ∨ AcqRel a X e1 e2 ∨ StoreBuffer a X e1 e2

/-- Ordered in the thread, or read from another thread. -/
def Hb (a : Arch) (X : Exec) (e1 e2 : Ev) : Prop :=
  Ppo a X e1 e2 ∨ Fenced a X e1 e2 ∨ Ext X.rf e1 e2

/-- Order in which stores must reach other CPUs, first part. -/
def PropBase (a : Arch) (X : Exec) (e1 e2 : Ev) : Prop :=
  (∃ f, Fenced a X e1 f ∧ ReflTransGen (Hb a X) f e2) ∨
    ∃ r f, Ext X.rf e1 r ∧ CFenced a X r f ∧ ReflTransGen (Hb a X) f e2

/-- Order in which stores must reach other CPUs. -/
def Prop' (a : Arch) (X : Exec) (e1 e2 : Ev) : Prop :=
  (PropBase a X e1 e2 ∧ (∃ j, Acc a X e1 j .w) ∧ ∃ j, Acc a X e2 j .w) ∨
    ∃ b c d, ReflTransGen (Com a X) e1 b ∧ ReflTransGen (PropBase a X) b c ∧ FFenced a X c d ∧
      ReflTransGen (Hb a X) d e2

/-- No cycle. -/
def Acyclic (R : Ev → Ev → Prop) : Prop := ∀ e, ¬ TransGen R e e

/-- Architectures whose stores reach all other CPUs at once. -/
def multiCopy : Arch → Bool
  | .x86_64 | .i386 | .s390 | .aarch64 | .riscv => true
  | .ppc | .arm | .mips | .loongarch => false

/-- The run is possible on the architecture. -/
structure Allowed (a : Arch) (X : Exec) : Prop where
  wf : WF a X
  /-- each location alone behaves sequentially -/
  perLoc : Acyclic (fun e1 e2 => PoLoc a X e1 e2 ∨ Com a X e1 e2)
  /-- one global order -/
  ghb : multiCopy a = true → Acyclic (fun e1 e2 => Hb a X e1 e2 ∨ Ext (Com a X) e1 e2)
  noThinAir : Acyclic (Hb a X)
  observation : multiCopy a = false →
    ∀ r w w', Ext (Fr a X) r w → Prop' a X w w' → ¬ ReflTransGen (Hb a X) w' r
  propagation : multiCopy a = false → Acyclic (fun e1 e2 => X.co e1 e2 ∨ Prop' a X e1 e2)

end Verif.Barrier
