import Verif.Register
/-
The threads' `struct rseq_abi` areas byte by byte: where they are, what the kernel and the C library store
there, and what the accessors of include/rseq/rseq.h:84-231 read.

`Register.lean` models who is registered; this file adds the address space. `__rseq_abi` (rseq.c:72-76) is a
thread-local variable with the initial-exec model: its distance from the thread pointer is the same in every
thread. Its size is `sizeof(struct rseq_abi)`, 32 bytes (28 bytes of fields rounded up to the alignment 32,
abi.h:60-175); `aligned(1024)` changes the address, not the size.

Simplifications: 32-bit fields are read and written as a whole (they are aligned; RSEQ_READ_ONCE). The
auxiliary vector does not change. Thread numbers are not used again after a thread has exited (its memory may be).
-/
namespace Verif.Area

open Verif.Register (Env Reg Proc Lib featureSize rseqInit minAlloc kRegister kUnregister nodeIdAvailable
  mmCidAvailable currentCpu)

abbrev Byte := BitVec 8
/-- The address space, `n` bits per address. -/
abbrev Mem (n : Nat) := BitVec n → Byte

variable {n : Nat}

/-- Byte `j` of a 32-bit number as stored. -/
def byteOf (be : Bool) (v : BitVec 32) (j : Nat) : Byte := v.extractLsb' (8 * (if be then 3 - j else j)) 8

/-- `RSEQ_READ_ONCE` of a 32-bit field. -/
def ld32 (be : Bool) (m : Mem n) (a : BitVec n) : BitVec 32 :=
  let b := fun j : Nat => m (a + BitVec.ofNat n j)
  if be then (b 0 ++ b 1 ++ b 2 ++ b 3) else (b 3 ++ b 2 ++ b 1 ++ b 0)

/-- Store the given bytes at `a + 0`, `a + 1`, …; positions that `g` does not mention keep their value. -/
def fill (m : Mem n) (a : BitVec n) (g : Nat → Option Byte) : Mem n :=
  fun x => match g (x - a).toNat with
    | some b => b
    | none => m x

/-- Offsets in `struct rseq_abi` (abi.h:60-170). -/
def oCpuIdStart : Nat := 0
def oCpuId : Nat := 4
def oRseqCs : Nat := 8
def oFlags : Nat := 16
def oNodeId : Nat := 20
def oMmCid : Nat := 24
/-- `sizeof(struct rseq_abi)` -/
def abiSize : Nat := 32

/-- What is fixed while the process runs. `tp t` is the thread pointer of thread `t`; `disp` the distance of
`__rseq_abi` from it; `libcOff`, `libcLen` the C library's `*__rseq_offset` and the length of its area; `t0` the
thread that runs `rseq_init`; `ncpu` the number of possible CPUs. -/
structure Layout (n : Nat) where
  env : Env
  be : Bool
  tp : Nat → BitVec n
  disp : BitVec n
  libcOff : BitVec n
  libcLen : Nat
  t0 : Nat
  ncpu : Nat

/-- librseq owns the registration (rseq.c:236-276). -/
def Layout.own (L : Layout n) : Bool := (rseqInit L.env).own

/-- `rseq_offset` after `rseq_init`: rseq.c:244 and 280, computed by thread `t0`. -/
def Layout.offset (L : Layout n) : BitVec n :=
  if L.own then (L.tp L.t0 + L.disp) - L.tp L.t0 else L.libcOff

/-- `rseq_get_abi()` in thread `t` (rseq.h:85-88). -/
def Layout.getAbi (L : Layout n) (t : Nat) : BitVec n := L.tp t + L.offset

/-- The area that is registered for thread `t`: `&__rseq_abi` (rseq.c:164) or the C library's. -/
def Layout.area (L : Layout n) (t : Nat) : BitVec n := L.tp t + (if L.own then L.disp else L.libcOff)

/-- Bytes allocated for an area. -/
def Layout.alloc (L : Layout n) : Nat := if L.own then abiSize else L.libcLen

/-! ### What is stored in an area -/

/-- Where the scheduler has put a thread. -/
structure Place where
  cpu : BitVec 32
  node : BitVec 32
  cid : BitVec 32

/-- What the kernel stores on return to user mode (kernel/rseq.c, `rseq_update_cpu_node_id`): the fields it knows.
`ext` stands for fields after `mm_cid`; the kernel stores them if the registered length covers them. -/
def kImage (be : Bool) (F len : Nat) (p : Place) (ext : Nat → Byte) (o : Nat) : Option Byte :=
  if o < 4 then some (byteOf be p.cpu o)
  else if o < 8 then some (byteOf be p.cpu (o - 4))
  else if o < 20 then none
  else if o < 24 then (if 24 ≤ F then some (byteOf be p.node (o - 20)) else none)
  else if o < 28 then (if 28 ≤ F then some (byteOf be p.cid (o - 24)) else none)
  else if o < F ∧ F ≤ len then some (ext o)
  else none

/-- What the kernel stores on unregistration (`rseq_reset_rseq_cpu_node_id`). -/
def kReset (F : Nat) (o : Nat) : Option Byte :=
  if o < 4 then some 0#8
  else if o < 8 then some 0xff#8
  else if o < 20 then none
  else if o < 24 then (if 24 ≤ F then some 0#8 else none)
  else if o < 28 then (if 28 ≤ F then some 0#8 else none)
  else none

/-- The initial image of the thread-local variable: `.cpu_id = RSEQ_ABI_CPU_ID_UNINITIALIZED` (rseq.c:75), -1; the
C library's area is initialised likewise. -/
def tlsImage (size : Nat) (o : Nat) : Option Byte :=
  if o < size then some (if 4 ≤ o ∧ o < 8 then 0xff#8 else 0#8) else none

/-- The C library records that a registration has failed: `cpu_id = RSEQ_ABI_CPU_ID_REGISTRATION_FAILED`, -2. -/
def failImage (be : Bool) (o : Nat) : Option Byte :=
  if 4 ≤ o ∧ o < 8 then some (byteOf be (-2#32) (o - 4)) else none

/-! ### The process -/

/-- The C library's registration of a thread. -/
inductive LibcReg
  | notYet | ok | failed
  deriving DecidableEq, Repr

structure State (n : Nat) where
  p : Proc
  mem : Mem n
  place : Nat → Place
  alive : Nat → Bool
  born : Nat → Bool
  libc : Nat → LibcReg

def upd {α : Type} (f : Nat → α) (t : Nat) (v : α) : Nat → α := fun x => if x = t then v else f x

variable (L : Layout n)

/-- Address `x` is in the area of thread `t`. -/
def InArea (t : Nat) (x : BitVec n) : Prop := (x - L.area t).toNat < L.alloc

/-- The length with which the area of a thread is registered, if it is. -/
def regLen (s : State n) (t : Nat) : Option Nat :=
  if L.own then (match s.p.kern t with | .ours len => some len | _ => none)
  else (match s.libc t with | .ok => some L.libcLen | _ => none)

/-- Return to user mode. -/
def toUser (s : State n) (t : Nat) (pl : Place) (ext : Nat → Byte) : Mem n :=
  match regLen L s t with
  | some len => fill s.mem (L.area t) (kImage L.be (featureSize L.env) len pl ext)
  | none => s.mem

/-- The scheduler only uses possible CPUs. -/
def PlaceOK (pl : Place) : Prop := pl.cpu.toNat < L.ncpu

/-- Steps in which the kernel stores into the address space. -/
inductive KStep : State n → State n → Prop
  /-- rseq.c:164: the kernel registers the area, and fills it on the way back to user mode -/
  | register (s : State n) (t len : Nat) (ext : Nat → Byte) (ha : s.alive t = true)
      (hab : s.p.aborted = false) (hp : s.p.pc t = .regLen len)
      (hk : kRegister L.env (s.p.kern t) len = true) :
      KStep s { s with
        p := { s.p with kern := Register.upd s.p.kern t (.ours len), pc := Register.upd s.p.pc t .regOk }
        mem := fill s.mem (L.area t) (kImage L.be (featureSize L.env) len (s.place t) ext) }
  /-- rseq.c:198: the kernel unregisters the area -/
  | unregister (s : State n) (t len : Nat) (ha : s.alive t = true) (hab : s.p.aborted = false)
      (hp : s.p.pc t = .unregLen len) (hk : kUnregister L.env (s.p.kern t) len = true) :
      KStep s { s with
        p := { s.p with
          kern := Register.upd s.p.kern t .none
          pc := Register.upd s.p.pc t .idle
          log := .unregRet t 0 :: s.p.log }
        mem := fill s.mem (L.area t) (kReset (featureSize L.env)) }
  /-- the thread is scheduled again, possibly elsewhere -/
  | resume (s : State n) (t : Nat) (pl : Place) (ext : Nat → Byte) (ha : s.alive t = true)
      (hpl : PlaceOK L pl) :
      KStep s { s with place := upd s.place t pl, mem := toUser L s t pl ext }
  /-- the C library registers a new thread -/
  | libcRegister (s : State n) (t : Nat) (ext : Nat → Byte) (ha : s.alive t = true)
      (ho : L.own = false) (hn : s.libc t = .notYet) (hk : L.env.kernelHas = true) :
      KStep s { s with
        libc := upd s.libc t .ok
        mem := fill s.mem (L.area t) (kImage L.be (featureSize L.env) L.libcLen (s.place t) ext) }

inductive Step : State n → State n → Prop
  /-- a step of a library call that registers and unregisters nothing, by a live thread -/
  | lib (s : State n) (p' : Proc) (hs : Register.Step L.env s.p p') (hk : p'.kern = s.p.kern)
      (hl : ∀ u, s.alive u = false → p'.pc u = s.p.pc u) : Step s { s with p := p' }
  | kernel {s s' : State n} (h : KStep L s s') : Step s s'
  /-- another library registers or unregisters an area of its own -/
  | foreign (s : State n) (t : Nat) (r : Reg) (ha : s.alive t = true) (hab : s.p.aborted = false)
      (hr : r = .none ∨ r = .other) (hk : s.p.kern t = .none ∨ s.p.kern t = .other) :
      Step s { s with p := { s.p with kern := Register.upd s.p.kern t r } }
  /-- the C library fails to do so -/
  | libcFails (s : State n) (t : Nat) (ha : s.alive t = true) (ho : L.own = false)
      (hn : s.libc t = .notYet) :
      Step s { s with libc := upd s.libc t .failed, mem := fill s.mem (L.area t) (failImage L.be) }
  /-- the program stores: in areas only into `rseq_cs` and `flags` (helpers, `rseq_clear_rseq_cs`) -/
  | user (s : State n) (m' : Mem n)
      (hm : ∀ t x, s.alive t = true → InArea L t x →
        ¬ (oRseqCs ≤ (x - L.area t).toNat ∧ (x - L.area t).toNat < oNodeId) → m' x = s.mem x) :
      Step s { s with mem := m' }
  /-- a new thread, whose area overlaps no other thread's -/
  | create (s : State n) (t : Nat) (pl : Place) (hb : s.born t = false)
      (hd : ∀ u x, s.alive u = true → InArea L u x → ¬ InArea L t x) (hpl : PlaceOK L pl) :
      Step s { s with
        alive := upd s.alive t true, born := upd s.born t true, place := upd s.place t pl
        mem := fill s.mem (L.area t) (tlsImage L.alloc) }
  | exit (s : State n) (t : Nat) (ha : s.alive t = true) : Step s { s with alive := upd s.alive t false }

/-- Right after `rseq_init`, executed by the only thread. -/
def State.start (m : Mem n) (pl : Place) : State n where
  p := Proc.start L.env (fun _ => .none)
  mem := fill m (L.area L.t0) (tlsImage L.alloc)
  place := fun _ => pl
  alive := fun t => t == L.t0
  born := fun t => t == L.t0
  libc := fun _ => .notYet

inductive Reach : State n → Prop
  | start (m : Mem n) (pl : Place) (h : PlaceOK L pl) : Reach (State.start L m pl)
  | step {s s' : State n} (h : Reach s) (hs : Step L s s') : Reach s'

/-! ### Accessors (rseq.h) -/

/-- `rseq_cpu_start` (166-169) -/
def cpuStart (s : State n) (t : Nat) : BitVec 32 := ld32 L.be s.mem (L.getAbi t + BitVec.ofNat n oCpuIdStart)
/-- `rseq_current_cpu_raw` (149-152), an `int32_t` -/
def currentCpuRaw (s : State n) (t : Nat) : Int := (ld32 L.be s.mem (L.getAbi t + BitVec.ofNat n oCpuId)).toInt
/-- `rseq_current_cpu` (172-180); `getcpu` is what `sched_getcpu` returns if it is called; `none`: abort -/
def rseqCurrentCpu (s : State n) (t : Nat) (getcpu : Int) : Option Int := currentCpu (currentCpuRaw L s t) getcpu
/-- `rseq_current_node_id` (192-196); `none`: the assertion fails -/
def currentNodeId (s : State n) (t : Nat) : Option (BitVec 32) :=
  if nodeIdAvailable s.p.lib then some (ld32 L.be s.mem (L.getAbi t + BitVec.ofNat n oNodeId)) else none
/-- `rseq_current_mm_cid` (205-208) -/
def currentMmCid (s : State n) (t : Nat) : BitVec 32 := ld32 L.be s.mem (L.getAbi t + BitVec.ofNat n oMmCid)
/-- `rseq_fallback_current_node` (rseq.c:325-336): the arguments are the result of `getcpu` and the node it stored -/
def fallbackCurrentNode (ret : Int) (node : BitVec 32) : Int := if ret ≠ 0 then ret else node.toInt

/-- `rseq_clear_rseq_cs` (211-214): `RSEQ_WRITE_ONCE(rseq_get_abi()->rseq_cs.arch.ptr, 0)`, `n / 8` bytes; on 32-bit
big-endian machines the pointer is the second half of the field (abi.h:113-128). -/
def clearRseqCs (s : State n) (t : Nat) : Mem n :=
  let o := if n = 32 ∧ L.be = true then oRseqCs + 4 else oRseqCs
  fill s.mem (L.getAbi t) (fun i => if o ≤ i ∧ i < o + n / 8 then some 0#8 else none)

end Verif.Area
