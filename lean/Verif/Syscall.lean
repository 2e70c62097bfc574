import Verif.RseqArea
/-
The rseq system call with its four arguments and its errors, the library functions of src/rseq.c that call it, and the
tests that check both: tests/basic_test.c, unregistered_test.c, no_syscall_test.c, fork_test.c, syscall_errors_test.c.

`Register.lean` and `RseqArea.lean` know of the system call only whether it succeeds. Here is the contract behind that
(kernel/rseq.c, `SYSCALL_DEFINE4(rseq)`): which error is returned for which arguments. One thread; the areas are as in
`RseqArea.lean`.

Simplifications: the area that is registered can be written (the kernel would kill the process otherwise); `fork` succeeds.
The tests' `ok(...)` calls become a list of Booleans.
-/
namespace Verif.Sys

open Verif.Register (Env Lib featureSize rseqInit minAlloc)
open Verif.Area (Mem Place Byte Layout fill kImage kReset tlsImage ld32 oCpuId oCpuIdStart)

variable {n : Nat}

inductive Errno
  | ENOSYS | EINVAL | EPERM | EBUSY | EFAULT
  | other (e : Nat)
  deriving DecidableEq, Repr

/-! ### The system call -/

/-- What the kernel has recorded for a thread: `current->rseq`, `rseq_len`, `rseq_sig`. -/
structure TReg (n : Nat) where
  ptr : BitVec n
  len : BitVec 32
  sig : BitVec 32
  deriving DecidableEq

/-- A kernel. `legacy`: before Linux 6.3, the length must be 32 and the auxiliary vector has no entries for rseq. -/
structure Kernel (n : Nat) where
  /-- the kernel implements the system call -/
  has : Bool
  /-- a seccomp filter that answers instead of the kernel -/
  filter : Option Errno
  legacy : Bool
  /-- `offsetof(struct rseq, end)`, published as `AT_RSEQ_FEATURE_SIZE` -/
  structEnd : Nat
  /-- `__alignof__(struct rseq)`, published as `AT_RSEQ_ALIGN` -/
  structAlign : Nat
  /-- the first address that `access_ok` refuses -/
  userEnd : Nat
  /-- content of fields after `mm_cid` -/
  ext : Nat → Byte

/-- `RSEQ_ABI_FLAG_UNREGISTER` (abi.h:21) -/
def unregisterFlag : BitVec 32 := 1#32

def aligned (p : BitVec n) (a : Nat) : Bool := p.toNat % a == 0

/-- The length and the address of a new registration are acceptable. -/
def shapeOk (K : Kernel n) (ptr : BitVec n) (len : BitVec 32) : Bool :=
  if K.legacy then len == 32#32 && aligned ptr 32
  else if len == 32#32 then aligned ptr 32
  else decide (32 ≤ len.toNat) && aligned ptr K.structAlign && decide (K.structEnd ≤ len.toNat)

/-- The system call: an error, or what is recorded afterwards. -/
def sysRseq (K : Kernel n) (cur : Option (TReg n)) (ptr : BitVec n) (len flags sig : BitVec 32) :
    Except Errno (Option (TReg n)) :=
  match K.filter with
  | some e => .error e
  | none =>
    if K.has = false then .error .ENOSYS
    else if flags &&& unregisterFlag ≠ 0#32 then
      if flags &&& ~~~ unregisterFlag ≠ 0#32 then .error .EINVAL
      else match cur with
        | none => .error .EINVAL
        | some r =>
          if r.ptr ≠ ptr then .error .EINVAL
          else if r.len ≠ len then .error .EINVAL
          else if r.sig ≠ sig then .error .EPERM
          else .ok none
    else if flags ≠ 0#32 then .error .EINVAL
    else match cur with
      | some r =>
        if r.ptr ≠ ptr ∨ r.len ≠ len then .error .EINVAL
        else if r.sig ≠ sig then .error .EPERM
        else .error .EBUSY
      | none =>
        if shapeOk K ptr len = false then .error .EINVAL
        else if K.userEnd < ptr.toNat + len.toNat then .error .EFAULT
        -- a null pointer is how the kernel represents "not registered"
        else .ok (if ptr = 0#n then none else some ⟨ptr, len, sig⟩)

/-! ### A process with one thread -/

/-- What is fixed: where things are, the kernel, the signature, the C library's `*__rseq_flags`. -/
structure World (n : Nat) where
  L : Layout n
  K : Kernel n
  /-- `RSEQ_SIG` -/
  sig : BitVec 32
  libcFlags : BitVec 32

structure St (n : Nat) where
  lib : Lib
  cur : Option (TReg n)
  mem : Mem n
  place : Place

variable (W : World n)

/-- `rseq_flags` after `rseq_init` (rseq.c:242, 285) -/
def World.flags : BitVec 32 := if W.L.own then 0#32 else W.libcFlags

/-- `rseq_get_abi()` of the thread -/
def World.abi : BitVec n := W.L.getAbi W.L.t0

/-- `&__rseq_abi` of the thread -/
def World.area : BitVec n := W.L.tp W.L.t0 + W.L.disp

/-- What the kernel stores into the area of a thread on its way back to user mode. -/
def onReturn (cur : Option (TReg n)) (m : Mem n) (p : Place) : Mem n :=
  match cur with
  | some r => fill m r.ptr (kImage W.L.be (featureSize W.L.env) r.len.toNat p W.K.ext)
  | none => m

/-- `sys_rseq` (rseq.c:78-82): `none` is the return value 0, `some e` is -1 with `errno = e`. -/
def call (s : St n) (ptr : BitVec n) (len flags sig : BitVec 32) : Option Errno × St n :=
  match sysRseq W.K s.cur ptr len flags sig with
  | .error e => (some e, { s with mem := onReturn W s.cur s.mem s.place })
  | .ok c =>
    let m := match s.cur, c with
      | some r, none => fill s.mem r.ptr (kReset (featureSize W.L.env))
      | _, _ => s.mem
    (none, { s with cur := c, mem := onReturn W c m s.place })

/-- The thread continues on another CPU. -/
def migrate (s : St n) (p : Place) : St n := { s with place := p, mem := onReturn W s.cur s.mem p }

/-- `fork`: the child is a copy, registration included (`rseq_fork` without `CLONE_VM`). -/
def forkChild (s : St n) (p : Place) : St n := migrate W s p

inductive Out (α : Type)
  | ret (a : α)
  | abort
  deriving DecidableEq

/-- `rseq_available` (rseq.c:89-116) -/
def rseqAvailable (s : St n) (query : Nat) : Out Bool × St n :=
  match query with
  | 0 =>
    let (r, s') := call W s 0#n 0#32 0#32 0#32
    (match r with
      | none => .abort
      | some .ENOSYS => .ret false
      | some .EINVAL => .ret true
      | some _ => .abort, s')
  | 1 => (.ret (decide (s.lib.size ≠ 0) && !s.lib.own), s)
  | _ => (.ret false, s)

/-- `rseq_current_cpu_raw` (rseq.h:149-152), `rseq_abi->cpu_id` -/
def cpuRaw (s : St n) : Int := (ld32 W.L.be s.mem (W.abi + BitVec.ofNat n oCpuId)).toInt
/-- `rseq_cpu_start` (rseq.h:166-169) -/
def cpuStart (s : St n) : BitVec 32 := ld32 W.L.be s.mem (W.abi + BitVec.ofNat n oCpuIdStart)
/-- `rseq_current_cpu` (rseq.h:172-180); `sched_getcpu` tells where the thread is -/
def currentCpu (s : St n) : Option Int := Register.currentCpu (cpuRaw W s) (s.place.cpu.toNat : Int)

/-- `rseq_register_current_thread` (rseq.c:154-188); `abort` also stands for the failed assertion at 177. -/
def registerCurrent (s : St n) : Out (Int × St n) :=
  if s.lib.own = false then .ret (0, s)
  else
    let (r, s') := call W s W.area (BitVec.ofNat 32 (minAlloc s.lib.size)) 0#32 W.sig
    match r with
    | some _ => if s'.lib.size > 0 then .abort else .ret (-1, s')
    | none =>
      if cpuRaw W s' < 0 then .abort
      else .ret (0, { s' with lib := { s'.lib with
        size := if s'.lib.size = 0 then featureSize W.L.env else s'.lib.size } })

/-- `rseq_unregister_current_thread` (rseq.c:190-202) -/
def unregisterCurrent (s : St n) : Int × St n :=
  if s.lib.own = false then (0, s)
  else
    let (r, s') := call W s W.area (BitVec.ofNat 32 (minAlloc s.lib.size)) unregisterFlag W.sig
    match r with
    | some _ => (-1, s')
    | none => (0, s')

/-! ### The tests -/

inductive TestRun
  | skipped
  | aborted
  /-- the results of the `ok` calls -/
  | done (checks : List Bool)
  deriving DecidableEq

/-- basic_test.c:32-43 -/
def testRegistered (s : St n) : List Bool :=
  [W.flags == 0#32, decide (20 ≤ s.lib.size), W.L.offset != 0#n, decide (0 ≤ cpuRaw W s)]

/-- basic_test.c:53-72: the thread is bound to one CPU after the other; `pl i` is where it runs then. The comparisons are
of `int` with `int` and of `unsigned int` with `unsigned int`. -/
def testCpus (pl : Nat → Place) : List Nat → St n → List Bool × St n
  | [], s => ([], s)
  | i :: is, s =>
    let s1 := migrate W s (pl i)
    let c := [s1.place.cpu.toInt == (i : Int),
      currentCpu W s1 == some (i : Int),
      cpuRaw W s1 == (i : Int),
      cpuStart W s1 == BitVec.ofNat 32 i,
      s1.place.node == s1.place.node]
    let (cs, s2) := testCpus pl is s1
    (c ++ cs, s2)

/-- basic_test.c `main`; `cpus` is the affinity mask, `p0` where the thread runs when the mask has been restored. -/
def basicTest (pl : Nat → Place) (cpus : List Nat) (p0 : Place) (s : St n) : TestRun :=
  match rseqAvailable W s 0 with
  | (.abort, _) => .aborted
  | (.ret false, _) => .skipped
  | (.ret true, s) =>
    match registerCurrent W s with
    | .abort => .aborted
    | .ret (rc, s) =>
      if rc ≠ 0 then .done [false]
      else
        let (cs, s') := testCpus W pl cpus s
        let (rc, _) := unregisterCurrent W (migrate W s' p0)
        .done (true :: testRegistered W s ++ cs ++ [decide (rc = 0)])

/-- The four checks of unregistered_test.c:44-51 and no_syscall_test.c:46-53 -/
def testSymbols (s : St n) : List Bool :=
  [W.flags == 0#32, s.lib.size == 0, W.L.offset != 0#n, cpuRaw W s == -1]

/-- unregistered_test.c `main` -/
def unregisteredTest (s : St n) : TestRun :=
  match rseqAvailable W s 0 with
  | (.abort, _) => .aborted
  | (.ret false, _) => .skipped
  | (.ret true, s) => .done (testSymbols W s)

/-- no_syscall_test.c `main` -/
def noSyscallTest (s : St n) : TestRun :=
  match rseqAvailable W s 0 with
  | (.abort, _) => .aborted
  | (.ret true, _) => .done [false]
  | (.ret false, s) => .done (testSymbols W s)

/-- fork_test.c: the checks of the parent and those of the child, which starts at `pl`. -/
def forkTest (pl : Place) (s : St n) : TestRun :=
  match rseqAvailable W s 0 with
  | (.abort, _) => .aborted
  | (.ret false, _) => .skipped
  | (.ret true, s) =>
    match registerCurrent W s with
    | .abort => .aborted
    | .ret (rc, s) =>
      let child := forkChild W s pl
      let (r, child) := call W child W.abi 32#32 0#32 W.sig
      .done [decide (rc = 0), decide (0 ≤ cpuRaw W s), r == some .EBUSY, decide (0 ≤ cpuRaw W child)]

/-- syscall_errors_test.c; `invalid`: with `RUN_RSEQ_INVALID_ADDRESS_TEST`. -/
def syscallErrorsTest (invalid : Bool) (s : St n) : TestRun :=
  match rseqAvailable W s 0 with
  | (.abort, _) => .aborted
  | (.ret false, _) => .skipped
  | (.ret true, s) =>
    let (r1, s) := call W s W.abi 32#32 (-1#32) W.sig
    let (r2, s) := call W s (W.abi + 1#n) 32#32 0#32 W.sig
    let (r3, s) := call W s W.abi 31#32 0#32 W.sig
    let (c4, s) := if invalid then
        (let (r4, s) := call W s (-(BitVec.ofNat n 4096)) 32#32 0#32 W.sig; ([r4 == some .EFAULT], s))
      else ([], s)
    let (r5, s) := call W s W.abi 32#32 0#32 W.sig
    let (r6, s) := call W s W.abi 32#32 0#32 W.sig
    let (r7, s) := call W s W.abi 32#32 unregisterFlag (W.sig + 1#32)
    let (r8, _) := call W s W.abi 32#32 unregisterFlag W.sig
    .done ([r1 == some .EINVAL, r2 == some .EINVAL, r3 == some .EINVAL] ++ c4 ++
      [r5 == none, r6 == some .EBUSY, r7 == some .EPERM, r8 == none])

/-! ### Where the tests start -/

/-- Right after `rseq_init`, in the first thread: `cur` is what the C library has registered, if it has. -/
def start (m : Mem n) (p : Place) : St n :=
  let m := fill m (W.L.area W.L.t0) (tlsImage W.L.alloc)
  let cur := if W.L.own then none else some ⟨W.L.area W.L.t0, BitVec.ofNat 32 W.L.libcLen, W.sig⟩
  { lib := rseqInit W.L.env, cur := cur, mem := onReturn W cur m p, place := p }

end Verif.Sys
