/-
Model of src/rseq.c (registration) and of the accessors of include/rseq/rseq.h that depend on it.

One process. `Env` holds what never changes: whether the kernel implements the system call, the feature size it publishes
(`AT_RSEQ_FEATURE_SIZE`, 0 if absent), the size of its own `struct rseq`, and the C library's `__rseq_size` if its three public
symbols exist. Threads are numbers. Library calls are split into the steps that other threads can interleave with: the read of
`rseq_size` that gives the length, the system call, and the final check/update of `rseq_size`. All calls pass the thread's
own `__rseq_abi` area and `RSEQ_SIG`, so only the length distinguishes them for the kernel.
-/
namespace Verif.Register

/-- `ORIG_RSEQ_FEATURE_SIZE` (rseq.c:61). -/
def origFeature : Nat := 20
/-- `ORIG_RSEQ_ALLOC_SIZE` (64). -/
def origAlloc : Nat := 32
/-- `RSEQ_THREAD_AREA_ALLOC_SIZE` (58). -/
def areaSize : Nat := 1024
/-- `-1U`. -/
def minusOneU : Nat := 2 ^ 32 - 1

structure Env where
  /-- the kernel implements rseq(2) -/
  kernelHas : Bool
  /-- `getauxval(AT_RSEQ_FEATURE_SIZE)` -/
  auxFeature : Nat
  /-- `*__rseq_size` of the C library, if all three symbols are found -/
  libc : Option Nat
  deriving Repr

/-- `get_rseq_kernel_feature_size` (139-152) (the assertions on the auxiliary vector are hypotheses of the theorems). -/
def featureSize (env : Env) : Nat := if env.auxFeature ≠ 0 then env.auxFeature else origFeature

/-- `get_rseq_min_alloc_size` (119-126). -/
def minAlloc (size : Nat) : Nat := if size < origAlloc then origAlloc else size

/-! ### Kernel (kernel/rseq.c, `SYSCALL_DEFINE4(rseq)`) -/

/-- What the kernel has recorded for a thread: nothing, librseq's area with a length, or somebody else's area. -/
inductive Reg where
  | none
  | ours (len : Nat)
  | other
  deriving DecidableEq, Repr

/-- Registration of librseq's area is acceptable: nothing registered, length at least 32, and either exactly 32 or large
enough for the kernel's structure. -/
def kRegister (env : Env) (r : Reg) (len : Nat) : Bool :=
  env.kernelHas && r == .none && decide (origAlloc ≤ len) && (len == origAlloc || decide (env.auxFeature ≤ len))

/-- Unregistration: same area and same length. -/
def kUnregister (env : Env) (r : Reg) (len : Nat) : Bool := env.kernelHas && r == .ours len

/-- `rseq(NULL, 0, 0, 0)`: the errno is EINVAL (`true`) if the call exists - either the thread is registered with another
area, or the length 0 is too small - and ENOSYS (`false`) otherwise. -/
def kProbe (env : Env) (_r : Reg) : Bool := env.kernelHas

/-! ### Library state -/

/-- Public and private variables of rseq.c: `rseq_size`, `rseq_ownership`, and whether `rseq_offset` designates the area. -/
structure Lib where
  size : Nat
  own : Bool
  offsetValid : Bool
  deriving DecidableEq, Repr

/-- Static initialisers (46-56). -/
def Lib.static : Lib := ⟨minusOneU, false, false⟩

/-- Body of `rseq_init` (228-296), executed once. -/
def rseqInit (env : Env) : Lib :=
  match env.libc with
  | some n =>
    if n ≠ 0 then
      { size :=
          if n = origFeature ∨ n = origAlloc then
            (if featureSize env < origAlloc then featureSize env else origAlloc)
          else n
        own := false, offsetValid := true }
    else { size := 0, own := true, offsetValid := true }
  | none => { size := 0, own := true, offsetValid := true }

/-- `rseq_exit` (303-311). -/
def rseqExit (l : Lib) : Lib := if l.own then { size := minusOneU, own := false, offsetValid := false } else l

/-- `rseq_available` (89-116); the query values are 0 (kernel) and 1 (libc). -/
def rseqAvailable (env : Env) (l : Lib) (r : Reg) (query : Nat) : Bool :=
  match query with
  | 0 => kProbe env r
  | 1 => decide (l.size ≠ 0) && !l.own
  | _ => false

/-! ### Threads -/

/-- Position of a thread inside a library call. -/
inductive Pc where
  | idle
  /-- register: length computed, system call not done -/
  | regLen (len : Nat)
  /-- register: the system call failed, `rseq_size` not yet examined -/
  | regFail
  /-- register: the system call succeeded, `rseq_size` not yet updated -/
  | regOk
  /-- unregister: length computed -/
  | unregLen (len : Nat)
  deriving DecidableEq, Repr

/-- Return of a library call. -/
inductive Event where
  | regRet (t : Nat) (r : Int)
  | unregRet (t : Nat) (r : Int)
  deriving DecidableEq, Repr

structure Proc where
  lib : Lib
  kern : Nat → Reg
  pc : Nat → Pc
  /-- returns so far, newest first -/
  log : List Event
  aborted : Bool

def upd {α : Type} (f : Nat → α) (t : Nat) (v : α) : Nat → α := fun x => if x = t then v else f x

/-- State after `rseq_init` (constructor, or the first call into the library). -/
def Proc.start (env : Env) (kern : Nat → Reg) : Proc :=
  { lib := rseqInit env, kern := kern, pc := fun _ => .idle, log := [], aborted := false }

/-- Steps of the process. `granted` is the kernel's decision: it may refuse a correct registration (memory, security policy)
but never accepts an incorrect one. -/
inductive Step (env : Env) : Proc → Proc → Prop where
  /-- `rseq_register_current_thread` (154-164) without ownership -/
  | regLibc (s : Proc) (t : Nat) (ha : s.aborted = false) (hp : s.pc t = .idle) (ho : s.lib.own = false) :
      Step env s { s with log := .regRet t 0 :: s.log }
  /-- 164: length -/
  | regStart (s : Proc) (t : Nat) (ha : s.aborted = false) (hp : s.pc t = .idle) (ho : s.lib.own = true) :
      Step env s { s with pc := upd s.pc t (.regLen (minAlloc s.lib.size)) }
  /-- 164: the system call succeeds -/
  | regSysOk (s : Proc) (t len : Nat) (ha : s.aborted = false) (hp : s.pc t = .regLen len)
      (hk : kRegister env (s.kern t) len = true) :
      Step env s { s with kern := upd s.kern t (.ours len), pc := upd s.pc t .regOk }
  /-- 164: the system call fails -/
  | regSysFail (s : Proc) (t len : Nat) (ha : s.aborted = false) (hp : s.pc t = .regLen len) :
      Step env s { s with pc := upd s.pc t .regFail }
  /-- 171-174: failure after another thread succeeded -/
  | regAbort (s : Proc) (t : Nat) (ha : s.aborted = false) (hp : s.pc t = .regFail) (hs : s.lib.size > 0) :
      Step env s { s with aborted := true }
  /-- 175 -/
  | regMinus (s : Proc) (t : Nat) (ha : s.aborted = false) (hp : s.pc t = .regFail) (hs : s.lib.size = 0) :
      Step env s { s with pc := upd s.pc t .idle, log := .regRet t (-1) :: s.log }
  /-- 183-187 -/
  | regDone (s : Proc) (t : Nat) (ha : s.aborted = false) (hp : s.pc t = .regOk) :
      Step env s { s with
        lib := { s.lib with size := if s.lib.size = 0 then featureSize env else s.lib.size }
        pc := upd s.pc t .idle, log := .regRet t 0 :: s.log }
  /-- `rseq_unregister_current_thread` (190-197) without ownership -/
  | unregLibc (s : Proc) (t : Nat) (ha : s.aborted = false) (hp : s.pc t = .idle) (ho : s.lib.own = false) :
      Step env s { s with log := .unregRet t 0 :: s.log }
  /-- 198: length -/
  | unregStart (s : Proc) (t : Nat) (ha : s.aborted = false) (hp : s.pc t = .idle) (ho : s.lib.own = true) :
      Step env s { s with pc := upd s.pc t (.unregLen (minAlloc s.lib.size)) }
  /-- 198-201: system call (its outcome is determined) and return -/
  | unregSys (s : Proc) (t len : Nat) (ha : s.aborted = false) (hp : s.pc t = .unregLen len) :
      Step env s { s with
        kern := if kUnregister env (s.kern t) len then upd s.kern t .none else s.kern
        pc := upd s.pc t .idle
        log := .unregRet t (if kUnregister env (s.kern t) len then 0 else -1) :: s.log }
  /-- another library registers or unregisters its own area for the thread -/
  | foreign (s : Proc) (t : Nat) (r : Reg) (ha : s.aborted = false) (hr : r = .none ∨ r = .other)
      (hk : s.kern t = .none ∨ s.kern t = .other) :
      Step env s { s with kern := upd s.kern t r }

/-- Histories of a process between `rseq_init` and `rseq_exit`, in which no thread starts with librseq's area registered. -/
inductive Reach (env : Env) : Proc → Prop where
  | init (kern : Nat → Reg) (h : ∀ t len, kern t ≠ .ours len) : Reach env (Proc.start env kern)
  | step (s s' : Proc) (h : Reach env s) (hs : Step env s s') : Reach env s'

/-! ### Accessors (include/rseq/rseq.h) -/

/-- `(int) rseq_size` -/
def asInt (n : Nat) : Int := (n : Int).bmod (2 ^ 32)
/-- `rseq_node_id_available` (183-187): the field ends at offset 24 (abi.h). -/
def nodeIdAvailable (l : Lib) : Bool := decide (asInt l.size ≥ 24)
/-- `rseq_mm_cid_available` (199-203): the field ends at offset 28. -/
def mmCidAvailable (l : Lib) : Bool := decide (asInt l.size ≥ 28)

/-- Content of the `cpu_id` field of the area the library uses for a thread: the current CPU while that area is registered,
-1 before registration and after unregistration, -2 if the C library's registration failed for the thread. -/
inductive CpuField : Bool → Nat → Int → Prop where
  | registered (cpu : Nat) : CpuField true cpu cpu
  | uninitialized (cpu : Nat) : CpuField false cpu (-1)
  | failed (cpu : Nat) : CpuField false cpu (-2)

/-- `rseq_fallback_current_cpu` (rseq.c:313-323): `none` = abort; the argument is the answer of `sched_getcpu`. -/
def fallbackCurrentCpu (getcpu : Int) : Option Int := if getcpu < 0 then none else some getcpu

/-- `rseq_current_cpu` (rseq.h:172-180). -/
def currentCpu (field : Int) (getcpu : Int) : Option Int :=
  if field < 0 then fallbackCurrentCpu getcpu else some field

end Verif.Register
