import Verif.RseqZone
import Verif.RseqFootAll
/-
Threads, CPUs, preemption, migration, signals, registration and the kernel's restartable-sequence rule.

Kernel contract (rseq(2), `include/rseq/rseq-abi.h` comments): whenever a registered thread is about to
return to user space after having been preempted (possibly on another CPU) or interrupted by a signal,
the kernel (1) stores the CPU number and the concurrency id into the thread's `cpu_id` and `mm_cid`
fields, (2) if `rseq_cs` points to a descriptor and the instruction pointer is in
[start_ip, start_ip + post_commit_offset), sets the instruction pointer to abort_ip, and (3) clears
`rseq_cs`.  At most one thread runs on a CPU, and running threads have different concurrency ids.

Instructions of different threads interleave arbitrarily (sequentially consistent memory; weaker
memory is the subject of `RseqOrder.lean`).  A signal handler may itself call helpers; nesting is
unbounded.
-/

namespace Verif.Rseq

variable {n : Nat}

/-- The field compared with the `cpu` argument: `RSEQ_PERCPU_CPU_ID` or `RSEQ_PERCPU_MM_CID`. -/
inductive Fld
  | cpuId | mmCid
  deriving DecidableEq, Repr

/-- A place in the program text where a helper is inlined. -/
structure Site (n : Nat) where
  arch : Arch
  kind : Kind
  rel : Bool
  be : Bool
  al : Opnd → Nat
  csa : W n
  prog : Prog n
  ok : program al be csa arch kind rel = some prog

/-- A helper in execution.  `l0`, `foot`, `last`, `commits` and `ep` are history variables: local state on
entry, addresses touched, memory right after the last instruction that accessed memory, number of final
stores executed, and the thread's event count when `rseq_cs` was stored. -/
structure Frame (n : Nat) where
  pid : Nat
  fld : Fld
  cpu : BitVec 32
  op : Op n
  l : LSt n
  l0 : LSt n
  foot : W n → Prop
  last : Mem n
  commits : Nat
  ep : Nat

/-- A thread.  `top` is the helper it is executing (`none`: other code), `saved` what its pending signal
handlers interrupted.  `cs` is the `rseq_cs` field (which site's descriptor), `cpuId` and `mmCid` the
fields of its `struct rseq`; `kcpu`, `kcid` are the CPU it runs on and its concurrency id as the kernel
knows them; `ev` counts the kernel's interventions. -/
structure Thread (n : Nat) where
  top : Option (Frame n)
  saved : List (Option (Frame n))
  cs : Option Nat
  reg : Bool
  run : Bool
  kcpu : BitVec 32
  kcid : BitVec 32
  cpuId : BitVec 32
  mmCid : BitVec 32
  ev : Nat

/-- The machine. -/
structure State (n : Nat) where
  mem : Mem n
  th : Nat → Thread n

/-- The value a helper finds in the field it compares. -/
def Thread.fv (x : Thread n) : Fld → BitVec 32
  | .cpuId => x.cpuId
  | .mmCid => x.mmCid

/-- What the kernel knows about that field. -/
def Thread.kv (x : Thread n) : Fld → BitVec 32
  | .cpuId => x.kcpu
  | .mmCid => x.kcid

/-- Replace one thread. -/
def State.set (s : State n) (t : Nat) (x : Thread n) : State n := { s with th := upd s.th t x }

variable (T : Nat → Site n)

/-- The kernel's rule applied to the interrupted helper. -/
def fixTop (x : Thread n) : Option (Frame n) :=
  match x.top with
  | none => none
  | some f =>
    match f.l.pc with
    | .ret _ => some f
    | .at i =>
      if x.reg = true ∧ x.cs = some f.pid ∧ (T f.pid).prog.start ≤ i ∧ i < (T f.pid).prog.commit then
        some { f with l := { f.l with pc := .at (T f.pid).prog.abort } }
      else some f

/-- The kernel clears `rseq_cs` of registered threads. -/
def fixCs (x : Thread n) : Option Nat := if x.reg = true then none else x.cs

/-- A helper about to execute its first instruction: called with arguments `f.op`, `f.cpu` at a site of
the right kind, operands placed by the compiler, non-overlapping operands as `Tidy` and `CallOK` say. -/
structure Starts (f : Frame n) (m : Mem n) : Prop where
  l : f.l = f.l0
  foot : f.foot = fun _ => False
  last : f.last = m
  commits : f.commits = 0
  kind : (T f.pid).kind = f.op.kind
  setup : Setup (clobbers (T f.pid).arch f.op.kind) (signExt (T f.pid).arch) (T f.pid).al f.op f.cpu f.l0
  ok : CallOK (T f.pid).arch (T f.pid).al f.op
  tidy : Tidy f.op

/-- What a thread does in one step. -/
inductive Lab (n : Nat)
  | invoke (f : Frame n) | exec | ret | user | preempt | resume | signal | sigret | register
  | unregister | clear

/-- One step of thread `t` (or of the kernel on its behalf). -/
inductive Step (s : State n) (t : Nat) : Lab n → State n → Prop
  /-- call a helper; an unregistered thread must not pass the value its field happens to contain
  (F3, F26: with that value nothing protects the section) -/
  | invoke (f : Frame n) (hr : (s.th t).run = true) (ht : (s.th t).top = none) (hf : Starts T f s.mem)
      (hu : (s.th t).reg = false → (s.th t).fv f.fld ≠ f.cpu) :
      Step s t (.invoke f) (s.set t { s.th t with top := some f })
  /-- execute one instruction of the helper -/
  | exec (f : Frame n) (i : Nat) (ins : Instr) (l' : LSt n) (m' : Mem n) (hr : (s.th t).run = true)
      (ht : (s.th t).top = some f) (hp : f.l.pc = .at i)
      (hc : (T f.pid).prog.code[i]? = some ins)
      (he : exec (T f.pid).prog ((s.th t).fv f.fld) i ins f.l s.mem = (l', m')) :
      Step s t .exec
        { mem := m'
          th := upd s.th t { s.th t with
            top := some { f with
              l := l'
              foot := fun x => touched ins f.l x ∨ f.foot x
              last := if memFree ins = true then f.last else m'
              commits := if i + 1 = (T f.pid).prog.commit then f.commits + 1 else f.commits
              ep := if isCs ins = true then (s.th t).ev else f.ep }
            cs := if isCs ins = true then some f.pid else (s.th t).cs } }
  /-- return from the helper -/
  | ret (f : Frame n) (r : Int) (hr : (s.th t).run = true) (ht : (s.th t).top = some f)
      (hp : f.l.pc = .ret r) : Step s t .ret (s.set t { s.th t with top := none })
  /-- other code of the thread changes memory -/
  | user (m' : Mem n) (hr : (s.th t).run = true) (ht : (s.th t).top = none) :
      Step s t .user { s with mem := m' }
  /-- the thread loses its CPU -/
  | preempt (hr : (s.th t).run = true) : Step s t .preempt (s.set t { s.th t with run := false })
  /-- the thread gets a CPU (the same or another one) and returns to user space -/
  | resume (c k : BitVec 32) (hr : (s.th t).run = false)
      (hd : ∀ u, u ≠ t → (s.th u).run = true → (s.th u).kcpu ≠ c ∧ (s.th u).kcid ≠ k) :
      Step s t .resume (s.set t { s.th t with
        run := true, top := fixTop T (s.th t), cs := fixCs (s.th t), kcpu := c, kcid := k
        cpuId := if (s.th t).reg = true then c else (s.th t).cpuId
        mmCid := if (s.th t).reg = true then k else (s.th t).mmCid
        ev := (s.th t).ev + 1 })
  /-- a signal handler starts -/
  | signal (hr : (s.th t).run = true) :
      Step s t .signal (s.set t { s.th t with
        top := none, saved := fixTop T (s.th t) :: (s.th t).saved, cs := fixCs (s.th t)
        ev := (s.th t).ev + 1 })
  /-- a signal handler returns -/
  | sigret (f : Option (Frame n)) (rest : List (Option (Frame n))) (hr : (s.th t).run = true)
      (ht : (s.th t).top = none) (hs : (s.th t).saved = f :: rest) :
      Step s t .sigret (s.set t { s.th t with top := f, saved := rest })
  /-- the thread registers (not in the middle of a helper) -/
  | register (hr : (s.th t).run = true) (ht : (s.th t).top = none)
      (hs : ∀ f ∈ (s.th t).saved, f = none) (hn : (s.th t).reg = false) :
      Step s t .register (s.set t { s.th t with
        reg := true, cpuId := (s.th t).kcpu, mmCid := (s.th t).kcid })
  /-- the thread unregisters; the kernel resets `cpu_id` to -1 and `mm_cid` to 0 -/
  | unregister (hr : (s.th t).run = true) (ht : (s.th t).top = none)
      (hs : ∀ f ∈ (s.th t).saved, f = none) (hn : (s.th t).reg = true) :
      Step s t .unregister (s.set t { s.th t with
        reg := false, cpuId := BitVec.allOnes 32, mmCid := 0#32 })
  /-- `rseq_clear_rseq_cs()` / `rseq_prepare_unload()`, rseq.h:211-237 -/
  | clear (hr : (s.th t).run = true) (ht : (s.th t).top = none) :
      Step s t .clear (s.set t { s.th t with cs := none })

/-- The initial state of a thread: not registered, `cpu_id` -1 (`RSEQ_CPU_ID_UNINITIALIZED`,
src/rseq.c:72-75), `mm_cid` 0. -/
def thread0 : Thread n where
  top := none
  saved := []
  cs := none
  reg := false
  run := false
  kcpu := 0#32
  kcid := 0#32
  cpuId := BitVec.allOnes 32
  mmCid := 0#32
  ev := 0

/-- The helper can only leave with value 1, and without accessing memory any more: it has read the
compared variable and found it different. -/
inductive Quiet (p : Prog n) : LSt n → Prop
  | done {l : LSt n} (h : l.pc = .ret 1) : Quiet p l
  | step {l l' : LSt n} {i : Nat} {ins : Instr} (hp : l.pc = .at i) (hc : p.code[i]? = some ins)
      (hm : memFree ins = true) (hf : cpuFree ins = true)
      (he : ∀ (fv : BitVec 32) (m : Mem n), (exec p fv i ins l m).1 = l') (hq : Quiet p l') : Quiet p l

/-- The step of thread `t` from `s` to `s'` does not disturb any other running thread that is between
its CPU check and its commit: the bytes that thread has accessed in this section keep their values
(unless it is already bound to return 1). -/
def Polite (s : State n) (t : Nat) (s' : State n) : Prop :=
  ∀ u f, u ≠ t → (s.th u).run = true → (s.th u).top = some f →
    zone (T f.pid).prog f.l.pc = .body →
    (∀ a, f.foot a → s.mem a = s'.mem a) ∨ Quiet (T f.pid).prog f.l

/-- States reachable by polite steps. -/
inductive PReach (m0 : Mem n) : State n → Prop
  | init : PReach m0 { mem := m0, th := fun _ => thread0 }
  | step {s s' : State n} {t : Nat} {lab : Lab n} (h : PReach m0 s) (hs : Step T s t lab s')
      (hp : Polite T s t s') : PReach m0 s'

end Verif.Rseq
