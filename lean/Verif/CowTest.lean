import Verif.PoolConcBoundProps
/-
tests/mempool_cow_race_test.c: the two threads of the test and the pool they share, on the machine of
`Verif.PoolConc` (thread 0 is `test_init_thread`, 62-123; thread 1 is `test_writer_thread`, 125-148).

Simplifications:
- the phase and stop variables are sequentially consistent (the code accesses the phase with
  store-release and load-acquire; `stop_init_thread` is polled only);
- the delay loop of the writer (138-139) is any number of steps of other threads;
- a pool that is created (85) starts from any memory; destroying it (117-118) removes it;
- attribute setters that fail (72-84) abort the test before anything happens and are not modelled;
- the pool configuration, the init value and its length are parameters (robust, one CPU, one range,
  COW_INIT, 256 bytes of 0x22 in the test).
-/
namespace Verif.CowTest
open Verif Verif.Mem Verif.Mempool Verif.PoolConc MProg

variable [Abi]

/-- Where `test_init_thread` is. -/
inductive IPc where
  /-- 66: loop condition -/
  | head
  /-- 91: about to call malloc -/
  | call1
  | malloc1
  /-- 95 -/
  | publish
  /-- 98: about to call malloc_init -/
  | call2
  | malloc2
  /-- 104-110: about to compare byte `i` -/
  | check (i : Nat)
  /-- 112 -/
  | wait
  /-- 114 -/
  | callFree2
  | free2
  /-- 115 -/
  | callFree1
  | free1
  /-- 117 -/
  | destroy
  /-- 120 -/
  | stopWriter
  /-- 121 -/
  | stopPhase
  | done
  /-- 86-87, 92-93, 101-102: abort, no memory -/
  | noMem
  /-- 106-108: "Unexpected value", abort -/
  | unexpected
  /-- use of a pool or an item against the rules -/
  | misuse

/-- Where `test_writer_thread` is. -/
inductive WPc where
  /-- 133 -/
  | wait
  /-- 135 -/
  | test
  /-- 142 -/
  | store
  /-- 144 -/
  | reset
  | done
  /-- store to an item that is not allocated or to a pool that does not exist -/
  | misuse

structure Prog where
  cs : Option CState
  /-- `PHASE_WRITE_POOL` -/
  phase : Bool
  stopInit : Bool
  stopWriter : Bool
  ptr1 : Nat
  ptr2 : Nat
  ip : IPc
  wp : WPc

/-- The step continues what threads have begun; it begins nothing. -/
def Quiet (s s' : CState) : Prop :=
  ∀ u, s.th u = .idle → s'.th u = .idle ∧ (s.pend u = none → s'.pend u = none)

/-- The state of a pool after its creation. -/
def Fresh (c : Config) (s : CState) : Prop :=
  ∃ (m0 : Mem) (env : RangeEnv) (r : Range) (m : Mem), m0.WF ∧ EnvOK c [] m0 env ∧
    (rangeCreate c ⟨[], 0, 0⟩ m0 env).2 = some (r, m) ∧
    s = { mem := m, pool := ⟨[r], 0, 1⟩, lock := none, th := fun _ => .idle, pend := fun _ => none, live := [] }

/-- Freeing `p` is allowed: the item is live and nobody is storing to it. -/
def MayFree (s : CState) (p : Nat) : Prop := p ∈ s.live ∧ ∀ u d, s.pend u = some d → d.p ≠ p

/-- Storing byte 0 of CPU 0's instance of `p` is allowed. -/
def MayStore (c : Config) (s : CState) (p : Nat) : Prop := p ∈ s.live ∧ 0 < c.ncpu ∧ 0 < c.itemLen

/-- One step of the test. `f`, `len`: the init value; `v`: the byte the writer stores (0x33). -/
inductive PStep (c : Config) (split : Bool) (f : Nat → Byte) (len : Nat) (v : Byte) : Prog → Prog → Prop
  /-- 66-89 -/
  | create {p : Prog} {s : CState} (hi : p.ip = .head) (hs : p.stopInit = false) (hf : Fresh c s) :
      PStep c split f len v p { p with cs := some s, ip := .call1 }
  /-- 86-87 -/
  | createFail {p : Prog} (hi : p.ip = .head) (hs : p.stopInit = false) :
      PStep c split f len v p { p with ip := .noMem }
  /-- 91 -/
  | call1 {p : Prog} {s : CState} (hi : p.ip = .call1) (hc : p.cs = some s) :
      PStep c split f len v p { p with cs := some { s with th := upd s.th 0 (.wantAlloc (.plain 0)) }, ip := .malloc1 }
  | ret1 {p : Prog} {s s' : CState} {q : Nat} (hi : p.ip = .malloc1) (hc : p.cs = some s)
      (hs : CStep c split s (.returned 0 (.plain 0) q) s') :
      PStep c split f len v p { p with cs := some s', ptr1 := q, ip := .publish }
  | null1 {p : Prog} {s : CState} (hi : p.ip = .malloc1) (hc : p.cs = some s) (ht : s.th 0 = .idle) :
      PStep c split f len v p { p with ip := .noMem }
  /-- 95 -/
  | publish {p : Prog} (hi : p.ip = .publish) : PStep c split f len v p { p with phase := true, ip := .call2 }
  /-- 98 -/
  | call2 {p : Prog} {s : CState} (hi : p.ip = .call2) (hc : p.cs = some s) :
      PStep c split f len v p { p with cs := some { s with th := upd s.th 0 (.wantAlloc (.init f len)) }, ip := .malloc2 }
  | ret2 {p : Prog} {s s' : CState} {q : Nat} (hi : p.ip = .malloc2) (hc : p.cs = some s)
      (hs : CStep c split s (.returned 0 (.init f len) q) s') :
      PStep c split f len v p { p with cs := some s', ptr2 := q, ip := .check 0 }
  | null2 {p : Prog} {s : CState} (hi : p.ip = .malloc2) (hc : p.cs = some s) (ht : s.th 0 = .idle) :
      PStep c split f len v p { p with ip := .noMem }
  /-- 105-106 -/
  | checkOk {p : Prog} {s : CState} {i : Nat} (hi : p.ip = .check i) (hc : p.cs = some s) (hlt : i < len)
      (he : s.mem.read c.pg (cpuAddr c p.ptr2 0 + i) = f i) : PStep c split f len v p { p with ip := .check (i + 1) }
  /-- 106-108 -/
  | checkBad {p : Prog} {s : CState} {i : Nat} (hi : p.ip = .check i) (hc : p.cs = some s) (hlt : i < len)
      (he : s.mem.read c.pg (cpuAddr c p.ptr2 0 + i) ≠ f i) : PStep c split f len v p { p with ip := .unexpected }
  | checked {p : Prog} (hi : p.ip = .check len) : PStep c split f len v p { p with ip := .wait }
  /-- 112 -/
  | waited {p : Prog} (hi : p.ip = .wait) (hph : p.phase = false) : PStep c split f len v p { p with ip := .callFree2 }
  /-- 114 -/
  | callFree2 {p : Prog} {s s' : CState} (hi : p.ip = .callFree2) (hc : p.cs = some s) (hm : MayFree s p.ptr2)
      (hs : CStep c split s (.freeCall 0 p.ptr2) s') : PStep c split f len v p { p with cs := some s', ip := .free2 }
  | badFree2 {p : Prog} {s : CState} (hi : p.ip = .callFree2) (hc : p.cs = some s) (hm : ¬ MayFree s p.ptr2) :
      PStep c split f len v p { p with ip := .misuse }
  | freed2 {p : Prog} {s : CState} (hi : p.ip = .free2) (hc : p.cs = some s) (ht : s.th 0 = .idle) :
      PStep c split f len v p { p with ip := .callFree1 }
  /-- 115 -/
  | callFree1 {p : Prog} {s s' : CState} (hi : p.ip = .callFree1) (hc : p.cs = some s) (hm : MayFree s p.ptr1)
      (hs : CStep c split s (.freeCall 0 p.ptr1) s') : PStep c split f len v p { p with cs := some s', ip := .free1 }
  | badFree1 {p : Prog} {s : CState} (hi : p.ip = .callFree1) (hc : p.cs = some s) (hm : ¬ MayFree s p.ptr1) :
      PStep c split f len v p { p with ip := .misuse }
  | freed1 {p : Prog} {s : CState} (hi : p.ip = .free1) (hc : p.cs = some s) (ht : s.th 0 = .idle) :
      PStep c split f len v p { p with ip := .destroy }
  /-- 117: all items are freed and nobody is inside the pool -/
  | destroy {p : Prog} {s : CState} (hi : p.ip = .destroy) (hc : p.cs = some s)
      (hm : s.live = [] ∧ (∀ t, s.th t = .idle) ∧ ∀ t, s.pend t = none) :
      PStep c split f len v p { p with cs := none, ip := .head }
  | badDestroy {p : Prog} {s : CState} (hi : p.ip = .destroy) (hc : p.cs = some s)
      (hm : ¬ (s.live = [] ∧ (∀ t, s.th t = .idle) ∧ ∀ t, s.pend t = none)) :
      PStep c split f len v p { p with ip := .misuse }
  /-- 66, 120 -/
  | leave {p : Prog} (hi : p.ip = .head) (hs : p.stopInit = true) : PStep c split f len v p { p with ip := .stopWriter }
  | stopWriter {p : Prog} (hi : p.ip = .stopWriter) :
      PStep c split f len v p { p with stopWriter := true, ip := .stopPhase }
  /-- 121 -/
  | stopPhase {p : Prog} (hi : p.ip = .stopPhase) : PStep c split f len v p { p with phase := true, ip := .done }
  /-- 185: the main thread -/
  | stop {p : Prog} : PStep c split f len v p { p with stopInit := true }
  /-- 133 -/
  | begin {p : Prog} (hw : p.wp = .wait) (hph : p.phase = true) : PStep c split f len v p { p with wp := .test }
  /-- 135-136 -/
  | exit {p : Prog} (hw : p.wp = .test) (hs : p.stopWriter = true) : PStep c split f len v p { p with wp := .done }
  | stay {p : Prog} (hw : p.wp = .test) (hs : p.stopWriter = false) : PStep c split f len v p { p with wp := .store }
  /-- 142 -/
  | store {p : Prog} {s s' : CState} (hw : p.wp = .store) (hc : p.cs = some s) (hm : MayStore c s p.ptr1)
      (hs : CStep c split s (.stored 1 p.ptr1 0 0 v) s') : PStep c split f len v p { p with cs := some s', wp := .reset }
  /-- 142: the store faults -/
  | snap {p : Prog} {s : CState} {q : Nat} (hw : p.wp = .store) (hc : p.cs = some s) (hm : MayStore c s p.ptr1)
      (ht : s.th 1 = .idle) (hp : s.pend 1 = none) (hsp : split = true)
      (hx : s.mem.src ((cpuAddr c p.ptr1 0 + 0) / c.pg) = some q) :
      PStep c split f len v p { p with cs := some { s with
        pend := upd s.pend 1 (some ⟨p.ptr1, cpuAddr c p.ptr1 0 + 0, snapOf c.pg s.mem (cpuAddr c p.ptr1 0 + 0)⟩) } }
  | badStore {p : Prog} (hw : p.wp = .store) (hm : ∀ s, p.cs = some s → ¬ MayStore c s p.ptr1) :
      PStep c split f len v p { p with wp := .misuse }
  /-- 144 -/
  | reset {p : Prog} (hw : p.wp = .reset) : PStep c split f len v p { p with phase := false, wp := .wait }
  /-- a step inside the pool, of the kernel or of other code -/
  | inside {p : Prog} {s s' : CState} (hc : p.cs = some s) (hs : CStep c split s .tau s') (hq : Quiet s s') :
      PStep c split f len v p { p with cs := some s' }

/-- Executions from `main` (150-178). -/
inductive PReach (c : Config) (split : Bool) (f : Nat → Byte) (len : Nat) (v : Byte) : Prog → Prop
  | init (m1 m2 : Nat) : PReach c split f len v
      { cs := none, phase := false, stopInit := false, stopWriter := false, ptr1 := m1, ptr2 := m2, ip := .head, wp := .wait }
  | step {p p' : Prog} (h : PReach c split f len v p) (hs : PStep c split f len v p p') : PReach c split f len v p'

end Verif.CowTest
