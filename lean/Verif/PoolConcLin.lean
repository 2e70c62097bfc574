import Verif.PoolConc
/-
What a linearizable pool is: the calls, returns and effects of the threads of `PoolConc`, read off the changes of
their states, and an atomic allocator with a last-in-first-out free list to compare them with.

The effect of an allocation is its release of the pool lock (rseq-mempool.c 1109) and the effect of a free is its
release of the lock (1186).
-/
namespace Verif.PoolConc
open Verif Verif.Mem Verif.Mempool MProg

/-- What a thread does, seen from outside. -/
inductive Act where
  /-- a call of one of the allocation functions -/
  | callAlloc
  /-- effect: item `p` is taken -/
  | took (p : Nat)
  /-- effect: there is no item -/
  | refused
  /-- the allocation function returns `p` -/
  | ret (p : Nat)
  /-- the allocation function returns NULL -/
  | retNull
  /-- a call of `rseq_percpu_free` -/
  | callFree (p : Nat)
  /-- effect: item `p` is given back -/
  | gave (p : Nat)
  /-- `rseq_percpu_free` returns -/
  | retFree
  deriving DecidableEq, Repr

/-- The effects among them. -/
def Act.effect : Act → Bool
  | .took _ | .refused | .gave _ => true
  | _ => false

/-- What a thread did if its state went from `a` to `b`. -/
def acts [Abi] (a b : TSt) : List Act :=
  match a, b with
  | .idle, .wantAlloc _ => [.callAlloc]
  | .inAlloc _ _, .filling _ p _ => [.took p]
  | .inAlloc _ _, .idle => [.refused, .retNull]
  | .filling _ p _, .idle => [.ret p]
  | .idle, .wantFree p => [.callFree p]
  | .inFree p _ _, .idle => [.gave p, .retFree]
  | _, _ => []

/-- An event: thread and what it does. -/
abbrev Event := Nat × Act

/-- `e`, oldest event first, is what happened up to the state `s`. -/
inductive Hist [Abi] (c : Config) (split : Bool) : List Event → CState → Prop
  | create (m0 : Mem) (env : RangeEnv) (r : Range) (m : Mem) (hwf : m0.WF) (henv : EnvOK c [] m0 env)
      (h : (rangeCreate c ⟨[], 0, 0⟩ m0 env).2 = some (r, m)) :
      Hist c split [] { mem := m, pool := ⟨[r], 0, 1⟩, lock := none, th := fun _ => .idle, pend := fun _ => none, live := [] }
  | step {e : List Event} {s s' : CState} {l : Lab} (t : Nat) (h : Hist c split e s) (hs : CStep c split s l s')
      (ht : ∀ u, u ≠ t → s'.th u = s.th u) :
      Hist c split (e ++ (acts (s.th t) (s'.th t)).map (Prod.mk t)) s'

/-- The effects of a history. -/
def effects (e : List Event) : List Event := e.filter fun x => x.2.effect

/-- The atomic allocator: histories of effects it allows, with the items taken (`L`) and the free list (`F`) they
lead to.  The last item given back is taken first; a new item is used only if there is none; only then can a request
be refused; only a taken item can be given back. -/
inductive Atomic : List Event → List Nat → List Nat → Prop
  | nil : Atomic [] [] []
  | reuse {e : List Event} {L F : List Nat} {t p : Nat} (h : Atomic e L (p :: F)) : Atomic (e ++ [(t, .took p)]) (p :: L) F
  | fresh {e : List Event} {L : List Nat} {t p : Nat} (h : Atomic e L []) (hp : ∀ u, (u, Act.took p) ∉ e) :
      Atomic (e ++ [(t, .took p)]) (p :: L) []
  | refuse {e : List Event} {L : List Nat} {t : Nat} (h : Atomic e L []) : Atomic (e ++ [(t, .refused)]) L []
  | give {e : List Event} {L F : List Nat} {t p : Nat} (h : Atomic e L F) (hp : p ∈ L) :
      Atomic (e ++ [(t, .gave p)]) (L.erase p) (p :: F)

/-- What one thread does. -/
def actsOf (t : Nat) (e : List Event) : List Act := (e.filter fun x => x.1 == t).map Prod.snd

/-- Where a thread is in a call. -/
inductive Mode where
  | out
  | allocating
  | got (p : Nat)
  | denied
  | freeing (p : Nat)
  | freed
  deriving DecidableEq, Repr

/-- Calls and returns of one thread alternate, and each call has exactly one effect between its call and its return:
the one the return reports. -/
inductive Calls : List Act → Mode → Prop
  | nil : Calls [] .out
  | callAlloc {l : List Act} (h : Calls l .out) : Calls (l ++ [.callAlloc]) .allocating
  | took {l : List Act} {p : Nat} (h : Calls l .allocating) : Calls (l ++ [.took p]) (.got p)
  | ret {l : List Act} {p : Nat} (h : Calls l (.got p)) : Calls (l ++ [.ret p]) .out
  | refused {l : List Act} (h : Calls l .allocating) : Calls (l ++ [.refused]) .denied
  | retNull {l : List Act} (h : Calls l .denied) : Calls (l ++ [.retNull]) .out
  | callFree {l : List Act} {p : Nat} (h : Calls l .out) : Calls (l ++ [.callFree p]) (.freeing p)
  | gave {l : List Act} {p : Nat} (h : Calls l (.freeing p)) : Calls (l ++ [.gave p]) .freed
  | retFree {l : List Act} (h : Calls l .freed) : Calls (l ++ [.retFree]) .out

/-- How far a thread is according to its state. -/
def TSt.mode [Abi] : TSt → Option Mode
  | .idle => some .out
  | .wantAlloc _ => some .allocating
  | .inAlloc _ _ => some .allocating
  | .filling _ p _ => some (.got p)
  | .wantFree p => some (.freeing p)
  | .inFree p _ _ => some (.freeing p)
  | .dead => none

/-- Items taken and not given back. -/
def outstanding (e : List Event) : Int :=
  (e.map fun x => match x.2 with
    | .took _ => (1 : Int)
    | .gave _ => -1
    | _ => 0).sum

/-- One step of the atomic allocator (used in the proofs). -/
inductive Effect : List Nat → List Nat → List Act → List Nat → List Nat → Prop
  | none {L F : List Nat} : Effect L F [] L F
  | reuse {L F : List Nat} {p : Nat} : Effect L (p :: F) [.took p] (p :: L) F
  | fresh {L : List Nat} {p : Nat} (hp : p ∉ L) : Effect L [] [.took p] (p :: L) []
  | refuse {L : List Nat} : Effect L [] [.refused] L []
  | give {L F : List Nat} {p : Nat} (hp : p ∈ L) : Effect L F [.gave p] (L.erase p) (p :: F)

end Verif.PoolConc
