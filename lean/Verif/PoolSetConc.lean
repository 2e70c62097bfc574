import Verif.PoolSetProps
/-
Concurrent use of a pool set, src/rseq-mempool.c:1220-1294: any number of threads allocate from the set, add pools
and free items.

An allocation is not one atomic action: it takes the lock of the set to search a pool (1248-1260), releases it, takes the
lock of the pool to allocate (1262), and starts over with larger pools when that fails (1263-1269).  Between these steps
any other thread may run.  One step here is one critical section: the search, the allocation from one pool
(its bytewise interleaving is the subject of `Verif.PoolConc`), `rseq_mempool_set_add_pool` (1226-1234), one free, or
anything the process does with pools outside the set.

`pool->item_order` (1223) and `pool->item_len` (1255) never change after the creation of the pool.  `errno` (1263) is
local to the thread.  `rseq_mempool_set_destroy` is not concurrent with anything (its caller ends all use of the set).
-/
namespace Verif.PoolSet
open Verif Verif.Mem Verif.Mempool

variable [Abi]

/-- Arguments of `__rseq_mempool_set_malloc` (1238-1240). -/
structure Call where
  zeroed : Bool
  init : Option (Nat → Byte)
  len : Word

/-- Where a thread is in `__rseq_mempool_set_malloc`. -/
inductive TSt where
  /-- not in the function -/
  | idle
  /-- at `again` (1247) with this `min_order` -/
  | search (c : Call) (minOrder : Nat)
  /-- at 1262 with `pool = pool_set->entries[order]` -/
  | use (c : Call) (order : Nat)
  /-- returned -/
  | done (c : Call) (r : SetRet)
  /-- undefined behaviour, or the process was aborted -/
  | crashed

/-- A process with a pool set and threads. -/
structure CSt where
  st : SState
  thr : Nat → TSt

def CSt.setThr (s : CSt) (t : Nat) (x : TSt) : Nat → TSt := fun u => if u = t then x else s.thr u

/-- What happens in a step. -/
inductive Lbl where
  | call (t : Nat)
  | search (t : Nat)
  /-- the thread allocates from the pool it found; `env` is what the system answers if the pool adds a range -/
  | malloc (t : Nat) (env : RangeEnv)
  | add (t : Nat)
  | free (t : Nat)
  | other

/-- The pool `e'` instead of the pool of order `o`. -/
def SState.put (st : SState) (o : Nat) (e' : Entry) (m : Mem) : SState :=
  { st with mem := m, set := fun x => if x = o then some e' else st.set x }

/-- The system's answer respects its guarantees. -/
def EnvFor (st : SState) (e : Entry) (env : RangeEnv) : Prop :=
  EnvOK e.c e.pool.ranges st.mem env ∧
    ∀ base, env.base = some base → ∀ e2 ∈ st.all, e2 ≠ e → ∀ r ∈ e2.pool.ranges, Apart2 e.c base e2.c r.base

/-- `min_order`, `order` (1241-1246) and the search (1247-1260) of thread `t`. -/
def searchStep (s : CSt) (t : Nat) (c : Call) (mo : Nat) : CSt :=
  match search s.st.table c.len.toNat mo with
  | some o => { s with thr := s.setThr t (.use c o) }
  | none => { s with thr := s.setThr t (.done c (.null .ENOMEM)) }

/-- The allocation of thread `t` from the pool of order `o` (1261-1270). -/
def mallocStep (s : CSt) (t : Nat) (c : Call) (o : Nat) (env : RangeEnv) : CSt :=
  match s.st.set o with
  | none => { s with thr := s.setThr t .crashed }
  | some e =>
    match mallocLen e.c c.zeroed c.init c.len.toNat env { pool := e.pool, mem := s.st.mem } with
    | .ub => { s with thr := s.setThr t .crashed }
    | .aborted _ => { s with thr := s.setThr t .crashed }
    | .ok (.ptr p, s') =>
      { st := s.st.put o (e.afterMalloc s'.pool (.ptr p)) s'.mem, thr := s.setThr t (.done c (.ptr o p)) }
    | .ok (.null er, s') =>
      { st := s.st.put o (e.afterMalloc s'.pool (.null er)) s'.mem
        thr := s.setThr t (if er = .ENOMEM then .search c (o + 1) else .done c (.null er)) }

/-- One step of a process with a pool set. -/
inductive CStep (pg : Nat) : Lbl → CSt → CSt → Prop where
  /-- a thread calls an allocation function of the set (1241-1246) -/
  | call (s : CSt) (t : Nat) (c : Call) (h : s.thr t = .idle) :
      CStep pg (.call t) s { s with thr := s.setThr t (.search c (minOrder c.len)) }
  /-- a thread that has its result goes on -/
  | ret (s : CSt) (t : Nat) (c : Call) (r : SetRet) (h : s.thr t = .done c r) :
      CStep pg .other s { s with thr := s.setThr t .idle }
  | search (s : CSt) (t : Nat) (c : Call) (mo : Nat) (h : s.thr t = .search c mo) :
      CStep pg (.search t) s (searchStep s t c mo)
  | malloc (s : CSt) (t : Nat) (c : Call) (o : Nat) (env : RangeEnv) (h : s.thr t = .use c o)
      (henv : ∀ e, s.st.set o = some e → EnvFor s.st e env) :
      CStep pg (.malloc t env) s (mallocStep s t c o env)
  /-- a successful `rseq_mempool_set_add_pool` (1221-1236); a refused one changes nothing -/
  | add (s : CSt) (t : Nat) (pre post : List Entry) (e : Entry) (t' : Table) (ho : s.st.others = pre ++ e :: post)
      (ha : addPool s.st.table e.c e.pool = some t') :
      CStep pg (.add t) s { s with st := ⟨s.st.mem, pre ++ post, fun o => if o = e.c.order then some e else s.st.set o⟩ }
  /-- freeing a live item of a pool of the set -/
  | free (s : CSt) (t : Nat) (o p : Nat) (e : Entry) (s' : State) (ho : s.st.set o = some e) (hp : p ∈ e.live)
      (hf : Mempool.free e.c p { pool := e.pool, mem := s.st.mem } = .ok s') :
      CStep pg (.free t) s
        { s with st := s.st.put o { e with pool := s'.pool, live := e.live.erase p, freed := p :: e.freed } s'.mem }
  /-- pools outside the set, stores to live items, unrelated memory -/
  | world (s : CSt) (m' : Mem) (others' : List Entry)
      (hs : WStep pg ⟨s.st.mem, s.st.all⟩ ⟨m', others' ++ s.st.inSet⟩) :
      CStep pg .other s { s with st := ⟨m', others', s.st.set⟩ }

/-- An execution: states and labels, from a process in which no thread is inside the functions. -/
structure Exec (pg : Nat) (σ : Nat → CSt) (ℓ : Nat → Lbl) (n : Nat) : Prop where
  init : SReach pg (σ 0).st
  idle : ∀ t, (σ 0).thr t = .idle
  step : ∀ i, i < n → CStep pg (ℓ i) (σ i) (σ (i + 1))

/-- The thread is executing the call. -/
def Running (c : Call) : TSt → Prop
  | .search c' _ => c' = c
  | .use c' _ => c' = c
  | _ => False

/-- Thread `t` is executing the call `c` from `i`, where it starts, to `j`, where it has returned `r`. -/
structure Spans (σ : Nat → CSt) (t : Nat) (c : Call) (i j : Nat) (r : SetRet) : Prop where
  le : i < j
  start : (σ i).thr t = .search c (minOrder c.len)
  run : ∀ k, i ≤ k → k < j → Running c ((σ k).thr t)
  fin : (σ j).thr t = .done c r

/-- Thread `t` found no room in the pool of order `o` at step `k`. -/
def FoundFull (σ : Nat → CSt) (ℓ : Nat → Lbl) (t o k : Nat) : Prop :=
  ∃ env e, ℓ k = .malloc t env ∧ (σ k).st.set o = some e ∧ EnvFor (σ k).st e env ∧ ¬ HasRoom e env

/-- The thread that executes a part of the allocation function in a step. -/
def Lbl.inside : Lbl → Option Nat
  | .search t => some t
  | .malloc t _ => some t
  | _ => none

/-- Number of steps in `[i, j)` that are steps of thread `t` inside the function. -/
def ownSteps (ℓ : Nat → Lbl) (t i j : Nat) : Nat :=
  ((List.range j).filter fun k => decide (i ≤ k) && ((ℓ k).inside == some t)).length

end Verif.PoolSet
