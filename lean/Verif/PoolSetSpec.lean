import Verif.PoolSet
import Verif.MempoolMultiProps
/-
Specification vocabulary for pool sets (C22-C24): a process with a set, its histories, and what "room" means.
-/
namespace Verif.PoolSet
open Verif Verif.Mem Verif.Mempool

variable [Abi]

/-! ### Specification -/

/-- A process with one pool set: `set o` is the pool of order `o` in the set, `others` the pools outside. -/
structure SState where
  mem : Mem
  others : List Entry
  set : Nat → Option Entry

/-- The pools of the set, as a list. -/
def SState.inSet (st : SState) : List Entry := (List.range (8 * wb)).filterMap st.set

/-- All pools of the process. -/
def SState.all (st : SState) : List Entry := st.others ++ st.inSet

/-- What the code sees of the set. -/
def SState.table (st : SState) : Table := fun o => (st.set o).map fun e => (e.c, e.pool)

/-- The pool can satisfy an allocation: an item was freed, or some slot of some range was never handed out, or a range
can be added. -/
def HasRoom (e : Entry) (env : RangeEnv) : Prop :=
  e.freed ≠ [] ∨ e.live.length < e.pool.ranges.length * itemsPerRange e.c ∨
  ((e.c.maxRanges = 0 ∨ e.pool.ranges.length < e.c.maxRanges) ∧ ¬ Refused e.c env)

/-- Items of `e` are large enough for `len` bytes. -/
def Fits (e : Entry) (len : Nat) : Prop := len ≤ e.c.itemLen

/-- The system's answers respect its guarantees for every pool of the set. -/
def EnvsOK (st : SState) (envs : Nat → RangeEnv) : Prop :=
  ∀ o e, st.set o = some e → EnvOK e.c e.pool.ranges st.mem (envs o) ∧
    ∀ base, (envs o).base = some base → ∀ e2 ∈ st.all, e2 ≠ e → ∀ r ∈ e2.pool.ranges, Apart2 e.c base e2.c r.base

/-- The set after a successful allocation of `p` from the pool of order `o`. -/
def SState.afterMalloc (st : SState) (o p : Nat) (pool : Pool) (m : Mem) : SState :=
  { st with mem := m, set := fun x => if x = o then (st.set o).map fun e => e.afterMalloc pool (.ptr p) else st.set x }

/-- Histories of a process with a pool set. -/
inductive SReach (pg : Nat) : SState → Prop where
  /-- `rseq_mempool_set_create` in any process -/
  | create (w : World) (h : WReach pg w) : SReach pg ⟨w.mem, w.entries, fun _ => none⟩
  /-- anything the process does with pools outside the set, stores to live items, unrelated memory changes -/
  | world (st : SState) (m' : Mem) (others' : List Entry) (h : SReach pg st)
      (hs : WStep pg ⟨st.mem, st.all⟩ ⟨m', others' ++ st.inSet⟩) : SReach pg ⟨m', others', st.set⟩
  /-- a successful `rseq_mempool_set_add_pool` -/
  | add (st : SState) (pre post : List Entry) (e : Entry) (t' : Table) (h : SReach pg st) (ho : st.others = pre ++ e :: post)
      (ha : addPool st.table e.c e.pool = some t') :
      SReach pg ⟨st.mem, pre ++ post, fun o => if o = e.c.order then some e else st.set o⟩
  /-- a successful set allocation -/
  | malloc (st : SState) (zeroed : Bool) (init : Option (Nat → Byte)) (len : Word) (envs : Nat → RangeEnv) (o p : Nat)
      (t' : Table) (m' : Mem) (c : Config) (pool : Pool) (h : SReach pg st) (henv : EnvsOK st envs)
      (hm : setMalloc zeroed init len envs st.table st.mem = .ok (.ptr o p, t', m')) (ht : t' o = some (c, pool)) :
      SReach pg (st.afterMalloc o p pool m')
  /-- freeing an item of a pool of the set -/
  | free (st : SState) (o p : Nat) (e : Entry) (s' : State) (h : SReach pg st) (ho : st.set o = some e) (hp : p ∈ e.live)
      (hf : Mempool.free e.c p { pool := e.pool, mem := st.mem } = .ok s') :
      SReach pg { st with
        mem := s'.mem
        set := fun x => if x = o then some { e with pool := s'.pool, live := e.live.erase p, freed := p :: e.freed } else st.set x }

end Verif.PoolSet
