import Verif.MempoolCreate
import Verif.MempoolMulti
/-
Model of pool sets, src/rseq-mempool.c:41-52, 178-187 and 1189-1294
(POOL_SET_NR_ENTRIES is the number of bits of a word).

The set's lock protects the table only; the functions below are what one caller does.  Allocation
releases the lock before it uses the pool it found (1260), pools are never removed from a set except by
destroying it.
-/
namespace Verif.PoolSet
open Verif Verif.Mempool

variable [Abi]

/-- `POOL_SET_MIN_ENTRY` (45-52): the order of a pointer. -/
def minEntry : Nat := if wb = 4 then 2 else 3

/-- `struct rseq_mempool_set` (183-187): pools indexed by order. -/
abbrev Table := Nat → Option (Config × Pool)

/-- `rseq_mempool_set_create` (1189-1198): `calloc`. -/
def empty : Table := fun _ => none

/-- `rseq_mempool_set_add_pool` (1221-1236): `none` is -1 with EBUSY. -/
def addPool (t : Table) (c : Config) (pool : Pool) : Option Table :=
  match t c.order with
  | some _ => none
  | none => some fun o => if o = c.order then some (c, pool) else t o

/-- Arguments of `__rseq_percpu_malloc(pool, zeroed, init_ptr, len)` (1052-1120) in terms of `Fill`:
`zeroed` wins over `init_ptr` (1111-1118). -/
def fillOf (zeroed : Bool) (init : Option (Nat → Byte)) (len : Nat) : Fill :=
  if zeroed then .zero
  else match init with
    | some f => .init f len
    | none => .plain len

/-- `__rseq_percpu_malloc` with the length check of 1061-1064 made explicit (`Fill.zero` carries no length). -/
def mallocLen (c : Config) (zeroed : Bool) (init : Option (Nat → Byte)) (len : Nat) (env : RangeEnv) (s : State) :
    Outcome (Ret × State) :=
  if len > c.itemLen then .ok (.null .EINVAL, s) else malloc c (fillOf zeroed init len) env s

/-- The search loop of `__rseq_mempool_set_malloc` (1250-1257): the index of the pool found. -/
def search (t : Table) (len order : Nat) : Option Nat :=
  if order < 8 * wb then
    match t order with
    | none => search t len (order + 1)
    | some (c, _) => if c.itemLen ≥ len then some order else search t len (order + 1)
  else none
  termination_by 8 * wb - order

theorem search_bounds {t : Table} {len order o : Nat} (h : search t len order = some o) : order ≤ o ∧ o < 8 * wb := by
  fun_induction search t len order with
  | case1 order hlt hn ih => have := ih h; omega
  | case2 order hlt c p hn hge => cases h; omega
  | case3 order hlt c p hn hge ih => have := ih h; omega
  | case4 => cases h

/-- Result of a set allocation. -/
inductive SetRet where
  | ptr (order p : Nat)
  | null (e : Errno)
  deriving DecidableEq, Repr

/-- The `again` loop (1247-1277); `envs o` is what the system answers if the pool of order `o` creates a range. -/
def setLoop (zeroed : Bool) (init : Option (Nat → Byte)) (len : Nat) (envs : Nat → RangeEnv)
    (minOrder : Nat) (t : Table) (m : Mem) : Outcome (SetRet × Table × Mem) :=
  match _hs : search t len minOrder with
  | none => .ok (.null .ENOMEM, t, m)
  | some o =>
    match t o with
    | none => .ub
    | some (c, pool) =>
      match mallocLen c zeroed init len (envs o) { pool := pool, mem := m } with
      | .ub => .ub
      | .aborted w => .aborted w
      | .ok (.ptr p, s) => .ok (.ptr o p, (fun x => if x = o then some (c, s.pool) else t x), s.mem)
      | .ok (.null .ENOMEM, s) =>
        setLoop zeroed init len envs (o + 1) (fun x => if x = o then some (c, s.pool) else t x) s.mem
      | .ok (.null e, s) => .ok (.null e, (fun x => if x = o then some (c, s.pool) else t x), s.mem)
  termination_by 8 * wb - minOrder
  decreasing_by have := search_bounds _hs; omega

/-- `min_order` (1241-1246). -/
def minOrder (len : Word) : Nat :=
  if Bits.countOrderUlong len > minEntry then (Bits.countOrderUlong len).toNat else minEntry

/-- `__rseq_mempool_set_malloc` (1238-1278). -/
def setMalloc (zeroed : Bool) (init : Option (Nat → Byte)) (len : Word) (envs : Nat → RangeEnv) (t : Table) (m : Mem) :
    Outcome (SetRet × Table × Mem) :=
  setLoop zeroed init len.toNat envs (minOrder len) t m

/-- `rseq_mempool_set_percpu_malloc` (1280-1283). -/
def percpuMalloc (len : Word) := setMalloc false none len
/-- `rseq_mempool_set_percpu_zmalloc` (1285-1288). -/
def percpuZmalloc (len : Word) := setMalloc true none len
/-- `rseq_mempool_set_percpu_malloc_init` (1290-1294): passes `zeroed = true`. -/
def percpuMallocInit (f : Nat → Byte) (len : Word) := setMalloc true (some f) len

/-- The loop of `rseq_mempool_set_destroy` (1204-1214) over the orders in `l`: `res o` is the return value of
`rseq_mempool_destroy` on the pool of order `o`. Result: return value, orders whose pool was destroyed (in order), and
the table left behind. -/
def destroyLoop (res : Nat → Int) : List Nat → Table → List Nat → Int × List Nat × Table
  | [], t, done => (0, done, t)
  | o :: rest, t, done =>
    match t o with
    | none => destroyLoop res rest t done
    | some _ =>
      if res o ≠ 0 then (res o, done ++ [o], t)
      else destroyLoop res rest (fun x => if x = o then none else t x) (done ++ [o])

/-- `rseq_mempool_set_destroy` (1200-1218). -/
def setDestroy (res : Nat → Int) (t : Table) : Int × List Nat × Table :=
  destroyLoop res ((List.range (8 * wb)).drop minEntry) t []

end Verif.PoolSet
