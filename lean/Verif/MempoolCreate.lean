import Verif.Mempool
/-
Model of pool attributes and `rseq_mempool_create` (src/rseq-mempool.c:926-1026, 1296-1398).
-/
namespace Verif.Mempool
open Verif

variable [Abi]

/-- `enum mempool_type` (78-81). -/
inductive PoolType where
  | percpu | global
  deriving DecidableEq, Repr

/-- `struct rseq_mempool_attr` (83-100). `policy` is the raw enum value (0 = COW_INIT, 1 = COW_ZERO,
anything else is unknown; mempool.h:525-549). `initFn` stands for the callback pointer and its private
data. -/
structure Attr where
  initSet : Bool := false
  initFn : Nat := 0
  robustSet : Bool := false
  type : PoolType := .percpu
  stride : Word := 0#_
  maxNrCpus : Int := 0
  maxRanges : Nat := 0
  poisonSet : Bool := false
  poison : Word := 0#_
  policy : Nat := 0
  deriving DecidableEq, Repr

/-- Result of a setter: -1 with errno EINVAL, or 0 with the new content. -/
inductive SetRes where
  | einval
  | ok (a : Attr)
  deriving DecidableEq, Repr

/-- `if (!attr) { errno = EINVAL; return -1; } ...; return 0;`, common to all setters. -/
def setAttr (a : Option Attr) (f : Attr → Attr) : SetRes :=
  match a with
  | none => .einval
  | some a => .ok (f a)

/-- `rseq_mempool_attr_set_init` (1306-1319). -/
def setInit (fn : Nat) (a : Option Attr) : SetRes :=
  setAttr a fun a => { a with initSet := true, initFn := fn, policy := 0 }
/-- `rseq_mempool_attr_set_robust` (1321-1329). -/
def setRobust (a : Option Attr) : SetRes := setAttr a fun a => { a with robustSet := true }
/-- `rseq_mempool_attr_set_percpu` (1331-1342). -/
def setPercpu (stride : Word) (n : Int) (a : Option Attr) : SetRes :=
  setAttr a fun a => { a with type := .percpu, stride := stride, maxNrCpus := n }
/-- `rseq_mempool_attr_set_global` (1344-1355). -/
def setGlobal (stride : Word) (a : Option Attr) : SetRes :=
  setAttr a fun a => { a with type := .global, stride := stride, maxNrCpus := 0 }
/-- `rseq_mempool_attr_set_max_nr_ranges` (1357-1366). -/
def setMaxRanges (n : Nat) (a : Option Attr) : SetRes := setAttr a fun a => { a with maxRanges := n }
/-- `rseq_mempool_attr_set_poison` (1368-1378). -/
def setPoison (v : Word) (a : Option Attr) : SetRes :=
  setAttr a fun a => { a with poisonSet := true, poison := v }
/-- `rseq_mempool_attr_set_populate_policy` (1380-1389). -/
def setPolicy (p : Nat) (a : Option Attr) : SetRes := setAttr a fun a => { a with policy := p }

/-- Result of the validation part of create. `ub`: shift by the word width (`1UL << order`, 944). -/
inductive Check where
  | einval
  | ub
  | cfg (c : Config)
  deriving DecidableEq, Repr

/-- Default poison for robust pools without an explicit one (60-70, 987-993). -/
def defaultPoison (cow : Bool) : Word :=
  if cow then (if wb = 4 then 0x55555555#_ else 0x5555555555555555#_) else 0#_

/-- Lines 985-998 of `rseq_mempool_create`. -/
def validateTail (a : Attr) (order : Nat) (pg : Nat) (cow : Bool) (ncpu : Nat) (global : Bool) : Check :=
  let stride := if a.stride = 0#_ then 65536#_ else a.stride
  let poison : Option Word :=
    if a.robustSet && !a.poisonSet then some (defaultPoison cow)
    else if a.poisonSet then some a.poison else none
  if 2 ^ order > stride.toNat ∨ stride.toNat < pg ∨ Bits.isPow2 (stride.setWidth 64) = false then .einval
  else .cfg { pg := pg, order := order, stride := stride.toNat, ncpu := ncpu, cow := cow, robust := a.robustSet,
              poison := poison, maxRanges := a.maxRanges, initSet := a.initSet, global := global }

/-- Lines 934-998 of `rseq_mempool_create`: `pg` is `rseq_get_page_len()`, `detected` is
`rseq_get_max_nr_cpus()` (never negative, src/smp.c:231-279). -/
def validate (attr : Option Attr) (itemLen : Word) (pg : Nat) (detected : Nat) : Check :=
  let itemLen := if itemLen.toNat < wb then BitVec.ofNat _ wb else itemLen
  let order := Bits.countOrderUlong itemLen
  if order < 0 then .einval
  else if order ≥ 8 * wb then .ub
  else
    let a := attr.getD {}
    if a.policy ≠ 0 ∧ a.policy ≠ 1 then .einval
    else match a.type with
    | .percpu =>
      if a.maxNrCpus < 0 then .einval
      else if a.maxNrCpus = 0 then
        if detected = 0 then .einval
        else validateTail a order.toNat pg (a.policy == 0) detected false
      else validateTail a order.toNat pg (a.policy == 0) a.maxNrCpus.toNat false
    | .global => validateTail a order.toNat pg false 1 true

/-- Result of create: NULL with errno, undefined behaviour, or a pool. -/
inductive CreateRes where
  | null (e : Errno)
  | ub
  | pool (c : Config) (s : State)

/-- `rseq_mempool_create` (926-1026). `callocOk`: the pool structure allocation (1000-1002, errno
ENOMEM set by calloc); `nameOk`: no name was given or strdup succeeds (1015-1019). The cleanup of
1022-1025 destroys a pool without live items (no abort: `create_cleanup` in MempoolCreateProps). -/
def create (attr : Option Attr) (itemLen : Word) (pg detected : Nat) (callocOk nameOk : Bool)
    (env : RangeEnv) (m : Mem) : CreateRes :=
  match validate attr itemLen pg detected with
  | .einval => .null .EINVAL
  | .ub => .ub
  | .cfg c =>
    if !callocOk then .null .ENOMEM
    else match (rangeCreate c ⟨[], 0, 0⟩ m env).2 with
      | none => .null .ENOMEM
      | some (r, m) =>
        if nameOk then .pool c { pool := ⟨[r], 0, 1⟩, mem := m } else .null .ENOMEM

/-- `rseq_mempool_get_max_nr_cpus` (1391-1398): `none` is -1 with EINVAL. -/
def getMaxNrCpus (c : Option Config) : Option Nat :=
  match c with
  | none => none
  | some c => if c.global then none else some c.ncpu

end Verif.Mempool
