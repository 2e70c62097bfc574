import Verif.MempoolSpec
/-
The comparison `rseq_cmp_item` (src/rseq-mempool.c:251-267) with C's rule for the signed subtraction at
line 260: `v - cmp_value` on `intptr_t` is undefined when the difference does not fit. `Verif.Mempool`
lets it wrap; here the outcome is `ub`, and the callers (zeroing, poisoning, poison checks; malloc,
free, destroy) are given again on top of it. Everything else is as in `Verif.Mempool`.
-/
namespace Verif.Mempool
open Verif

variable [Abi]

/-- `v - cmp` does not fit in an `intptr_t`. -/
def subOverflows (v cmp : Word) : Bool :=
  decide (v.toInt - cmp.toInt < -(2 ^ (8 * wb - 1) : Int)) || decide ((2 ^ (8 * wb - 1) : Int) ≤ v.toInt - cmp.toInt)

/-- The loop of `rseq_cmp_item` (257-265) from `offset` on, with `n` words left. -/
def cmpLoopS (pg : Nat) (m : Mem) (p : Nat) (cmp : Word) : (n offset : Nat) → Outcome Word
  | 0, _ => .ok 0#_
  | n + 1, offset =>
    let v := m.readWord pg (p + offset)
    if subOverflows v cmp then .ub
    else
      let res := v - cmp
      if res ≠ 0#_ then .ok res else cmpLoopS pg m p cmp n (offset + wb)

/-- `rseq_cmp_item` (251-267). -/
def cmpItemS (pg : Nat) (m : Mem) (p itemLen : Nat) (cmp : Word) : Outcome Word :=
  cmpLoopS pg m p cmp (itemLen / wb) 0

/-- `for (i = 0; i < max_nr_cpus; i++) body(i)`, stopping at the first body that does not return. -/
def forCpusS (body : Nat → Mem → Outcome Mem) : Nat → Mem → Outcome Mem
  | 0, m => .ok m
  | n + 1, m => match forCpusS body n m with
    | .ok m => body n m
    | .aborted w => .aborted w
    | .ub => .ub

/-- The loop body 279-299: skip a copy that is already zero. -/
def zeroCpuS (c : Config) (r : Range) (off i : Nat) (m : Mem) : Outcome Mem :=
  let p := percpuPtr c r i off
  match cmpItemS c.pg m p c.itemLen 0#_ with
  | .ok res => .ok (if res = 0#_ then m else bzero c.pg m p c.itemLen)
  | .aborted w => .aborted w
  | .ub => .ub

/-- `rseq_percpu_zero_item` (269-300). -/
def zeroItemS (c : Config) (r : Range) (off : Nat) (m : Mem) : Outcome Mem :=
  forCpusS (zeroCpuS c r off) c.ncpu (match initPtr r off with
    | some p => bzero c.pg m p c.itemLen
    | none => m)

/-- The loop body 349-366: skip a copy that already holds the poison. -/
def poisonCpuS (c : Config) (r : Range) (off : Nat) (poison : Word) (i : Nat) (m : Mem) : Outcome Mem :=
  let p := percpuPtr c r i off
  match cmpItemS c.pg m p c.itemLen poison with
  | .ok res => .ok (if res = 0#_ then m else poisonBlock c.pg m p c.itemLen poison)
  | .aborted w => .aborted w
  | .ub => .ub

/-- `rseq_percpu_poison_item` (338-367). -/
def poisonItemS (c : Config) (r : Range) (off : Nat) (poison : Word) (m : Mem) : Outcome Mem :=
  forCpusS (poisonCpuS c r off poison) c.ncpu (match initPtr r off with
    | some p => poisonBlock c.pg m p c.itemLen poison
    | none => m)

/-- `rseq_check_poison_item` (371-382) on a list of copies, in order: an overflow is undefined, the first
difference aborts. -/
def checkCopiesS (c : Config) (poison : Word) (m : Mem) : List Nat → Outcome Unit
  | [] => .ok ()
  | p :: ps => match cmpItemS c.pg m p c.itemLen poison with
    | .ok res => if res = 0#_ then checkCopiesS c poison m ps else .aborted .poison
    | .aborted w => .aborted w
    | .ub => .ub

/-- The copies looked at by `rseq_percpu_check_poison_item` (395-402): the init copy first, then every
CPU. -/
def checkedCopies (c : Config) (r : Range) (off : Nat) : List Nat :=
  (initPtr r off).toList ++ (List.range c.ncpu).map fun i => percpuPtr c r i off

/-- `rseq_percpu_check_poison_item` (384-403). -/
def checkPoisonItemS (c : Config) (r : Range) (off : Nat) (m : Mem) : Outcome Unit :=
  if !c.robust then .ok ()
  else checkCopiesS c (c.poison.getD 0#_) m (checkedCopies c r off)

/-- The fill after unlock (1111-1118); `malloc_init` compares with `memcmp` (323), which does not
subtract. -/
def fillItemS (c : Config) (r : Range) (off : Nat) : Fill → Mem → Outcome Mem
  | .plain _, m => .ok m
  | .zero, m => zeroItemS c r off m
  | .init f len, m => .ok (initItem c r off f len m)

/-- Locked part of `__rseq_percpu_malloc` (1065-1110): when the free list is not empty the copies of its
first item are compared with the poison (1077). -/
def lockedAllocS (c : Config) (env : RangeEnv) (s : State) : Outcome (Choice × State) :=
  if s.pool.head ≠ 0 then
    let ptr := freeListToPercpu c s.pool.head
    let rangeBase := ptr - ptr % c.stride
    match findRange s.pool.ranges rangeBase with
    | none => .ub
    | some r =>
      match checkPoisonItemS c r (ptr - rangeBase) s.mem with
      | .ub => .ub
      | .aborted w => .aborted w
      | .ok () => lockedAlloc c env s
  else lockedAlloc c env s

/-- `__rseq_percpu_malloc` (1052-1120). -/
def mallocS (c : Config) (fill : Fill) (env : RangeEnv) (s : State) : Outcome (Ret × State) :=
  if fill.len > c.itemLen then .ok (.null .EINVAL, s)
  else match lockedAllocS c env s with
    | .ub => .ub
    | .aborted w => .aborted w
    | .ok (.null e, s) => .ok (.null e, s)
    | .ok (.item r off addr, s) =>
      match fillItemS c r off fill s.mem with
      | .ok m => .ok (.ptr addr, { s with mem := m })
      | .aborted w => .aborted w
      | .ub => .ub

/-- Poisoning of a freed item, if the pool has a poison value (1177-1178). -/
def freePoisonS (c : Config) (r : Range) (off : Nat) (m : Mem) : Outcome Mem :=
  match c.poison with
  | some v => poisonItemS c r off v m
  | none => .ok m

/-- `librseq_mempool_percpu_free` (1163-1187). -/
def freeS (c : Config) (ptr : Nat) (s : State) : Outcome State :=
  let rangeBase := ptr - ptr % c.stride
  match findRange s.pool.ranges rangeBase with
  | none => .ub
  | some r =>
    let off := ptr % c.stride
    match clearAllocSlot c r off with
    | none => .aborted .doubleFree
    | some r' =>
      let head := s.pool.head
      match freePoisonS c r off s.mem with
      | .ub => .ub
      | .aborted w => .aborted w
      | .ok m =>
        let item := percpuToFreeList c ptr
        let m := m.writeWord c.pg item (BitVec.ofNat (8 * wb) head)
        .ok { s with mem := m, pool := { s.pool with ranges := putRange s.pool.ranges r', head := item } }

/-- The loop of `check_range_poison` (551-561). -/
def checkRangePoisonS (c : Config) (r : Range) (m : Mem) : (n off : Nat) → Outcome Unit
  | 0, _ => .ok ()
  | n + 1, off => match checkPoisonItemS c r off m with
    | .ok () => checkRangePoisonS c r m n (off + c.itemLen)
    | .aborted w => .aborted w
    | .ub => .ub

/-- `check_pool_poison` (563-573). -/
def checkPoolPoisonS (c : Config) (m : Mem) : List Range → Outcome Unit
  | [] => .ok ()
  | r :: rs => match checkRangePoisonS c r m ((r.nextUnused + c.itemLen - 1) / c.itemLen) 0 with
    | .ok () => checkPoolPoisonS c m rs
    | .aborted w => .aborted w
    | .ub => .ub

/-- `rseq_mempool_destroy` (890-924). -/
def destroyS (c : Config) (ok : Nat → Bool) (s : State) : Outcome DestroyResult :=
  let accessible := mappingsAccessible c s.pool
  if c.robust && accessible then
    if !s.itemsMapped then .ub
    else match checkFreeList c s with
      | .ub => .ub
      | .aborted w => .aborted w
      | .ok () =>
        match checkPoolPoisonS c s.mem s.pool.ranges with
        | .ub => .ub
        | .aborted w => .aborted w
        | .ok () => destroyLoop c accessible ok s.pool.ranges 0 []
  else destroyLoop c accessible ok s.pool.ranges 0 []

/-! ### Specification -/

/-- The difference of two `intptr_t` values is not an `intptr_t` value. -/
def Overflow (v w : Word) : Prop :=
  ¬ (-(2 ^ (8 * wb - 1) : Int) ≤ v.toInt - w.toInt ∧ v.toInt - w.toInt < (2 ^ (8 * wb - 1) : Int))

/-- The byte at offset `o` of CPU `cpu`'s copy as the poisoning loop sees it: bytes still shared with the
init copy already read as poison. -/
def seenByte (c : Config) (m : Mem) (v : Word) (p cpu o : Nat) : Byte :=
  if m.resolve c.pg (cpuAddr c p cpu + o) = cpuAddr c p cpu + o then m.read c.pg (cpuAddr c p cpu + o)
  else Mem.wordByte v (o % wb)

/-- Word `k` of the same copy. -/
def seenWord (c : Config) (m : Mem) (v : Word) (p cpu k : Nat) : Word :=
  Mem.joinBytes fun j => seenByte c m v p cpu (wb * k + j)

end Verif.Mempool
