import Verif.Mem
import Verif.Bits
/-
Model of the per-CPU memory pool allocator, src/rseq-mempool.c, for any machine (`Abi`: 32 or 64 bits, either
byte order).

* Memory is `Verif.Mem` (bytes, private copy-on-write pages).  The free list is threaded through this
  memory exactly where the code puts it.
* Pointers are `Nat` (addresses below 2^(8*wb)).  `stride` is a power of two (checked by create), so
  `p & ~(stride - 1)` is written `p - p % stride` and `p & (stride - 1)` is `p % stride`
  (`Verif.Bits.and_not_low` is the bit-level fact).
* The range structure lives in the header page right below `base` (base - sizeof(range));
  "the range structure at that address" is modelled by looking up the range with that base; if there
  is none the C code would interpret unrelated memory: outcome `ub`.
* The pool lock is not represented here: every function below is what one thread does while it holds
  the lock, followed by the fill of the new item (interleavings are in `Verif.PoolConc`).
* Diagnostics (`fprintf`) are represented by the abort reason only.
-/
namespace Verif.Mempool
open Verif

/-- `errno` values used by the allocator. -/
inductive Errno where
  | EINVAL | ENOMEM
  deriving DecidableEq, Repr

/-- Reasons for `abort()`. -/
inductive Abort where
  /-- rseq_check_poison_item, 379-381 -/
  | poison
  /-- set_alloc_slot, 1044-1048 -/
  | allocatorCorruption
  /-- clear_alloc_slot, 1154-1159 -/
  | doubleFree
  /-- check_free_list, 523-527 -/
  | freeListLoop
  /-- check_free_list, 530-538 -/
  | freeListRange
  /-- check_free_list, 544-548 -/
  | freeListCount
  /-- destroy_alloc_bitmap, 590-594 -/
  | leak
  deriving DecidableEq, Repr

/-- Result of running a piece of allocator code. -/
inductive Outcome (α : Type) where
  | ok (a : α)
  | aborted (why : Abort)
  /-- undefined behaviour: the code reads memory that is not what it expects -/
  | ub

variable [Abi]

/-- The validated attributes and derived item size of a pool: `struct rseq_mempool` (145-176) and
`struct rseq_mempool_attr` (83-100) after `rseq_mempool_create`. `poison = none` is
`poison_set == false`; `cow` is `populate_policy == RSEQ_MEMPOOL_POPULATE_COW_INIT`; `pg` is the
system page size. The callback pointer and its private data are represented by the oracle
`RangeEnv.cb`. -/
structure Config where
  pg : Nat
  order : Nat
  stride : Nat
  ncpu : Nat
  cow : Bool
  robust : Bool
  poison : Option Word
  maxRanges : Nat
  initSet : Bool
  global : Bool
  deriving DecidableEq, Repr

/-- `pool->item_len` (944, 1006). -/
def Config.itemLen (c : Config) : Nat := 2 ^ c.order

/-- `struct rseq_mempool_range` (104-143). `init = none` is a NULL init pointer, `bitmap = none` a NULL
bitmap; the bitmap array is a function from word index to word. `canary` is the first byte of the
first header page (809-815). The back reference `pool` and the list node are implicit. -/
structure Range where
  base : Nat
  header : Nat
  init : Option Nat
  nextUnused : Nat
  mmapAddr : Nat
  mmapLen : Nat
  bitmap : Option (Nat → Word)
  canary : Byte

/-- `struct rseq_mempool` (145-176): ranges newest first, `free_list_head` (0 = NULL),
`nr_ranges`. -/
structure Pool where
  ranges : List Range
  head : Nat
  nrRanges : Nat

/-- Pool and memory. `itemsMapped` is false in a forked child of a process owning a COW_INIT pool:
`MADV_DONTFORK` (804) leaves the item memory unmapped there. -/
structure State where
  pool : Pool
  mem : Mem
  itemsMapped : Bool := true

/-! ### Address computations -/

/-- `__rseq_pool_range_percpu_ptr` (195-200). -/
def percpuPtr (c : Config) (r : Range) (cpu off : Nat) : Nat := r.base + c.stride * cpu + off

/-- `__rseq_pool_range_init_ptr` (202-209). -/
def initPtr (r : Range) (off : Nat) : Option Nat := r.init.map (· + off)

/-- `__rseq_free_list_to_percpu_ptr` (211-230). -/
def freeListToPercpu (c : Config) (node : Nat) : Nat :=
  if c.robust then
    let p := node - c.ncpu * c.stride
    if c.cow then p - c.stride else p
  else
    if c.cow then node - c.ncpu * c.stride else node

/-- `__rseq_percpu_to_free_list_ptr` (232-249). -/
def percpuToFreeList (c : Config) (p : Nat) : Nat :=
  if c.robust then
    let p := p + c.ncpu * c.stride
    if c.cow then p + c.stride else p
  else
    if c.cow then p + c.ncpu * c.stride else p

/-! ### Item content -/

/-- The loop of `rseq_cmp_item` (251-267) from `offset` on, with `n` words left: the first non-zero
difference, or 0. (The signed subtraction is modelled as wrapping, see DESIGN F8; the
`unexpected_value` output only feeds a message.) -/
def cmpLoop (pg : Nat) (m : Mem) (p : Nat) (cmp : Word) : (n offset : Nat) → Word
  | 0, _ => 0#_
  | n + 1, offset =>
    let res := m.readWord pg (p + offset) - cmp
    if res ≠ 0#_ then res else cmpLoop pg m p cmp n (offset + wb)

/-- `rseq_cmp_item` (251-267); `item_len` is a multiple of `sizeof(intptr_t)`. -/
def cmpItem (pg : Nat) (m : Mem) (p itemLen : Nat) (cmp : Word) : Word :=
  cmpLoop pg m p cmp (itemLen / wb) 0

/-- `bzero(p, n)`. -/
def bzero (pg : Nat) (m : Mem) (p n : Nat) : Mem := m.writeBlock pg p (fun _ => 0#8) n

/-- `memcpy(p, bytes, n)` from memory the pool does not own (`f j` = byte `j` of the source). -/
def memcpy (pg : Nat) (m : Mem) (p : Nat) (f : Nat → Byte) (n : Nat) : Mem := m.writeBlock pg p f n

/-- `memcmp(bytes, p, n) == 0`. -/
def memEqual (pg : Nat) (m : Mem) (p : Nat) (f : Nat → Byte) : Nat → Bool
  | 0 => true
  | n + 1 => memEqual pg m p f n && (m.read pg (p + n) == f n)

/-- `for (i = 0; i < max_nr_cpus; i++) body(i)`. -/
def forCpus (body : Nat → Mem → Mem) : Nat → Mem → Mem
  | 0, m => m
  | n + 1, m => body n (forCpus body n m)

/-- `rseq_percpu_zero_item` (269-300). -/
def zeroItem (c : Config) (r : Range) (off : Nat) (m : Mem) : Mem :=
  let m := match initPtr r off with
    | some p => bzero c.pg m p c.itemLen
    | none => m
  forCpus (fun i m =>
    let p := percpuPtr c r i off
    if cmpItem c.pg m p c.itemLen 0#_ = 0#_ then m else bzero c.pg m p c.itemLen) c.ncpu m

/-- `rseq_percpu_init_item` (302-327). -/
def initItem (c : Config) (r : Range) (off : Nat) (f : Nat → Byte) (len : Nat) (m : Mem) : Mem :=
  let m := match initPtr r off with
    | some p => memcpy c.pg m p f len
    | none => m
  forCpus (fun i m =>
    let p := percpuPtr c r i off
    if memEqual c.pg m p f len then m else memcpy c.pg m p f len) c.ncpu m

/-- The loop of `rseq_poison_item` (329-336): `n` words from `offset` on. -/
def poisonLoop (pg : Nat) (p : Nat) (poison : Word) : (n offset : Nat) → Mem → Mem
  | 0, _, m => m
  | n + 1, offset, m => poisonLoop pg p poison n (offset + wb) (m.writeWord pg (p + offset) poison)

/-- `rseq_poison_item` (329-336). -/
def poisonBlock (pg : Nat) (m : Mem) (p itemLen : Nat) (poison : Word) : Mem :=
  poisonLoop pg p poison (itemLen / wb) 0 m

/-- `rseq_percpu_poison_item` (338-367). -/
def poisonItem (c : Config) (r : Range) (off : Nat) (poison : Word) (m : Mem) : Mem :=
  let m := match initPtr r off with
    | some p => poisonBlock c.pg m p c.itemLen poison
    | none => m
  forCpus (fun i m =>
    let p := percpuPtr c r i off
    if cmpItem c.pg m p c.itemLen poison = 0#_ then m else poisonBlock c.pg m p c.itemLen poison)
    c.ncpu m

/-- `rseq_percpu_check_poison_item` (384-403): true when every comparison succeeds (otherwise the
process aborts). `attr.poison` is 0 when unset (calloc'ed attributes); robust pools always have it
set. -/
def checkPoisonItem (c : Config) (r : Range) (off : Nat) (m : Mem) : Bool :=
  if !c.robust then true
  else
    let poison := c.poison.getD 0#_
    (match initPtr r off with
      | some p => cmpItem c.pg m p c.itemLen poison == 0#_
      | none => true) &&
    (List.range c.ncpu).all fun i => cmpItem c.pg m (percpuPtr c r i off) c.itemLen poison == 0#_

/-! ### Allocation bitmap -/

/-- `bitmap[k] & mask` with `k = idx / BIT_PER_ULONG`, `mask = 1 << (idx % BIT_PER_ULONG)`
(1040-1044, 1150-1154). -/
def bitTest (bm : Nat → Word) (idx : Nat) : Bool :=
  bm (idx / (8 * wb)) &&& (1#(8 * wb) <<< (idx % (8 * wb))) ≠ 0#_

/-- `bitmap[k] |= mask` (1049). -/
def bitSet (bm : Nat → Word) (idx : Nat) : Nat → Word :=
  fun k => if k = idx / (8 * wb) then bm k ||| (1#(8 * wb) <<< (idx % (8 * wb))) else bm k

/-- `bitmap[k] &= ~mask` (1160). -/
def bitClear (bm : Nat → Word) (idx : Nat) : Nat → Word :=
  fun k => if k = idx / (8 * wb) then bm k &&& ~~~(1#(8 * wb) <<< (idx % (8 * wb))) else bm k

/-- Number of bitmap words, `count` (476, 585). -/
def bitmapCount (c : Config) : Nat := ((c.stride >>> c.order) + 8 * wb - 1) / (8 * wb)

/-- `set_alloc_slot` (1028-1050): `none` = abort. -/
def setAllocSlot (c : Config) (r : Range) (off : Nat) : Option Range :=
  match r.bitmap with
  | none => some r
  | some bm =>
    let idx := off >>> c.order
    if bitTest bm idx then none else some { r with bitmap := some (bitSet bm idx) }

/-- `clear_alloc_slot` (1138-1161): `none` = abort. -/
def clearAllocSlot (c : Config) (r : Range) (off : Nat) : Option Range :=
  match r.bitmap with
  | none => some r
  | some bm =>
    let idx := off >>> c.order
    if bitTest bm idx then some { r with bitmap := some (bitClear bm idx) } else none

/-! ### Ranges -/

/-- `range_len` of a new range (758-762), header excluded. -/
def rangeLen (c : Config) : Nat :=
  let l := c.stride * c.ncpu
  let l := if c.cow then l + c.stride else l
  if c.robust then l + c.stride else l

/-- What the system and the init callback answer while a range is created. `base`: result of
`aligned_mmap_anonymous` (763); `setupOk`: the memfd/mmap/madvise steps (777-815) all succeed;
`bitmapOk`: `calloc` of the bitmap (482); `cb k`: the `k`-th callback call returns zero? and performs
these stores (offset into the area it was given, byte). -/
structure RangeEnv where
  base : Option Nat
  setupOk : Bool := true
  bitmapOk : Bool := true
  cb : Nat → Bool × List (Nat × Byte) := fun _ => (true, [])

/-- Memory after the new mapping (763) and, for COW_INIT, the shared init mapping and the private
per-CPU mappings (780-798): all new bytes are zero; private pages read their init page. -/
def mapRange (c : Config) (base : Nat) (m : Mem) : Mem :=
  { phys := fun x => if base ≤ x ∧ x < base + rangeLen c then 0#8 else m.phys x
    src := fun p =>
      if base ≤ p * c.pg ∧ p * c.pg < base + rangeLen c then
        if c.cow = true ∧ p * c.pg < base + c.stride * c.ncpu then
          some ((base + c.stride * c.ncpu + (p * c.pg - base) % c.stride) / c.pg)
        else none
      else m.src p }

/-- One invocation of the init callback: (address, length, cpu). -/
structure Call where
  addr : Nat
  len : Nat
  cpu : Int
  deriving DecidableEq, Repr

/-- Stores performed by a callback into the area starting at `a`. -/
def applyStores (pg a : Nat) : List (Nat × Byte) → Mem → Mem
  | [], m => m
  | (o, b) :: l, m => applyStores pg a l (m.write pg (a + o) b)

/-- The callback invocations of 831-853 in order; stops at the first non-zero result (`none`). -/
def runCalls (c : Config) (env : RangeEnv) : List Call → Nat → Mem → List Call × Option Mem
  | [], _, m => ([], some m)
  | call :: rest, k, m =>
    let m := applyStores c.pg call.addr (env.cb k).2 m
    if (env.cb k).1 then
      let (log, res) := runCalls c env rest (k + 1) m
      (call :: log, res)
    else ([call], none)

/-- The callback invocations requested by 831-853. -/
def initCalls (c : Config) (base : Nat) : List Call :=
  if c.initSet then
    if c.global then [⟨base, c.stride, -1⟩]
    else (List.range c.ncpu).map fun cpu => ⟨base + c.stride * cpu, c.stride, (cpu : Int)⟩
  else []

/-- `rseq_mempool_range_create` (739-862): the callback log, and the new range with the resulting
memory, or `none` (NULL). On failure the mapping is removed again (858-861; the fresh bitmap is
empty, so no leak is reported), hence no memory effect. -/
def rangeCreate (c : Config) (pool : Pool) (m : Mem) (env : RangeEnv) : List Call × Option (Range × Mem) :=
  -- 750-754
  if c.maxRanges ≠ 0 ∧ pool.nrRanges ≥ c.maxRanges then ([], none)
  else match env.base with
  | none => ([], none)
  | some base =>
    let m := mapRange c base m
    if c.cow && !env.setupOk then ([], none)
    else if c.robust && !env.bitmapOk then ([], none)
    else
      match runCalls c env (initCalls c base) 0 m with
      | (log, none) => (log, none)
      | (log, some m) =>
        (log, some ({ base := base
                      header := base - 2 * c.pg
                      init := if c.cow then some (base + c.stride * c.ncpu) else none
                      nextUnused := 0
                      mmapAddr := base - 2 * c.pg
                      mmapLen := 2 * c.pg + rangeLen c
                      bitmap := if c.robust then some (fun _ => 0#_) else none
                      canary := if c.cow then 1#8 else 0#8 }, m))

/-- The range structure found right below `base` (1073, 1167). -/
def findRange (ranges : List Range) (base : Nat) : Option Range := ranges.find? fun r => r.base == base

/-- Write back a modified range structure. -/
def putRange (ranges : List Range) (r' : Range) : List Range :=
  ranges.map fun r => if r.base = r'.base then r' else r

/-! ### malloc and free -/

/-- The three allocation entry points (1122-1136): `rseq_mempool_percpu_malloc`, `..._zmalloc`,
`..._malloc_init(init_ptr, len)`. A NULL `init_ptr` behaves as `none`, except for the length check,
hence `plain len`. -/
inductive Fill where
  | plain (len : Nat)
  | zero
  | init (f : Nat → Byte) (len : Nat)

/-- `init_len` argument of `__rseq_percpu_malloc`. -/
def Fill.len : Fill → Nat
  | .plain n => n
  | .zero => 0
  | .init _ n => n

/-- The fill after unlock (1111-1118). -/
def fillItem (c : Config) (r : Range) (off : Nat) : Fill → Mem → Mem
  | .plain _, m => m
  | .zero, m => zeroItem c r off m
  | .init f len, m => initItem c r off f len m

/-- The slot chosen under the lock by `__rseq_percpu_malloc` (1065-1110). -/
inductive Choice where
  | null (e : Errno)
  | item (r : Range) (off : Nat) (addr : Nat)

/-- `set_alloc_slot` and the write back of the range (1108-1109). -/
def takeSlot (c : Config) (s : State) (r : Range) (off addr : Nat) : Outcome (Choice × State) :=
  match setAllocSlot c r off with
  | none => .aborted .allocatorCorruption
  | some r' =>
    .ok (.item r' off addr, { s with pool := { s.pool with ranges := putRange s.pool.ranges r' } })

/-- Locked part of `__rseq_percpu_malloc` (1065-1110). -/
def lockedAlloc (c : Config) (env : RangeEnv) (s : State) : Outcome (Choice × State) :=
  let node := s.pool.head
  if node ≠ 0 then
    -- 1068-1080
    let ptr := freeListToPercpu c node
    let rangeBase := ptr - ptr % c.stride
    match findRange s.pool.ranges rangeBase with
    | none => .ub
    | some r =>
      let next := (s.mem.readWord c.pg node).toNat
      let off := ptr - rangeBase
      let s := { s with pool := { s.pool with head := next } }
      if !checkPoisonItem c r off s.mem then .aborted .poison
      else takeSlot c s r off (freeListToPercpu c node)
  else
    -- 1086-1092
    let room : Option Range := match s.pool.ranges with
      | [] => none
      | r :: _ => if r.nextUnused + c.itemLen > c.stride then none else some r
    match room with
    | some r =>
      -- room_left: 1102-1106
      let off := r.nextUnused
      let r' := { r with nextUnused := r.nextUnused + c.itemLen }
      takeSlot c { s with pool := { s.pool with ranges := putRange s.pool.ranges r' } } r' off (r.base + off)
    | none =>
      -- create_range: 1093-1101
      match (rangeCreate c s.pool s.mem env).2 with
      | none => .ok (.null .ENOMEM, s)
      | some (r, m) =>
        let off := r.nextUnused
        let r' := { r with nextUnused := r.nextUnused + c.itemLen }
        takeSlot c { s with mem := m
                            pool := { s.pool with ranges := r' :: s.pool.ranges
                                                  nrRanges := s.pool.nrRanges + 1 } } r' off (r.base + off)

/-- Value returned by an allocation: pointer or NULL with errno. -/
inductive Ret where
  | ptr (a : Nat)
  | null (e : Errno)
  deriving DecidableEq, Repr

/-- `__rseq_percpu_malloc` (1052-1120). -/
def malloc (c : Config) (fill : Fill) (env : RangeEnv) (s : State) : Outcome (Ret × State) :=
  -- 1061-1064
  if fill.len > c.itemLen then .ok (.null .EINVAL, s)
  else match lockedAlloc c env s with
    | .ub => .ub
    | .aborted w => .aborted w
    | .ok (.null e, s) => .ok (.null e, s)
    | .ok (.item r off addr, s) => .ok (.ptr addr, { s with mem := fillItem c r off fill s.mem })

/-- `librseq_mempool_percpu_free(ptr, stride)` (1163-1187) with the pool's own stride. -/
def free (c : Config) (ptr : Nat) (s : State) : Outcome State :=
  let rangeBase := ptr - ptr % c.stride
  match findRange s.pool.ranges rangeBase with
  | none => .ub
  | some r =>
    let off := ptr % c.stride
    match clearAllocSlot c r off with
    | none => .aborted .doubleFree
    | some r' =>
      let head := s.pool.head
      let m := match c.poison with
        | some v => poisonItem c r off v s.mem
        | none => s.mem
      let item := percpuToFreeList c ptr
      let m := m.writeWord c.pg item (BitVec.ofNat (8 * wb) head)
      .ok { s with mem := m, pool := { s.pool with ranges := putRange s.pool.ranges r', head := item } }

/-- A user store of one byte. -/
def store (c : Config) (a : Nat) (b : Byte) (s : State) : State := { s with mem := s.mem.write c.pg a b }

/-! ### destroy -/

/-- `percpu_addr_in_pool` (488-499). -/
def addrInPool (pool : Pool) (a : Nat) : Bool :=
  pool.ranges.any fun r => decide (r.base ≤ a) && decide (a < r.base + r.nextUnused)

/-- The traversal loop of `check_free_list` (518-542). `left` is
`max_list_traversal - traversal_iteration`; the result is the number of nodes. -/
def traverse (c : Config) (pool : Pool) (m : Mem) : (left node : Nat) → Outcome Nat
  | left, node =>
    if node = 0 then .ok 0
    else match left with
      | 0 => .aborted .freeListLoop
      | left + 1 =>
        if addrInPool pool (freeListToPercpu c node) then
          match traverse c pool m left (m.readWord c.pg node).toNat with
          | .ok n => .ok (n + 1)
          | o => o
        else .aborted .freeListRange

/-- `check_free_list` (501-549) on an accessible robust pool. -/
def checkFreeList (c : Config) (s : State) : Outcome Unit :=
  let totalItem := (s.pool.ranges.map fun _ => c.stride >>> c.order).sum
  let totalNever := (s.pool.ranges.map fun r => (c.stride - r.nextUnused) >>> c.order).sum
  match traverse c s.pool s.mem (totalItem - totalNever) s.pool.head with
  | .ok freed => if totalNever + freed ≠ totalItem then .aborted .freeListCount else .ok ()
  | .aborted w => .aborted w
  | .ub => .ub

/-- The loop of `check_range_poison` (551-561): `n` items starting at `off`. -/
def checkRangePoison (c : Config) (r : Range) (m : Mem) : (n off : Nat) → Bool
  | 0, _ => true
  | n + 1, off => checkPoisonItem c r off m && checkRangePoison c r m n (off + c.itemLen)

/-- `check_pool_poison` (563-573) on an accessible robust pool: true when nothing is corrupted.
The number of iterations of 558-559 is `ceil(next_unused / item_len)`. -/
def checkPoolPoison (c : Config) (s : State) : Bool :=
  s.pool.ranges.all fun r =>
    checkRangePoison c r s.mem ((r.nextUnused + c.itemLen - 1) / c.itemLen) 0

/-- `total_leaks` of `destroy_alloc_bitmap` (588-589). -/
def totalLeaks (c : Config) (bm : Nat → Word) : Nat :=
  ((List.range (bitmapCount c)).map fun k => Bits.hweight (bm k)).sum

/-- Is `abort()` reached in `destroy_alloc_bitmap` (575-598)? -/
def leaked (c : Config) (r : Range) : Bool :=
  match r.bitmap with
  | none => false
  | some bm => totalLeaks c bm ≠ 0

/-- `pool_mappings_accessible` (864-888). -/
def mappingsAccessible (c : Config) (pool : Pool) : Bool :=
  if !c.cow then true
  else match pool.ranges with
    | [] => true
    | r :: _ => r.canary == 1#8

/-- What `rseq_mempool_destroy` did: return value, `munmap` calls that succeeded (in order), ranges
still linked, and whether the pool structure was freed. -/
structure DestroyResult where
  ret : Int
  unmapped : List (Nat × Nat)
  left : List Range
  freed : Bool

/-- The `munmap` arguments of `rseq_mempool_range_destroy` (600-615). -/
def rangeUnmapArgs (c : Config) (accessible : Bool) (r : Range) : Nat × Nat :=
  if accessible then (r.mmapAddr, r.mmapLen) else (r.header, 2 * c.pg)

/-- The loop of 911-918 over the remaining ranges; `k` counts `munmap` calls, `ok k` says whether the
`k`-th succeeds. `goto end` (916) leaves the return value 0 and the pool allocated. -/
def destroyLoop (c : Config) (accessible : Bool) (ok : Nat → Bool) :
    List Range → Nat → List (Nat × Nat) → Outcome DestroyResult
  | [], _, done => .ok ⟨0, done, [], true⟩
  | r :: rest, k, done =>
    if leaked c r then .aborted .leak
    else if ok k then destroyLoop c accessible ok rest (k + 1) (done ++ [rangeUnmapArgs c accessible r])
    else .ok ⟨0, done, { r with bitmap := none } :: rest, false⟩

/-- `rseq_mempool_destroy` (890-924) on a non-NULL pool. Reading item memory that is not mapped
(forked child) is `ub`. -/
def destroy (c : Config) (ok : Nat → Bool) (s : State) : Outcome DestroyResult :=
  let accessible := mappingsAccessible c s.pool
  if c.robust && accessible then
    if !s.itemsMapped then .ub
    else match checkFreeList c s with
      | .ub => .ub
      | .aborted w => .aborted w
      | .ok () =>
        if checkPoolPoison c s then destroyLoop c accessible ok s.pool.ranges 0 []
        else .aborted .poison
  else destroyLoop c accessible ok s.pool.ranges 0 []

/-- `fork()` as seen by the child: the canary page is wiped (`MADV_WIPEONFORK`, 814) and the items are
not mapped (`MADV_DONTFORK`, 804) - for COW_INIT pools only. -/
def forkChild (c : Config) (s : State) : State :=
  if c.cow then
    { s with itemsMapped := false
             pool := { s.pool with ranges := s.pool.ranges.map fun r => { r with canary := 0#8 } } }
  else s

end Verif.Mempool
