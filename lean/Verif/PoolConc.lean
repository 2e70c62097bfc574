import Verif.MempoolSpec
/-
Concurrent use of one pool: any number of threads allocate, free and store, their loads and stores
interleave byte by byte (src/rseq-mempool.c:269-403, 1052-1187).

What is sequential in the code is here a program of single-byte loads and stores (`MProg`); running such
a program without interference is what the functions of `Verif.Mempool` compute (`run_*` lemmas in
`Verif.PoolConcProg`).  The pool structure is protected by `pool->lock`; the fill of a new item happens
after the lock is released (1109-1118), the poisoning of a freed item under the lock (1167-1186).

Page faults on private pages (`MAP_PRIVATE`, COW_INIT pools): with `split = false` a store to a page
still shared with the init area copies the page and stores in one step.  With `split = true` the kernel
first copies the page (`snap*` steps), other threads may run, then it installs the copy if the page is
still shared (`install`) and the store is executed again; this is what Linux does (mm/memory.c:
`wp_page_copy` copies the page before it takes the page table lock and switches the entry).

Simplifications:
- memory is sequentially consistent; loads and stores are bytewise (the code uses words and memcpy);
- changes of the pool structure become visible when the lock is released, nobody looks before;
- the creation of a range, including the init callback, is one step: its memory is not known to any
  other thread before the lock is released;
- `len > item_len` (1061-1064) returns NULL without any effect and is not a step.
-/
namespace Verif.PoolConc
open Verif Verif.Mem Verif.Mempool

variable [Abi]

/-- A sequence of byte loads and stores. -/
inductive MProg (α : Type) where
  | ret (a : α)
  | rd (x : Nat) (k : Byte → MProg α)
  | wr (x : Nat) (b : Byte) (k : MProg α)

namespace MProg

def bind {α β : Type} : MProg α → (α → MProg β) → MProg β
  | ret a, f => f a
  | rd x k, f => rd x fun b => (k b).bind f
  | wr x b k, f => wr x b (k.bind f)

/-- Execution without interference. -/
def run {α : Type} (pg : Nat) : MProg α → Mem → α × Mem
  | ret a, m => (a, m)
  | rd x k, m => (k (m.read pg x)).run pg m
  | wr x b k, m => k.run pg (m.write pg x b)

end MProg

open MProg

/-! ### Loads and stores of the item functions -/

/-- `n` bytes at `x`. -/
def readBytesP (x : Nat) : Nat → MProg (Nat → Byte)
  | 0 => ret fun _ => 0#8
  | n + 1 => (readBytesP x n).bind fun f => rd (x + n) fun b => ret fun j => if j = n then b else f j

def readWordP (x : Nat) : MProg Word := (readBytesP x wb).bind fun f => ret (joinBytes f)

/-- `memcpy`, `bzero`, word stores. -/
def writeP (x : Nat) (f : Nat → Byte) : Nat → MProg Unit
  | 0 => ret ()
  | n + 1 => (writeP x f n).bind fun _ => wr (x + n) (f n) (ret ())

/-- Loop of `rseq_cmp_item` (251-267). -/
def cmpP (x : Nat) (v : Word) : (n off : Nat) → MProg Word
  | 0, _ => ret 0#_
  | n + 1, off => (readWordP (x + off)).bind fun w =>
      if w - v ≠ 0#_ then ret (w - v) else cmpP x v n (off + wb)

/-- `memcmp(f, x, n) == 0`. -/
def memEqualP (x : Nat) (f : Nat → Byte) : Nat → MProg Bool
  | 0 => ret true
  | n + 1 => (memEqualP x f n).bind fun e =>
      if e then rd (x + n) fun b => ret (b == f n) else ret false

/-- Loop of `rseq_poison_item` (329-336). -/
def poisonP (x : Nat) (v : Word) : (n off : Nat) → MProg Unit
  | 0, _ => ret ()
  | n + 1, off => (writeP (x + off) (wordByte v) wb).bind fun _ => poisonP x v n (off + wb)

/-- `for (i = 0; i < max_nr_cpus; i++) body(i)`. -/
def forCpusP (body : Nat → MProg Unit) : Nat → MProg Unit
  | 0 => ret ()
  | n + 1 => (forCpusP body n).bind fun _ => body n

/-- `rseq_percpu_zero_item` (269-300). -/
def zeroP (c : Config) (r : Range) (off : Nat) : MProg Unit :=
  (match initPtr r off with
    | some p => writeP p (fun _ => 0#8) c.itemLen
    | none => ret ()).bind fun _ =>
  forCpusP (fun i =>
    (cmpP (percpuPtr c r i off) 0#_ (c.itemLen / wb) 0).bind fun w =>
      if w = 0#_ then ret () else writeP (percpuPtr c r i off) (fun _ => 0#8) c.itemLen) c.ncpu

/-- `rseq_percpu_init_item` (302-327). -/
def initP (c : Config) (r : Range) (off : Nat) (f : Nat → Byte) (len : Nat) : MProg Unit :=
  (match initPtr r off with
    | some p => writeP p f len
    | none => ret ()).bind fun _ =>
  forCpusP (fun i =>
    (memEqualP (percpuPtr c r i off) f len).bind fun e =>
      if e then ret () else writeP (percpuPtr c r i off) f len) c.ncpu

/-- `rseq_percpu_poison_item` (338-367). -/
def poisonItemP (c : Config) (r : Range) (off : Nat) (v : Word) : MProg Unit :=
  (match initPtr r off with
    | some p => poisonP p v (c.itemLen / wb) 0
    | none => ret ()).bind fun _ =>
  forCpusP (fun i =>
    (cmpP (percpuPtr c r i off) v (c.itemLen / wb) 0).bind fun w =>
      if w = 0#_ then ret () else poisonP (percpuPtr c r i off) v (c.itemLen / wb) 0) c.ncpu

/-- The CPU loop of `rseq_percpu_check_poison_item` (392-402); `false` is an abort. -/
def checkCpusP (c : Config) (r : Range) (off : Nat) (v : Word) : Nat → MProg Bool
  | 0 => ret true
  | n + 1 => (checkCpusP c r off v n).bind fun e =>
      if e then (cmpP (percpuPtr c r n off) v (c.itemLen / wb) 0).bind fun w => ret (w == 0#_) else ret false

/-- `rseq_percpu_check_poison_item` (384-403). -/
def checkP (c : Config) (r : Range) (off : Nat) : MProg Bool :=
  if !c.robust then ret true
  else
    (match initPtr r off with
      | some p => (cmpP p (c.poison.getD 0#_) (c.itemLen / wb) 0).bind fun w => ret (w == 0#_)
      | none => ret true).bind fun e =>
    if e then checkCpusP c r off (c.poison.getD 0#_) c.ncpu else ret false

/-- The fill after unlock (1111-1118). -/
def fillP (c : Config) (r : Range) (off : Nat) : Fill → MProg Unit
  | .plain _ => ret ()
  | .zero => zeroP c r off
  | .init f len => initP c r off f len

/-- What the locked part of an allocation decides. -/
inductive Found where
  | take (r : Range) (off addr : Nat) (pool : Pool)
  | create
  | poisoned
  | ub

/-- The locked part of `__rseq_percpu_malloc` up to `set_alloc_slot` or `create_range` (1065-1106). -/
def lockedP (c : Config) (pool : Pool) : MProg Found :=
  if pool.head ≠ 0 then
    match findRange pool.ranges (freeListToPercpu c pool.head - freeListToPercpu c pool.head % c.stride) with
    | none => ret .ub
    | some r =>
      (readWordP pool.head).bind fun next =>
      (checkP c r (freeListToPercpu c pool.head -
          (freeListToPercpu c pool.head - freeListToPercpu c pool.head % c.stride))).bind fun e =>
      if e then
        ret (.take r (freeListToPercpu c pool.head -
            (freeListToPercpu c pool.head - freeListToPercpu c pool.head % c.stride))
          (freeListToPercpu c pool.head) { pool with head := next.toNat })
      else ret .poisoned
  else
    match (match pool.ranges with
      | [] => none
      | r :: _ => if r.nextUnused + c.itemLen > c.stride then none else some r : Option Range) with
    | some r =>
      ret (.take { r with nextUnused := r.nextUnused + c.itemLen } r.nextUnused (r.base + r.nextUnused)
        { pool with ranges := putRange pool.ranges { r with nextUnused := r.nextUnused + c.itemLen } })
    | none => ret .create

/-- The pool after a new range was added (1096-1106). -/
def addRange (c : Config) (pool : Pool) (r : Range) : Pool :=
  { pool with ranges := { r with nextUnused := r.nextUnused + c.itemLen } :: pool.ranges
              nrRanges := pool.nrRanges + 1 }

/-- Stores of `librseq_mempool_percpu_free` (1176-1184): poison, then link into the free list. -/
def freeP (c : Config) (r : Range) (p : Nat) (head : Nat) : MProg Unit :=
  (match c.poison with
    | some v => poisonItemP c r (p % c.stride) v
    | none => ret ()).bind fun _ =>
  writeP (percpuToFreeList c p) (wordByte (BitVec.ofNat _ head)) wb

/-! ### Threads -/

/-- What a thread is doing with the pool. -/
inductive TSt where
  | idle
  | wantAlloc (fill : Fill)
  | inAlloc (fill : Fill) (k : MProg Found)
  | filling (fill : Fill) (p : Nat) (k : MProg Unit)
  | wantFree (p : Nat)
  | inFree (p : Nat) (pool' : Pool) (k : MProg Unit)
  | dead

/-- A page fault in progress: the thread wants to store at `x` (inside item `p`) and the kernel has
copied the page `x / pg` as it was. -/
structure Pend where
  p : Nat
  x : Nat
  snap : Nat → Byte

/-- The process: memory, pool, lock owner, threads, faults in progress, and the items handed to clients. -/
structure CState where
  mem : Mem
  pool : Pool
  lock : Option Nat
  th : Nat → TSt
  pend : Nat → Option Pend
  live : List Nat

/-- Update one entry. -/
def upd {α : Type} (f : Nat → α) (t : Nat) (a : α) : Nat → α := fun u => if u = t then a else f u

/-- The page of `x` as it is read now. -/
def snapOf (pg : Nat) (m : Mem) (x : Nat) : Nat → Byte := fun j => m.read pg (x / pg * pg + j)

/-- The page table switch: the copy becomes the page, if the page is still shared. -/
def installAt (pg : Nat) (m : Mem) (d : Pend) : Mem :=
  match m.src (d.x / pg) with
  | none => m
  | some _ =>
    { phys := fun y => if y / pg = d.x / pg then d.snap (y % pg) else m.phys y
      src := fun q => if q = d.x / pg then none else m.src q }

/-- Events visible to clients. -/
inductive Lab where
  | tau
  /-- thread `t`'s allocation returns item `p` -/
  | returned (t : Nat) (fill : Fill) (p : Nat)
  /-- thread `t` calls free -/
  | freeCall (t p : Nat)
  /-- thread `t` stores byte `b` at offset `o` of CPU `cpu`'s instance of item `p` -/
  | stored (t p cpu o : Nat) (b : Byte)

/-- A store may be executed: always with `split = false`, otherwise only to a page that is not shared. -/
def CanStore (c : Config) (split : Bool) (m : Mem) (x : Nat) : Prop :=
  split = true → m.src (x / c.pg) = none

/-- One step of some thread (or of the rest of the program).  A thread whose page fault is in progress
(`pend`) does not run. -/
inductive CStep (c : Config) (split : Bool) (s : CState) : Lab → CState → Prop
  /-- call one of the allocation functions -/
  | alloc (t : Nat) (fill : Fill) (h : s.th t = .idle) (hp : s.pend t = none) (hl : fill.len ≤ c.itemLen) :
      CStep c split s .tau { s with th := upd s.th t (.wantAlloc fill) }
  /-- 1065 -/
  | lockAlloc (t : Nat) (fill : Fill) (h : s.th t = .wantAlloc fill) (hl : s.lock = none) :
      CStep c split s .tau { s with lock := some t, th := upd s.th t (.inAlloc fill (lockedP c s.pool)) }
  | readAlloc (t : Nat) (fill : Fill) (x : Nat) (k : Byte → MProg Found) (h : s.th t = .inAlloc fill (.rd x k)) :
      CStep c split s .tau { s with th := upd s.th t (.inAlloc fill (k (s.mem.read c.pg x))) }
  /-- 1107-1109: the slot is marked and the lock released -/
  | take (t : Nat) (fill : Fill) (r : Range) (off addr : Nat) (pool' : Pool) (r' : Range) (off' p : Nat) (s' : State)
      (h : s.th t = .inAlloc fill (.ret (.take r off addr pool')))
      (ht : takeSlot c { pool := pool', mem := s.mem } r off addr = .ok (.item r' off' p, s')) :
      CStep c split s .tau { s with pool := s'.pool, lock := none, th := upd s.th t (.filling fill p (fillP c r' off' fill)) }
  /-- 1107: corrupted bitmap -/
  | takeAbort (t : Nat) (fill : Fill) (r : Range) (off addr : Nat) (pool' : Pool) (w : Abort)
      (h : s.th t = .inAlloc fill (.ret (.take r off addr pool')))
      (ht : takeSlot c { pool := pool', mem := s.mem } r off addr = .aborted w) :
      CStep c split s .tau { s with th := upd s.th t .dead }
  /-- 1093-1109: a new range -/
  | create (t : Nat) (fill : Fill) (env : RangeEnv) (r : Range) (m : Mem) (r' : Range) (off' p : Nat) (s' : State)
      (h : s.th t = .inAlloc fill (.ret .create)) (henv : EnvOK c s.pool.ranges s.mem env)
      (hc : (rangeCreate c s.pool s.mem env).2 = some (r, m))
      (ht : takeSlot c { pool := addRange c s.pool r, mem := m } { r with nextUnused := r.nextUnused + c.itemLen }
        r.nextUnused (r.base + r.nextUnused) = .ok (.item r' off' p, s')) :
      CStep c split s .tau { s with mem := m, pool := s'.pool, lock := none, th := upd s.th t (.filling fill p (fillP c r' off' fill)) }
  | createAbort (t : Nat) (fill : Fill) (env : RangeEnv) (r : Range) (m : Mem) (w : Abort)
      (h : s.th t = .inAlloc fill (.ret .create)) (henv : EnvOK c s.pool.ranges s.mem env)
      (hc : (rangeCreate c s.pool s.mem env).2 = some (r, m))
      (ht : takeSlot c { pool := addRange c s.pool r, mem := m } { r with nextUnused := r.nextUnused + c.itemLen }
        r.nextUnused (r.base + r.nextUnused) = .aborted w) :
      CStep c split s .tau { s with th := upd s.th t .dead }
  /-- 1094-1095: NULL, ENOMEM -/
  | createNull (t : Nat) (fill : Fill) (env : RangeEnv) (h : s.th t = .inAlloc fill (.ret .create))
      (henv : EnvOK c s.pool.ranges s.mem env) (hc : (rangeCreate c s.pool s.mem env).2 = none) :
      CStep c split s .tau { s with lock := none, th := upd s.th t .idle }
  /-- 1080: the poison check aborts; or the free list leads nowhere -/
  | allocAbort (t : Nat) (fill : Fill) (h : s.th t = .inAlloc fill (.ret .poisoned) ∨ s.th t = .inAlloc fill (.ret .ub)) :
      CStep c split s .tau { s with th := upd s.th t .dead }
  | readFill (t : Nat) (fill : Fill) (p x : Nat) (k : Byte → MProg Unit) (h : s.th t = .filling fill p (.rd x k))
      (hp : s.pend t = none) :
      CStep c split s .tau { s with th := upd s.th t (.filling fill p (k (s.mem.read c.pg x))) }
  | writeFill (t : Nat) (fill : Fill) (p x : Nat) (b : Byte) (k : MProg Unit) (h : s.th t = .filling fill p (.wr x b k))
      (hp : s.pend t = none) (hx : CanStore c split s.mem x) :
      CStep c split s .tau { s with mem := s.mem.write c.pg x b, th := upd s.th t (.filling fill p k) }
  /-- 1119 -/
  | returned (t : Nat) (fill : Fill) (p : Nat) (h : s.th t = .filling fill p (.ret ())) (hp : s.pend t = none) :
      CStep c split s (.returned t fill p) { s with th := upd s.th t .idle, live := p :: s.live }
  /-- call free on a live item that no thread is storing to; from now on it must not be used -/
  | free (t p : Nat) (h : s.th t = .idle) (hp : s.pend t = none) (hl : p ∈ s.live)
      (hn : ∀ u d, s.pend u = some d → d.p ≠ p) :
      CStep c split s (.freeCall t p) { s with th := upd s.th t (.wantFree p), live := s.live.erase p }
  /-- 1172-1175 -/
  | lockFree (t p : Nat) (r r' : Range) (h : s.th t = .wantFree p) (hp : s.pend t = none) (hl : s.lock = none)
      (hf : findRange s.pool.ranges (p - p % c.stride) = some r) (hc : clearAllocSlot c r (p % c.stride) = some r') :
      CStep c split s .tau { s with
        lock := some t
        th := upd s.th t (.inFree p
          { s.pool with ranges := putRange s.pool.ranges r', head := percpuToFreeList c p }
          (freeP c r p s.pool.head)) }
  /-- 1138-1161: the slot is not allocated; or the pointer belongs to no range -/
  | freeAbort (t p : Nat) (h : s.th t = .wantFree p) (hp : s.pend t = none) (hl : s.lock = none)
      (hf : ∀ r, findRange s.pool.ranges (p - p % c.stride) = some r → clearAllocSlot c r (p % c.stride) = none) :
      CStep c split s .tau { s with th := upd s.th t .dead }
  | readFree (t p : Nat) (pool' : Pool) (x : Nat) (k : Byte → MProg Unit) (h : s.th t = .inFree p pool' (.rd x k))
      (hp : s.pend t = none) :
      CStep c split s .tau { s with th := upd s.th t (.inFree p pool' (k (s.mem.read c.pg x))) }
  | writeFree (t p : Nat) (pool' : Pool) (x : Nat) (b : Byte) (k : MProg Unit) (h : s.th t = .inFree p pool' (.wr x b k))
      (hp : s.pend t = none) (hx : CanStore c split s.mem x) :
      CStep c split s .tau { s with mem := s.mem.write c.pg x b, th := upd s.th t (.inFree p pool' k) }
  /-- 1185-1186 -/
  | unlockFree (t p : Nat) (pool' : Pool) (h : s.th t = .inFree p pool' (.ret ())) (hp : s.pend t = none) :
      CStep c split s .tau { s with pool := pool', lock := none, th := upd s.th t .idle }
  /-- a client stores to its item -/
  | store (t p cpu o : Nat) (b : Byte) (h : s.th t = .idle) (hp : s.pend t = none) (hl : p ∈ s.live)
      (hcpu : cpu < c.ncpu) (ho : o < c.itemLen) (hx : CanStore c split s.mem (cpuAddr c p cpu + o)) :
      CStep c split s (.stored t p cpu o b) { s with mem := s.mem.write c.pg (cpuAddr c p cpu + o) b }
  /-- the kernel copies the page a client's store faulted on -/
  | snapStore (t p cpu o q : Nat) (h : s.th t = .idle) (hp : s.pend t = none) (hl : p ∈ s.live)
      (hcpu : cpu < c.ncpu) (ho : o < c.itemLen) (hs : split = true)
      (hx : s.mem.src ((cpuAddr c p cpu + o) / c.pg) = some q) :
      CStep c split s .tau { s with pend := upd s.pend t (some ⟨p, cpuAddr c p cpu + o, snapOf c.pg s.mem (cpuAddr c p cpu + o)⟩) }
  /-- likewise for a store of the allocator -/
  | snapFill (t : Nat) (fill : Fill) (p x : Nat) (b : Byte) (k : MProg Unit) (q : Nat) (h : s.th t = .filling fill p (.wr x b k))
      (hp : s.pend t = none) (hs : split = true) (hx : s.mem.src (x / c.pg) = some q) :
      CStep c split s .tau { s with pend := upd s.pend t (some ⟨p, x, snapOf c.pg s.mem x⟩) }
  | snapFree (t p : Nat) (pool' : Pool) (x : Nat) (b : Byte) (k : MProg Unit) (q : Nat) (h : s.th t = .inFree p pool' (.wr x b k))
      (hp : s.pend t = none) (hs : split = true) (hx : s.mem.src (x / c.pg) = some q) :
      CStep c split s .tau { s with pend := upd s.pend t (some ⟨p, x, snapOf c.pg s.mem x⟩) }
  /-- the kernel installs the copy -/
  | install (t : Nat) (d : Pend) (h : s.pend t = some d) :
      CStep c split s .tau { s with mem := installAt c.pg s.mem d, pend := upd s.pend t none }
  /-- the rest of the program -/
  | ext (m' : Mem) (h : ExtOK c s.pool.ranges s.mem m') : CStep c split s .tau { s with mem := m' }

/-- States reachable from a successful `rseq_mempool_create`. -/
inductive CReach (c : Config) (split : Bool) : CState → Prop
  | create (m0 : Mem) (env : RangeEnv) (r : Range) (m : Mem) (hwf : m0.WF) (henv : EnvOK c [] m0 env)
      (h : (rangeCreate c ⟨[], 0, 0⟩ m0 env).2 = some (r, m)) :
      CReach c split { mem := m, pool := ⟨[r], 0, 1⟩, lock := none, th := fun _ => .idle, pend := fun _ => none, live := [] }
  | step {s s' : CState} {l : Lab} (h : CReach c split s) (hs : CStep c split s l s') : CReach c split s'

/-- Page faults cannot mix items: copies are atomic, or there are no shared pages, or every page belongs
to one item. -/
def FaultSafe (c : Config) (split : Bool) : Prop := split = false ∨ c.cow = false ∨ c.pg ≤ c.itemLen

end Verif.PoolConc
