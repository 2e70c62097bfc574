import Verif.MempoolMisfree
import Verif.MempoolCreateProps
/-
The project's own pool tests (tests/mempool_test.c) as programs over the pool model.

Simplifications: `rseq_mempool_percpu_free` is given the pool's stride (the tests do); reading through a NULL pointer, which the
robust tests would do if an allocation failed, is `ub`; the `struct list_head` in the items is written with arbitrary bytes
(which links `list_add` writes is in `LinkedList`), the order of the list is kept on the side.
-/
namespace Verif.Mempool
open Verif Verif.Mem

def Outcome.andThen {α β : Type} : Outcome α → (α → Outcome β) → Outcome β
  | .ok a, f => f a
  | .aborted w, _ => .aborted w
  | .ub, _ => .ub

variable [Abi]

/-- A store of one word by the test program. -/
def storeWord (c : Config) (a : Nat) (w : Word) (s : State) : State := { s with mem := s.mem.writeWord c.pg a w }

def loadWord (c : Config) (a : Nat) (s : State) : Word := s.mem.readWord c.pg a

/-- `rseq_mempool_percpu_malloc` and friends followed by an unchecked use of the pointer. -/
def mallocThen {β : Type} (c : Config) (fill : Fill) (env : RangeEnv) (s : State) (k : Nat → State → Outcome β) : Outcome β :=
  (malloc c fill env s).andThen fun
    | (.ptr p, s) => k p s
    | (.null _, _) => .ub

/-! ### The pools -/

/-- `attr` of `make_test_pool` (246-264). -/
def testPoolAttr (policy : Nat) : Attr := { robustSet := true, type := .percpu, stride := 65536#_, maxNrCpus := 1, policy := policy }

/-- `attr` of `test_mempool_fill` (58-70); `CPU_SETSIZE` is 1024. -/
def fillAttr (policy max : Nat) (stride : Word) : Attr :=
  { robustSet := true, type := .percpu, stride := stride, maxNrCpus := 1024, maxRanges := max, poisonSet := true
    poison := if wb = 4 then 0xABCDABCD#_ else 0xABCDABCDABCDABCD#_, policy := policy }

/-- `sizeof(struct test_data)` (33-37): five words. -/
def testDataLen : Word := BitVec.ofNat (8 * wb) (5 * wb)

/-! ### The robust tests (mempool_test.c:139-236); `ok ()` means that the test function returns -/

/-- `test_robust_double_free` (139-148). -/
def testDoubleFree (c : Config) (env : RangeEnv) (s : State) : Outcome Unit :=
  mallocThen c (.plain 0) env s fun p s =>
  (free c p s).andThen fun s =>
  (free c p s).andThen fun _ => .ok ()

/-- `cpuptr` of 162-165 and 193-196: the free-list node of an item of a robust pool. -/
def nodePtr (c : Config) (p : Nat) : Nat := if c.cow then cpuAddr c p (c.ncpu + 1) else cpuAddr c p c.ncpu

/-- `test_robust_corrupt_after_free` (150-171); `fn` is the address of the test function. -/
def testCorruptAfterFree (c : Config) (fn : Word) (env : RangeEnv) (ok : Nat → Bool) (s : State) : Outcome Unit :=
  mallocThen c (.plain 0) env s fun p s =>
  (free c p s).andThen fun s =>
  (destroy c ok (storeWord c (nodePtr c p) fn s)).andThen fun _ => .ok ()

/-- `test_robust_memory_leak` (173-179). -/
def testMemoryLeak (c : Config) (env : RangeEnv) (ok : Nat → Bool) (s : State) : Outcome Unit :=
  mallocThen c (.plain 0) env s fun _ s =>
  (destroy c ok s).andThen fun _ => .ok ()

/-- `test_robust_free_list_corruption` (181-204). -/
def testFreeListCorruption (c : Config) (env env2 env3 : RangeEnv) (s : State) : Outcome Unit :=
  mallocThen c (.plain 0) env s fun p s =>
  (free c p s).andThen fun s =>
  (malloc c (.plain 0) env2 (storeWord c (nodePtr c p) (BitVec.ofNat (8 * wb) (nodePtr c p)) s)).andThen fun (_, s) =>
  (malloc c (.plain 0) env3 s).andThen fun _ => .ok ()

/-- `test_robust_poison_corruption_malloc` (206-220). -/
def testPoisonMalloc (c : Config) (env env2 : RangeEnv) (s : State) : Outcome Unit :=
  mallocThen c (.plain 0) env s fun p s =>
  (free c p s).andThen fun s =>
  (malloc c (.plain 0) env2 (storeWord c (cpuAddr c p 0) 1#_ s)).andThen fun _ => .ok ()

/-- `test_robust_poison_corruption_destroy` (222-236). -/
def testPoisonDestroy (c : Config) (env : RangeEnv) (ok : Nat → Bool) (s : State) : Outcome Unit :=
  mallocThen c (.plain 0) env s fun p s =>
  (free c p s).andThen fun s =>
  (destroy c ok (storeWord c (cpuAddr c p 0) 1#_ s)).andThen fun _ => .ok ()

/-! ### The fill test (39-137) -/

/-- Stores into the list nodes (offsets 3..4 words, CPU 0) of the items `L`. -/
inductive LinkStores (c : Config) (L : List Nat) : State → State → Prop where
  | refl (s : State) : LinkStores c L s s
  | step (s : State) (q o : Nat) (b : Byte) (s' : State) (hq : q ∈ L) (h1 : 3 * wb ≤ o) (h2 : o < 5 * wb)
      (h : LinkStores c L (store c (cpuAddr c q 0 + o) b s) s') : LinkStores c L s s'

/-- The loop of 76-91: the states in which the allocation of 79 may be called, with the list built so far. -/
inductive FillSteps (c : Config) (s0 : State) : State → List Nat → Prop where
  | nil : FillSteps c s0 s0 []
  | more (s : State) (L : List Nat) (env : RangeEnv) (p : Nat) (s1 s2 : State) (hs : FillSteps c s0 s L)
      (henv : EnvOK c s.pool.ranges s.mem env) (h : malloc c .zero env s = .ok (.ptr p, s1))
      (hl : LinkStores c (p :: L) (storeWord c (cpuAddr c p 0 + 2 * wb) (BitVec.ofNat (8 * wb) p) s1) s2) :
      FillSteps c s0 s2 (if L.length % 2 = 1 then p :: L else L ++ [p])

/-- The inner loop of 99-105 over the CPUs `i`, `i + 1`, .. (`n` of them); `none` is the `abort()` of 103. -/
def checkCpus (c : Config) (p : Nat) : (n i : Nat) → State → Option State
  | 0, _, s => some s
  | n + 1, i, s =>
    if loadWord c (cpuAddr c p i) s ≠ 0#_ then none
    else checkCpus c p n (i + 1) (storeWord c (cpuAddr c p i) (loadWord c (cpuAddr c p i) s + 1#_) s)

/-- The loop of 97-106. -/
def checkAll (c : Config) : List Nat → State → Option State
  | [], s => some s
  | q :: L, s => (checkCpus c (loadWord c (cpuAddr c q 0 + 2 * wb) s).toNat c.ncpu 0 s).bind (checkAll c L)

/-- The loop of 109-112. -/
def freeAll (c : Config) : List Nat → State → Outcome State
  | [], s => .ok s
  | q :: L, s => (free c (loadWord c (cpuAddr c q 0 + 2 * wb) s).toNat s).andThen (freeAll c L)

/-- `init_value` (49-56), byte by byte. -/
def initValue (j : Nat) : Byte :=
  if j < wb then wordByte (123#_) j else if j < 2 * wb then wordByte (456#_) (j - wb) else 0#8

/-- The rest of the test (93-136); `some r` is the value `rseq_mempool_destroy` returned, `none` a failed check. -/
def fillRest (c : Config) (max : Nat) (env1 env2 : RangeEnv) (ok : Nat → Bool) (L : List Nat) (s : State) : Outcome (Option Int) :=
  if L.length * c.itemLen ≠ c.stride * max then .ok none
  else match checkAll c L s with
    | none => .ok none
    | some s =>
      (freeAll c L s).andThen fun s =>
      mallocThen c .zero env1 s fun p s =>
      (free c p s).andThen fun s =>
      mallocThen c (.init initValue (5 * wb)) env2 s fun p s =>
      if loadWord c p s = 123#_ ∧ loadWord c (p + wb) s = 456#_ then
        (free c p s).andThen fun s =>
        (destroy c ok s).andThen fun d => .ok (some d.ret)
      else .ok none

end Verif.Mempool
