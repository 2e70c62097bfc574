import Verif.Mempool
/-
Specification vocabulary for the pool allocator: what a history of API calls is, what the caller and
the system must respect, and which items are live.  Nothing here looks inside the allocator state
except `s.pool.ranges` (to say where pool memory is).
-/
namespace Verif.Mempool
open Verif

variable [Abi]

/-- A configuration accepted by `rseq_mempool_create` (926-1013); that create only accepts these is
proved in `Verif.MempoolCreateProps`. -/
structure Valid (c : Config) : Prop where
  item_ge : wb ≤ c.itemLen
  item_le : c.itemLen ≤ c.stride
  stride_pow : ∃ k, c.stride = 2 ^ k
  pg_pow : ∃ k, c.pg = 2 ^ k
  pg_le : c.pg ≤ c.stride
  ncpu_pos : 1 ≤ c.ncpu
  robust_poison : c.robust = true → c.poison.isSome = true
  global_zero : c.global = true → c.cow = false ∧ c.ncpu = 1

/-- `rseq_percpu_ptr(p, cpu)` (include/rseq/mempool.h:285-293) with the pool's stride. -/
def cpuAddr (c : Config) (p cpu : Nat) : Nat := p + c.stride * cpu

/-- Address `x` belongs to the memory of the range starting at `base` (header excluded). -/
def InRegion (c : Config) (base x : Nat) : Prop := base ≤ x ∧ x < base + rangeLen c

/-- The memory of two ranges, headers (2 pages below each base) included, does not overlap. -/
def Apart (c : Config) (b1 b2 : Nat) : Prop :=
  b1 + rangeLen c + 2 * c.pg ≤ b2 ∨ b2 + rangeLen c + 2 * c.pg ≤ b1

/-- What the system guarantees when it creates a mapping, and what the init callback must respect:
a new mapping is aligned on the stride (proved for `aligned_mmap_anonymous` in `Verif.MmapProps`),
has room for the header below, does not overlap pool memory, nobody else maps it; the callback stores
inside the area it is given. -/
structure EnvOK (c : Config) (ranges : List Range) (m : Mem) (env : RangeEnv) : Prop where
  fresh : ∀ base, env.base = some base →
    c.stride ∣ base ∧ 2 * c.pg ≤ base ∧ base + rangeLen c ≤ 2 ^ (8 * wb) ∧
    (∀ r ∈ ranges, Apart c base r.base) ∧
    (∀ x, ¬ InRegion c base x → ¬ InRegion c base (m.resolve c.pg x))
  cb : ∀ k o b, (o, b) ∈ (env.cb k).2 → o < c.stride

/-- A change of memory by the rest of the program (including other pools): pool memory does not change
content, its pages stay shared as before or become private copies, and nobody else maps it. That the
operations of all other pools are such changes is proved in `Verif.MempoolMulti`. -/
structure ExtOK (c : Config) (ranges : List Range) (m m' : Mem) : Prop where
  wf : m'.WF
  inside : ∀ r ∈ ranges, ∀ x, InRegion c r.base x →
    (m'.resolve c.pg x = m.resolve c.pg x ∨ m'.resolve c.pg x = x) ∧ m'.read c.pg x = m.read c.pg x
  outside : ∀ x, (∀ r ∈ ranges, ¬ InRegion c r.base x) →
    ∀ r ∈ ranges, ¬ InRegion c r.base (m'.resolve c.pg x)

/-- The system or the init callback refuses a new range: no address space, a failing
memfd/mmap/madvise step (COW_INIT), no memory for the bitmap (robust), or a callback returning non-zero
for one of the CPUs (one call only for global pools). -/
def Refused (c : Config) (env : RangeEnv) : Prop :=
  env.base = none ∨ (c.cow = true ∧ env.setupOk = false) ∨ (c.robust = true ∧ env.bitmapOk = false) ∨
  (c.initSet = true ∧ ∃ k, k < (if c.global then 1 else c.ncpu) ∧ (env.cb k).1 = false)

/-- Number of items of one range. -/
def itemsPerRange (c : Config) : Nat := c.stride / c.itemLen

/-- A pool together with what its users know: items currently allocated, and items that were freed and
not allocated again since (most recently freed first). -/
structure Ghost where
  s : State
  live : List Nat
  freed : List Nat

/-- One API call or event. With `uaf = false` users only store to live items; with `uaf = true` they may
also store to items already freed. -/
inductive Step (c : Config) (uaf : Bool) : Ghost → Ghost → Prop where
  | mallocPtr (g : Ghost) (fill : Fill) (env : RangeEnv) (p : Nat) (s' : State)
      (henv : EnvOK c g.s.pool.ranges g.s.mem env)
      (h : malloc c fill env g.s = .ok (.ptr p, s')) :
      Step c uaf g ⟨s', p :: g.live, g.freed.erase p⟩
  | mallocNull (g : Ghost) (fill : Fill) (env : RangeEnv) (e : Errno) (s' : State)
      (henv : EnvOK c g.s.pool.ranges g.s.mem env)
      (h : malloc c fill env g.s = .ok (.null e, s')) :
      Step c uaf g ⟨s', g.live, g.freed⟩
  | free (g : Ghost) (p : Nat) (s' : State) (hp : p ∈ g.live) (h : free c p g.s = .ok s') :
      Step c uaf g ⟨s', g.live.erase p, p :: g.freed⟩
  | store (g : Ghost) (p cpu o : Nat) (b : Byte)
      (hp : p ∈ g.live ∨ (uaf = true ∧ p ∈ g.freed)) (hcpu : cpu < c.ncpu) (ho : o < c.itemLen) :
      Step c uaf g ⟨store c (cpuAddr c p cpu + o) b g.s, g.live, g.freed⟩
  | ext (g : Ghost) (m' : Mem) (h : ExtOK c g.s.pool.ranges g.s.mem m') :
      Step c uaf g ⟨{ g.s with mem := m' }, g.live, g.freed⟩

/-- The states reachable from a successful `rseq_mempool_create`: one range, nothing allocated. -/
inductive Reach (c : Config) (uaf : Bool) : Ghost → Prop where
  | create (m0 : Mem) (env : RangeEnv) (r : Range) (m : Mem) (hwf : m0.WF)
      (henv : EnvOK c [] m0 env)
      (h : (rangeCreate c ⟨[], 0, 0⟩ m0 env).2 = some (r, m)) :
      Reach c uaf ⟨{ pool := ⟨[r], 0, 1⟩, mem := m }, [], []⟩
  | step (g g' : Ghost) (h : Reach c uaf g) (hs : Step c uaf g g') : Reach c uaf g'

end Verif.Mempool
