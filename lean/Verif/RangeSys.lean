import Verif.Mmap
import Verif.Mempool
/-
Model of `rseq_mempool_range_create` and `rseq_mempool_range_destroy` at the level of system calls
(src/rseq-mempool.c:577-615, 701-862): address-space pages, file descriptors, the bitmap on the heap.
`Verif.Mempool.rangeCreate` is the view the allocator has of it; `Verif.RangeSysProps` relates the two.

Sizes and addresses are machine words and wrap like `size_t` and `void *` arithmetic.
Simplifications: the content of the pages is not part of this model; `close` always releases the
descriptor (as Linux does); a failing `MAP_FIXED` mapping leaves the old pages or a hole.
-/
namespace Verif.RangeSys
open Verif Verif.Mempool

variable [Abi]

/-- What a mapped page shows. -/
inductive Back where
  /-- private anonymous memory -/
  | anon
  /-- byte offset `off` of memory object `obj`, MAP_SHARED or MAP_PRIVATE -/
  | file (obj off : Nat) (shared : Bool)
  deriving DecidableEq, Repr

/-- A mapped page with its `madvise` flags. -/
structure Page where
  back : Back
  dontfork : Bool := false
  wipe : Bool := false
  deriving DecidableEq, Repr

/-- The process as far as ranges are concerned: pages by number, open descriptors with the memory object
they denote, number and lengths of memory objects created so far, number of bitmaps on the heap. -/
structure Sys where
  page : Nat → Option Page
  fds : List (Nat × Nat)
  objs : Nat
  objLen : Nat → Nat
  heap : Nat

/-- Page `p` starts inside the block of `l` bytes at `a`. -/
def InPages (pg a l p : Nat) : Prop := a ≤ p * pg ∧ p * pg < a + l

instance (pg a l p : Nat) : Decidable (InPages pg a l p) := inferInstanceAs (Decidable (_ ∧ _))

/-- Change the pages of a block. -/
def Sys.setPages (s : Sys) (pg a l : Nat) (f : Nat → Option Page → Option Page) : Sys :=
  { s with page := fun p => if InPages pg a l p then f p (s.page p) else s.page p }

/-- `mmap(NULL, l, ..., MAP_ANONYMOUS | MAP_PRIVATE)` at the address chosen by the kernel. -/
def Sys.mmapAnon (s : Sys) (pg a l : Nat) : Sys := s.setPages pg a l fun _ _ => some { back := .anon }
/-- `munmap`. -/
def Sys.munmap (s : Sys) (pg a l : Nat) : Sys := s.setPages pg a l fun _ _ => none
/-- `mmap(a, l, ..., MAP_FIXED, fd, 0)`. -/
def Sys.mmapFile (s : Sys) (pg a l obj : Nat) (shared : Bool) : Sys :=
  s.setPages pg a l fun p _ => some { back := .file obj (p * pg - a) shared }
/-- `madvise(a, l, MADV_DONTFORK)`. -/
def Sys.setDontfork (s : Sys) (pg a l : Nat) : Sys :=
  s.setPages pg a l fun _ o => o.map fun q => { q with dontfork := true }
/-- `madvise(a, l, MADV_WIPEONFORK)`. -/
def Sys.setWipe (s : Sys) (pg a l : Nat) : Sys :=
  s.setPages pg a l fun _ o => o.map fun q => { q with wipe := true }
/-- `close`. -/
def Sys.close (s : Sys) (fd : Nat) : Sys := { s with fds := s.fds.filter fun x => x.1 != fd }

/-- The address space of a forked child: pages marked MADV_DONTFORK are missing. -/
def Sys.fork (s : Sys) : Sys :=
  { s with page := fun p => (s.page p).bind fun q => if q.dontfork then none else some q }

/-- Answer to a `MAP_FIXED` request. -/
inductive Fixed where
  | ok
  | failKeep
  | failHole
  deriving DecidableEq, Repr

/-- The system's answers during one call. `fixed 0` answers the mapping of the init values, `fixed (i+1)` the
mapping for CPU `i`. -/
structure SysEnv where
  k : Mmap.Kernel (8 * wb)
  memfd : Option Nat
  ftruncateOk : Bool := true
  fixed : Nat → Fixed := fun _ => .ok
  dontforkOk : Bool := true
  wipeOk : Bool := true
  bitmapOk : Bool := true
  /-- result of the `k`-th init callback: true for 0 -/
  cbOk : Nat → Bool := fun _ => true

/-- A `MAP_FIXED` mapping of descriptor `fd` (780-782, 794-796); a closed descriptor is EBADF. -/
def mmapFixed (s : Sys) (pg : Nat) (a l : Word) (fd : Nat) (shared : Bool) (ans : Fixed) : Bool × Sys :=
  match s.fds.lookup fd, ans with
  | some obj, .ok => (true, s.mmapFile pg a.toNat l.toNat obj shared)
  | _, .failHole => (false, s.munmap pg a.toNat l.toNat)
  | _, _ => (false, s)

/-- `rseq_memfd_create_init` (701-728). -/
def memfdCreateInit (env : SysEnv) (initLen : Word) (s : Sys) : Option Nat × Sys :=
  match env.memfd with
  | none => (none, s)
  | some fd =>
    let obj := s.objs
    let s := { s with fds := (fd, obj) :: s.fds, objs := s.objs + 1
                      objLen := fun o => if o = obj then 0 else s.objLen o }
    if env.ftruncateOk then (some fd, { s with objLen := fun o => if o = obj then initLen.toNat else s.objLen o })
    else (none, s.close fd)

/-- `rseq_memfd_close` (730-737): nothing for -1. -/
def memfdClose (fd : Option Nat) (s : Sys) : Sys :=
  match fd with
  | none => s
  | some fd => s.close fd

/-- The loop of 790-797 for CPUs below `n`. -/
def mapCpus (c : Config) (env : SysEnv) (base : Word) (fd : Nat) : Nat → Sys → Bool × Sys
  | 0, s => (true, s)
  | n + 1, s =>
    match mapCpus c env base fd n s with
    | (false, s) => (false, s)
    | (true, s) =>
      mmapFixed s c.pg (base + BitVec.ofNat _ c.stride * BitVec.ofNat _ n) (BitVec.ofNat _ c.stride) fd false (env.fixed (n + 1))

/-- `range_len` (758-762) in `size_t`: product and sums wrap. -/
def rangeLenW (c : Config) : Word :=
  let l := BitVec.ofNat _ c.stride * BitVec.ofNat _ c.ncpu
  let l := if c.cow then l + BitVec.ofNat _ c.stride else l
  if c.robust then l + BitVec.ofNat _ c.stride else l

/-- Outcome of the COW_INIT part: `fail fd` is `goto error_alloc` with `memfd` still holding `fd`. -/
inductive Setup where
  | done (s : Sys)
  | fail (fd : Option Nat) (s : Sys)
  | assertFailed

/-- The COW_INIT part (774-825). -/
def setupCow (c : Config) (env : SysEnv) (base header : Word) (s : Sys) : Setup :=
  -- 775-779
  let init := base + BitVec.ofNat _ c.stride * BitVec.ofNat _ c.ncpu
  match memfdCreateInit env (BitVec.ofNat _ c.stride) s with
  | (none, s) => .fail none s
  | (some fd, s) =>
    -- 780-782
    match mmapFixed s c.pg init (BitVec.ofNat _ c.stride) fd true (env.fixed 0) with
    | (false, s) => .fail (some fd) s
    | (true, s) =>
      -- 783
      if c.global then .assertFailed
      else
        -- 787-798
        match mapCpus c env base fd c.ncpu s with
        | (false, s) => .fail (some fd) s
        | (true, s) =>
          -- 804-805
          if !env.dontforkOk then .fail (some fd) s
          else
            let s := s.setDontfork c.pg base.toNat (rangeLenW c).toNat
            -- 814-815
            if !env.wipeOk then .fail (some fd) s
            -- 823
            else .done (memfdClose (some fd) (s.setWipe c.pg header.toNat c.pg))

/-- Number of callback invocations (831-853). -/
def nrCalls (c : Config) : Nat := if c.initSet then (if c.global then 1 else c.ncpu) else 0

/-- Result of the call: NULL, a new range with its fields, or the process is killed by `abort` or `assert`. -/
inductive Res where
  | null (s : Sys)
  | range (base header mmapAddr mmapLen : Word) (s : Sys)
  | killed

/-- `error_alloc` (858-861) with `rseq_mempool_range_destroy(pool, range, true)` (600-615); `bitmap`: one was
allocated (577-598 frees it). A failing `munmap` is ignored. -/
def errorAlloc (c : Config) (env : SysEnv) (fd : Option Nat) (bitmap : Bool) (mmapAddr mmapLen : Word) (s : Sys) : Sys :=
  let s := memfdClose fd s
  let s := if bitmap then { s with heap := s.heap - 1 } else s
  if env.k.munmapOk mmapAddr mmapLen then s.munmap c.pg mmapAddr.toNat mmapLen.toNat else s

/-- `rseq_mempool_range_create` (739-862). -/
def rangeCreateSys (c : Config) (nrRanges : Nat) (env : SysEnv) (s : Sys) : Res :=
  -- 750-754
  if c.maxRanges ≠ 0 ∧ nrRanges ≥ c.maxRanges then .null s
  else
    -- 755-766
    let headerLen : Word := BitVec.ofNat _ 2 * BitVec.ofNat _ c.pg
    match Mmap.alignedMmap env.k (BitVec.ofNat _ c.pg) (rangeLenW c) (BitVec.ofNat _ c.stride) headerLen with
    | .einval => .null s
    | .mmapFailed => .null s
    | .aborted => .killed
    | .assertFailed => .killed
    | .ok base header mapped unmaps =>
      let s := unmaps.foldl (fun s u => s.munmap c.pg u.1.toNat u.2.toNat) (s.mmapAnon c.pg mapped.1.toNat mapped.2.toNat)
      -- 767-772
      let mmapAddr := header
      let mmapLen := headerLen + rangeLenW c
      -- 774-825
      match (if c.cow then setupCow c env base header s else .done s) with
      | .assertFailed => .killed
      | .fail fd s => .null (errorAlloc c env fd false mmapAddr mmapLen s)
      | .done s =>
        -- 827-830
        if c.robust && !env.bitmapOk then .null (errorAlloc c env none false mmapAddr mmapLen s)
        else
          let s := if c.robust then { s with heap := s.heap + 1 } else s
          -- 831-856
          if (List.range (nrCalls c)).all env.cbOk then .range base header mmapAddr mmapLen s
          else .null (errorAlloc c env none c.robust mmapAddr mmapLen s)

/-- `rseq_mempool_range_destroy` (600-615) on a range without leaked items; `accessible` is false in a forked child. -/
def rangeDestroySys (c : Config) (accessible : Bool) (header mmapAddr mmapLen : Word) (s : Sys) : Sys :=
  let s := if c.robust then { s with heap := s.heap - 1 } else s
  if accessible then s.munmap c.pg mmapAddr.toNat mmapLen.toNat
  else s.munmap c.pg header.toNat (BitVec.ofNat (8 * wb) 2 * BitVec.ofNat _ c.pg).toNat

end Verif.RangeSys
