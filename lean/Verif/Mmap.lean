import Verif.Bits
/-
Model of `aligned_mmap_anonymous` (src/rseq-mempool.c:617-699).
`size_t`/`uintptr_t` values are `BitVec n` (`n` is 32 or 64) and wrap exactly like the C unsigned types.
-/
namespace Verif.Mmap
open Verif.Bits

variable {n : Nat}

/-- The kernel answers used by the function: the address returned by `mmap(NULL, length, ...)`
(`none` = MAP_FAILED) and whether `munmap(addr, length)` succeeds. -/
structure Kernel (n : Nat) where
  mmap : BitVec n → Option (BitVec n)
  munmapOk : BitVec n → BitVec n → Bool

/-- Observable outcome. `ok base header mapped unmaps`: returned pointer, `*pre_header`, the
`(address, length)` passed back by the single `mmap` call, and the `munmap` calls in order. -/
inductive Outcome (n : Nat) where
  /-- NULL with errno EINVAL, no system call made. -/
  | einval
  /-- NULL because `mmap` failed (errno from the kernel). -/
  | mmapFailed
  /-- `abort()` after a failing `munmap`. -/
  | aborted
  /-- an `assert` fired. -/
  | assertFailed
  | ok (base header : BitVec n) (mapped : BitVec n × BitVec n)
      (unmaps : List (BitVec n × BitVec n))
  deriving Repr, DecidableEq

/-- Second half, from label `out:` (src/rseq-mempool.c:673-698). `ptr` points to the pre-header. -/
def finish (k : Kernel n) (pageOrder : Nat) (len alignment preHeaderLen : BitVec n)
    (ptr pageCount minPageCount totalAllocate : BitVec n)
    (mapped : BitVec n × BitVec n) (unmaps : List (BitVec n × BitVec n)) : Outcome n :=
  -- assert(page_count >= minimum_page_count)                             (674)
  if ¬ minPageCount ≤ pageCount then .assertFailed else
  -- if (page_count > minimum_page_count) { unmap extra after }           (676-687)
  let after := decide (minPageCount < pageCount)
  let extraPtr := ptr + (minPageCount <<< pageOrder)
  let extra := (pageCount - minPageCount) <<< pageOrder
  if after && !k.munmapOk extraPtr extra then .aborted else
  let unmaps := if after then unmaps ++ [(extraPtr, extra)] else unmaps
  let totalAllocate := if after then totalAllocate - extra else totalAllocate
  -- the two final asserts                                                (689-690)
  if ¬ ((ptr + preHeaderLen) &&& (alignment - 1#n) = 0#n) then .assertFailed else
  if ¬ (totalAllocate = len + preHeaderLen) then .assertFailed else
  -- *pre_header = ptr; return ptr + pre_header_len                        (693-698)
  .ok (ptr + preHeaderLen) ptr mapped unmaps

/-- `aligned_mmap_anonymous` (src/rseq-mempool.c:621-699). The two `fprintf`/`perror` side effects are
omitted; `MAP_FAILED` leads to NULL (651-654, 692-698). -/
def alignedMmap (k : Kernel n) (pageSize len alignment preHeaderLen : BitVec n) : Outcome n :=
  -- 629-633
  if len < pageSize ∨ alignment < pageSize ∨ isPow2 (alignment.setWidth 64) = false ∨
      len &&& (alignment - 1#n) ≠ 0#n then .einval else
  -- 634-638
  if countOrderUlong pageSize < 0 then .einval else
  let pageOrder := (countOrderUlong pageSize).toNat
  -- 639-642
  if preHeaderLen ≠ 0#n ∧ preHeaderLen &&& (pageSize - 1#n) ≠ 0#n then .einval else
  -- 644-645
  let minPageCount := (preHeaderLen + len) >>> pageOrder
  let pageCount := (preHeaderLen + len + alignment - pageSize) >>> pageOrder
  -- 647
  if ¬ minPageCount ≤ pageCount then .assertFailed else
  -- 649-654
  match k.mmap (pageCount <<< pageOrder) with
  | none => .mmapFailed
  | some ptr =>
    -- 656
    let totalAllocate := pageCount <<< pageOrder
    let mapped := (ptr, totalAllocate)
    -- 658-661
    if (ptr + preHeaderLen) &&& (alignment - 1#n) = 0#n then
      finish k pageOrder len alignment preHeaderLen ptr pageCount minPageCount totalAllocate mapped []
    else
      -- 664-672
      let extra := offsetAlign (ptr + preHeaderLen) alignment
      if ¬ (extra &&& (pageSize - 1#n) = 0#n) then .assertFailed else
      if !k.munmapOk ptr extra then .aborted else
      finish k pageOrder len alignment preHeaderLen (ptr + extra) (pageCount - (extra >>> pageOrder))
        minPageCount (totalAllocate - extra) mapped [(ptr, extra)]

end Verif.Mmap
