import Verif.RangeSys
import Verif.MempoolSpec
import Verif.MmapProps
/-
Specification of the address-space effect of creating a range: which page of the block shows what.
Nothing here uses the model functions of `Verif.RangeSys`, only its state type.
-/
namespace Verif.RangeSys
open Verif Verif.Mempool

variable [Abi]

/-- The page numbered `p` of a range whose header starts at address `header`; `obj` is the memory object of
the init values. First header page: canary, wiped on fork for COW_INIT. Second header page: the range
structure. Then for COW_INIT the areas of the CPUs (private views of the object), the init values (shared
view) and, when present, the free-list area (anonymous), none of them inherited by children. -/
def wantedPage (c : Config) (header obj p : Nat) : Page :=
  let x := p * c.pg - header
  let y := x - 2 * c.pg
  if x < c.pg then { back := .anon, wipe := c.cow }
  else if x < 2 * c.pg ∨ c.cow = false then { back := .anon }
  else if y < c.stride * c.ncpu then { back := .file obj (y % c.stride) false, dontfork := true }
  else if y < c.stride * (c.ncpu + 1) then { back := .file obj (y - c.stride * c.ncpu) true, dontfork := true }
  else { back := .anon, dontfork := true }

/-- What the call may rely on: a valid configuration whose block fits the address space, an `mmap` that returns
aligned unused address space, a `memfd_create` that returns an unused descriptor. -/
structure SysOK (c : Config) (env : SysEnv) (s : Sys) : Prop where
  valid : Valid c
  fits : 2 * c.pg + rangeLen c + c.stride < 2 ^ (8 * wb)
  kernel : Mmap.KernelOk env.k c.pg
  unused : ∀ l a, env.k.mmap l = some a → ∀ p, InPages c.pg a.toNat l.toNat p → s.page p = none
  newFd : ∀ fd, env.memfd = some fd → s.fds.lookup fd = none

end Verif.RangeSys
