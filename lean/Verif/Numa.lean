import Verif.Bits
/-
Model of `rseq_mempool_range_init_numa` (src/rseq-mempool.c:406-459, built with libnuma).
Addresses and page counts are `Nat` (a range of mapped memory does not wrap). The arrays `pages` and `nodes` are lists;
`status` only feeds messages.
-/
namespace Verif.Numa
open Verif

/-- `MOVE_PAGES_BATCH_SIZE` (56). -/
def batch : Nat := 4096

/-- One `move_pages(0, count, pages, nodes, status, flags)` call. -/
structure Call where
  count : Nat
  pages : List Nat
  nodes : List Int
  flags : Int
  deriving DecidableEq, Repr

/-- The inner `for` (438-441), `k` iterations left: entries appended to `pages`, and the new value of `page`. -/
def fill (addr pageLen : Nat) : Nat → Nat → List Nat × Nat
  | 0, page => ([], page)
  | k + 1, page =>
    let r := fill addr pageLen k (page + 1)
    ((addr + page * pageLen) :: r.1, r.2)

theorem fill_page (addr pageLen : Nat) : ∀ k page, (fill addr pageLen k page).2 = page + k := by
  intro k
  induction k with
  | zero => intro page; rfl
  | succ k ih => intro page; show (fill addr pageLen k (page + 1)).2 = _; rw [ih]; omega

/-- The outer `for` (429-457): `rets i` is what the i-th call returns. Result and calls made, in order. -/
def loop (addr pageLen nrPages : Nat) (nodes : List Int) (flags : Int) (rets : Nat → Int) (i page : Nat) : Int × List Call :=
  if h : page < nrPages then
    let left := nrPages - page
    let maxK := if left < batch then left else batch
    let r := fill addr pageLen maxK page
    let call : Call := ⟨maxK, r.1, nodes, flags⟩
    if rets i < 0 then (rets i, [call])
    else
      let x := loop addr pageLen nrPages nodes flags rets (i + 1) r.2
      (x.1, call :: x.2)
  else (0, [])
  termination_by nrPages - page
  decreasing_by
    rw [fill_page]
    have : 0 < batch := by decide
    split <;> omega

/-- `rseq_mempool_range_init_numa` (406-459): flags check 414-417, page count 418-419, node 421-427, loop 429-458.
Result: return value, errno set by the function itself (`some` for the EINVAL of line 415), calls. `node` is the answer of
`numa_node_of_cpu`. -/
def rangeInitNuma (addr : Nat) (len pageLen : BitVec 64) (node flags : Int) (rets : Nat → Int) : Int × Bool × List Call :=
  if flags = 0 then (-1, true, [])
  else
    let nrPages := (len >>> (Bits.countOrder pageLen).toNat).toNat
    if node < 0 then (-1, false, [])
    else
      let r := loop addr pageLen.toNat nrPages (List.replicate batch node) flags rets 0 0
      (r.1, false, r.2)

end Verif.Numa
