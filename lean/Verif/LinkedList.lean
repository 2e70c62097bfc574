/-
Model of the intrusive doubly linked lists, src/list.h.

A heap maps node addresses to `next` and `prev`; every access to an address that is not mapped is a
fault (`none`).  The stores happen in the order of the C statements.  The `list_entry`/`container_of`
variants differ by a constant offset between node and object that cancels in every use; the model
works on node addresses.
-/
namespace Verif.LinkedList

/-- Memory holding `struct list_head` nodes (list.h:36-38). -/
structure Heap where
  next : Nat → Nat
  prev : Nat → Nat
  mapped : Nat → Bool

/-- Load `a->next`. -/
def Heap.getN (h : Heap) (a : Nat) : Option Nat := if h.mapped a then some (h.next a) else none
/-- Load `a->prev`. -/
def Heap.getP (h : Heap) (a : Nat) : Option Nat := if h.mapped a then some (h.prev a) else none
/-- Store `a->next = v`. -/
def Heap.setN (h : Heap) (a v : Nat) : Option Heap :=
  if h.mapped a then some { h with next := fun x => if x = a then v else h.next x } else none
/-- Store `a->prev = v`. -/
def Heap.setP (h : Heap) (a v : Nat) : Option Heap :=
  if h.mapped a then some { h with prev := fun x => if x = a then v else h.prev x } else none

/-- `INIT_LIST_HEAD` (45-46): assigns `prev` first, then `next`. -/
def initHead (a : Nat) (h : Heap) : Option Heap := do
  let h ← h.setP a a
  h.setN a a

/-- `list_add` (51-58). -/
def add (newp head : Nat) (h : Heap) : Option Heap := do
  let h ← h.setP (← h.getN head) newp
  let h ← h.setN newp (← h.getN head)
  let h ← h.setP newp head
  h.setN head newp

/-- `list_add_tail` (61-68). -/
def addTail (newp head : Nat) (h : Heap) : Option Heap := do
  let h ← h.setN (← h.getP head) newp
  let h ← h.setN newp head
  let h ← h.setP newp (← h.getP head)
  h.setP head newp

/-- `__list_del` (71-76). -/
def delPtr (prev next : Nat) (h : Heap) : Option Heap := do
  let h ← h.setP next prev
  h.setN prev next

/-- `list_del` (79-83). -/
def del (elem : Nat) (h : Heap) : Option Heap := do
  delPtr (← h.getP elem) (← h.getN elem) h

/-- `list_del_init` (86-91). -/
def delInit (elem : Nat) (h : Heap) : Option Heap := do
  let h ← del elem h
  initHead elem h

/-- `list_move` (94-99). -/
def move (elem head : Nat) (h : Heap) : Option Heap := do
  let h ← delPtr (← h.getP elem) (← h.getN elem) h
  add elem head h

/-- `list_replace` (102-109). -/
def replace (old new : Nat) (h : Heap) : Option Heap := do
  let h ← h.setN new (← h.getN old)
  let h ← h.setP new (← h.getP old)
  let h ← h.setN (← h.getP new) new
  h.setP (← h.getN new) new

/-- `list_splice` (112-122). -/
def splice (addl head : Nat) (h : Heap) : Option Heap := do
  if addl ≠ (← h.getN addl) then
    let h ← h.setP (← h.getN addl) head
    let h ← h.setN (← h.getP addl) (← h.getN head)
    let h ← h.setP (← h.getN head) (← h.getP addl)
    h.setN head (← h.getN addl)
  else pure h

/-- `list_empty` (182-186). -/
def isEmpty (head : Nat) (h : Heap) : Option Bool := do
  pure (head == (← h.getN head))

/-- `list_replace_init` (188-196). -/
def replaceInit (old new : Nat) (h : Heap) : Option Heap := do
  let head ← h.getN old
  let h ← del old h
  let h ← addTail new head h
  initHead old h

/-- `list_for_each` / `list_for_each_entry` (132-133, 157-160): the visited nodes in order; the fuel
bounds the number of loop iterations (`none` when it runs out or on a fault). `pos` is the loop
variable at the loop test. -/
def forEach (head : Nat) (h : Heap) : (fuel pos : Nat) → Option (List Nat)
  | 0, _ => none
  | fuel + 1, pos =>
    if pos = head then some []
    else do
      let rest ← forEach head h fuel (← h.getN pos)
      pure (pos :: rest)

/-- `list_for_each_prev` / `list_for_each_entry_reverse` (145-146, 162-165). -/
def forEachPrev (head : Nat) (h : Heap) : (fuel pos : Nat) → Option (List Nat)
  | 0, _ => none
  | fuel + 1, pos =>
    if pos = head then some []
    else do
      let rest ← forEachPrev head h fuel (← h.getP pos)
      pure (pos :: rest)

/-- What a loop body does with the element it visits. -/
inductive Body where
  /-- leave it alone -/
  | keep
  /-- `list_del`, memory stays -/
  | remove
  /-- `list_del`, then the memory of the element is unmapped (rseq_mempool_destroy,
  rseq-mempool.c:911-913: rseq_mempool_range_destroy unmaps the header page the node lives in) -/
  | removeFree
  /-- the memory is unmapped without unlinking -/
  | free
  deriving DecidableEq, Repr

/-- Unmap a node. -/
def unmap (e : Nat) (h : Heap) : Heap := { h with mapped := fun x => if x = e then false else h.mapped x }

/-- Run a loop body on element `e`. -/
def runBody (b : Body) (e : Nat) (h : Heap) : Option Heap :=
  match b with
  | .keep => some h
  | .remove => del e h
  | .removeFree => do
    let h ← del e h
    pure (unmap e h)
  | .free => some (unmap e h)

/-- `list_for_each_safe` / `list_for_each_entry_safe` / `..._safe_from` (139-142, 167-180), from the
loop test on; `pos` and `p` are the two cursors. -/
def forEachSafe (head : Nat) (body : Nat → Body) : (fuel pos p : Nat) → Heap → Option (List Nat × Heap)
  | 0, _, _, _ => none
  | fuel + 1, pos, p, h =>
    if pos = head then some ([], h)
    else do
      let h ← runBody (body pos) pos h
      let (rest, h) ← forEachSafe head body fuel p (← h.getN p) h
      pure (pos :: rest, h)

/-- `list_for_each_prev_safe` (152-155). -/
def forEachPrevSafe (head : Nat) (body : Nat → Body) : (fuel pos p : Nat) → Heap → Option (List Nat × Heap)
  | 0, _, _, _ => none
  | fuel + 1, pos, p, h =>
    if pos = head then some ([], h)
    else do
      let h ← runBody (body pos) pos h
      let (rest, h) ← forEachPrevSafe head body fuel p (← h.getP p) h
      pure (pos :: rest, h)

/-- The loop of `rseq_mempool_destroy` (rseq-mempool.c:911-918) on the list of ranges, from the loop
test on: unlink, unmap (`ok`: whether munmap succeeds), on failure link back and leave the loop. The
result is the visited nodes, whether the end of the list was reached, and the heap. -/
def destroyWalk (head : Nat) (ok : Nat → Bool) : (fuel pos p : Nat) → Heap → Option (List Nat × Bool × Heap)
  | 0, _, _, _ => none
  | fuel + 1, pos, p, h =>
    if pos = head then some ([], true, h)
    else do
      let h ← del pos h
      if ok pos then
        let h := unmap pos h
        let (rest, fin, h) ← destroyWalk head ok fuel p (← h.getN p) h
        pure (pos :: rest, fin, h)
      else
        let h ← add pos head h
        pure ([pos], false, h)

end Verif.LinkedList
