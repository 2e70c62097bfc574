import Verif.RseqCopy
import Verif.RseqPseudo
/-
The pseudo-code of `pseudocode.h` as a program of separate accesses, for executions in which other threads
may change memory between two accesses of a helper.

`Op.tree` is the pseudo-code once more, this time not as a function of one memory (`pseudo`) but as a tree:
each node is one access of one word or byte, and what follows may depend on the value a load returned.
`memcpy` copies the bytes in the order `ord`; C leaves the order open.

`re` is false for the pseudo-code as it stands.  For `re = true` the pop helper loads the head a second time
after comparing it; that is what the assembly of three architectures does (`rereads`).
-/

namespace Verif.Rseq

variable {n : Nat}

/-- One access: load a word and get `x`, store a word, load a byte and get `b`, store a byte. -/
inductive Acc (n : Nat)
  | ldw (a x : W n) | stw (a x : W n) | ldb (a : W n) (b : Byte) | stb (a : W n) (b : Byte)

/-- A program of accesses. -/
inductive Tree (n : Nat)
  | ret (r : Int)
  | ldw (a : W n) (k : W n → Tree n)
  | stw (a x : W n) (k : Tree n)
  | ldb (a : W n) (k : Byte → Tree n)
  | stb (a : W n) (b : Byte) (k : Tree n)

/-- `memcpy`, byte by byte, offsets in the given order. -/
def copyTree (dst src : W n) (k : Tree n) : List (W n) → Tree n
  | [] => k
  | o :: r => .ldb (src + o) fun b => .stb (dst + o) b (copyTree dst src k r)

/-- `pseudocode.h:69-76`: the pop helper after the comparison. -/
def popTree (v voffp load r1 : W n) : Tree n :=
  .stw load r1 (.ldw (r1 + voffp) fun r2 => .stw v r2 (.ret 0))

/-- `pseudocode.h:35-139`. -/
def Op.tree (re : Bool) (ord : List (W n)) : Op n → Tree n
  | .cbneStore v expect newv =>                       -- pseudocode.h:35-47
    .ldw v fun r1 => if r1 ≠ expect then .ret 1 else .stw v newv (.ret 0)
  | .addStore v count =>                              -- pseudocode.h:49-60
    .ldw v fun r1 => .stw v (r1 + count) (.ret 0)
  | .cbeqStoreAddLoadStore v expectnot voffp load =>  -- pseudocode.h:62-77
    .ldw v fun r1 => if r1 = expectnot then .ret 1 else
      if re = true then .ldw v (popTree v voffp load) else popTree v voffp load r1
  | .addLoadLoadAddStore ptr off inc =>               -- pseudocode.h:79-93
    .ldw ptr fun r1 => .ldw (r1 + off) fun r2 => .ldw r2 fun r3 => .stw r2 (r3 + inc) (.ret 0)
  | .cbneCbneStore v expect v2 expect2 newv =>        -- pseudocode.h:95-109
    .ldw v fun r1 => if r1 ≠ expect then .ret 1 else
      .ldw v2 fun r2 => if r2 ≠ expect2 then .ret 1 else .stw v newv (.ret 0)
  | .cbneStoreStore v expect v2 newv2 newv =>         -- pseudocode.h:111-124
    .ldw v fun r1 => if r1 ≠ expect then .ret 1 else .stw v2 newv2 (.stw v newv (.ret 0))
  | .cbneMemcpyStore v expect dst src _ newv =>       -- pseudocode.h:126-139
    .ldw v fun r1 => if r1 ≠ expect then .ret 1 else copyTree dst src (.stw v newv (.ret 0)) ord

/-- `ord` is an order in which `memcpy` may copy: every offset below `len` once. -/
def IsOrder (op : Op n) (ord : List (W n)) : Prop :=
  match op with
  | .cbneMemcpyStore _ _ _ _ len _ => ord.Perm ((List.range len.toNat).map (BitVec.ofNat (8 * n)))
  | _ => True

/-- The program executes these accesses (the loads returning whatever they return), and `t'` is left. -/
inductive Runs : Tree n → List (Acc n) → Tree n → Prop
  | nil {t : Tree n} : Runs t [] t
  | ldw {a x : W n} {k : W n → Tree n} {as : List (Acc n)} {t' : Tree n} (h : Runs (k x) as t') :
      Runs (.ldw a k) (.ldw a x :: as) t'
  | stw {a x : W n} {k : Tree n} {as : List (Acc n)} {t' : Tree n} (h : Runs k as t') :
      Runs (.stw a x k) (.stw a x :: as) t'
  | ldb {a : W n} {b : Byte} {k : Byte → Tree n} {as : List (Acc n)} {t' : Tree n} (h : Runs (k b) as t') :
      Runs (.ldb a k) (.ldb a b :: as) t'
  | stb {a : W n} {b : Byte} {k : Tree n} {as : List (Acc n)} {t' : Tree n} (h : Runs k as t') :
      Runs (.stb a b k) (.stb a b :: as) t'

/-- The access takes memory `m` to `m'`. -/
def Acc.does (be : Bool) (m : Mem n) : Acc n → Mem n → Prop
  | .ldw a x, m' => Rseq.ldw be m a = x ∧ m' = m
  | .stw a x, m' => m' = Rseq.stw be m a x
  | .ldb a b, m' => m a = b ∧ m' = m
  | .stb a b, m' => m' = stb1 m a b

/-- What one instruction does to memory: nothing, one access, or load and store of one word. -/
inductive Does (be : Bool) (m : Mem n) : List (Acc n) → Mem n → Prop
  | none : Does be m [] m
  | one {a : Acc n} {m' : Mem n} (h : a.does be m m') : Does be m [a] m'
  | rmw {a x y : W n} {m' : Mem n} (h : (Acc.ldw a x).does be m m) (h' : (Acc.stw a y).does be m m') :
      Does be m [.ldw a x, .stw a y] m'

theorem Runs.trans {t t' t'' : Tree n} {as bs : List (Acc n)} (h : Runs t as t') (h' : Runs t' bs t'') :
    Runs t (as ++ bs) t'' := by
  induction h with
  | nil => exact h'
  | ldw _ ih => exact .ldw (ih h')
  | stw _ ih => exact .stw (ih h')
  | ldb _ ih => exact .ldb (ih h')
  | stb _ ih => exact .stb (ih h')

/-! ### Without interference the tree is the function of `RseqPseudo.lean` -/

/-- Execute on a memory nobody else changes. -/
def Tree.alone (be : Bool) : Tree n → Mem n → Int × Mem n
  | .ret r, m => (r, m)
  | .ldw a k, m => (k (Rseq.ldw be m a)).alone be m
  | .stw a x k, m => k.alone be (Rseq.stw be m a x)
  | .ldb a k, m => (k (m a)).alone be m
  | .stb a b k, m => k.alone be (stb1 m a b)

/-- Copy the bytes of the listed offsets. -/
def cpyL (m : Mem n) (dst src : W n) (l : List (W n)) : Mem n := fun x =>
  if x - dst ∈ l then m (src + (x - dst)) else m x

theorem copyTree_alone (be : Bool) (dst src len : W n) (hno : NoOverlap dst src len) (k : Tree n) (m : Mem n) :
    ∀ (l done : List (W n)), (∀ o ∈ l, o.toNat < len.toNat) → (∀ o ∈ done, o.toNat < len.toNat) →
      (copyTree dst src k l).alone be (cpyL m dst src done) = k.alone be (cpyL m dst src (l.reverse ++ done)) := by
  intro l
  induction l with
  | nil => intro done _ _; rfl
  | cons o r ih =>
    intro done hl hd
    have ho := hl o (by simp)
    simp only [copyTree, Tree.alone]
    have hs : stb1 (cpyL m dst src done) (dst + o) (cpyL m dst src done (src + o)) =
        cpyL m dst src (o :: done) := by
      have h1 : cpyL m dst src done (src + o) = m (src + o) := by
        unfold cpyL
        rw [if_neg]
        intro hin
        refine hno o.toNat (src + o - dst).toNat ho (hd _ hin) ?_
        rw [BitVec.ofNat_toNat, BitVec.ofNat_toNat, BitVec.setWidth_eq, BitVec.setWidth_eq,
          BitVec.add_comm dst, BitVec.sub_add_cancel]
      rw [h1]
      funext x
      simp only [stb1, cpyL]
      by_cases hx : x = dst + o
      · subst hx
        rw [if_pos rfl, add_sub_cancel_w, if_pos (by simp)]
      · rw [if_neg hx]
        have : x - dst ≠ o := by
          intro h; apply hx; rw [← h, BitVec.add_comm, BitVec.sub_add_cancel]
        simp [this]
    rw [hs, ih (o :: done) (fun o ho => hl o (by simp [ho]))
      (fun o' ho' => (List.mem_cons.1 ho').elim (fun h => h ▸ ho) (fun h => hd _ h))]
    simp

theorem tree_alone (be re : Bool) (op : Op n) (ord : List (W n)) (hord : IsOrder op ord) (m : Mem n)
    (hno : ∀ v e dst src len w, op = .cbneMemcpyStore v e dst src len w → NoOverlap dst src len) :
    (op.tree re ord).alone be m = pseudo be op m := by
  cases op with
  | cbneMemcpyStore v e dst src len w =>
    simp only [Op.tree, Tree.alone, pseudo]
    split
    · rfl
    · have hlen : ∀ o ∈ ord, o.toNat < len.toNat := by
        intro o ho
        obtain ⟨i, hi, rfl⟩ := List.mem_map.1 (hord.mem_iff.1 ho)
        have hi := List.mem_range.1 hi
        rw [ofNat_toNat_lt len i hi]; exact hi
      have h0 : cpyL m dst src [] = m := by funext x; simp [cpyL]
      have := copyTree_alone be dst src len (hno _ _ _ _ _ _ rfl) (.stw v w (.ret 0)) m ord []
        hlen (by simp)
      rw [h0] at this
      rw [this]
      simp only [Tree.alone, List.append_nil]
      congr 2
      funext x
      simp only [cpyL, memcpy, List.mem_reverse]
      have hiff : x - dst ∈ ord ↔ (x - dst).toNat < len.toNat := by
        refine ⟨hlen _, fun h => hord.mem_iff.2 (List.mem_map.2 ⟨_, List.mem_range.2 h, ?_⟩)⟩
        rw [BitVec.ofNat_toNat, BitVec.setWidth_eq]
      simp only [hiff]
  | cbeqStoreAddLoadStore v e o l =>
    simp only [Op.tree, Tree.alone, pseudo]
    split
    · rfl
    · split <;> rfl
  | _ => simp only [Op.tree, Tree.alone, pseudo] <;> (repeat' split) <;> first | rfl | simp_all [Tree.alone]

end Verif.Rseq
