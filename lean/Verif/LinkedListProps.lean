import Verif.LinkedList
/-
C54, C55: the operations of src/list.h implement sequence operations, and safe iteration.

Specification: `IsList h head xs` says that the circular chain starting at `head` has exactly the
elements `xs` in this order, in both link directions, with mapped and pairwise distinct nodes.
-/
namespace Verif.LinkedList

/-- From `a`, following `next` visits `xs` and then arrives at `b`; `prev` is the reverse. -/
def Seg (h : Heap) (a : Nat) : List Nat → Nat → Prop
  | [], b => h.next a = b ∧ h.prev b = a
  | x :: xs, b => h.next a = x ∧ h.prev x = a ∧ Seg h x xs b

/-- The list with head node `head` has exactly the elements `xs`. -/
structure IsList (h : Heap) (head : Nat) (xs : List Nat) : Prop where
  seg : Seg h head xs head
  nodup : (head :: xs).Nodup
  mapped : ∀ x ∈ head :: xs, h.mapped x = true

/-- Nodes outside `l` are untouched (and nothing is mapped or unmapped). -/
def Untouched (l : List Nat) (h h' : Heap) : Prop :=
  h'.mapped = h.mapped ∧ ∀ x, x ∉ l → h'.next x = h.next x ∧ h'.prev x = h.prev x

theorem Seg.append {h : Heap} {a b y : Nat} {xs ys : List Nat} :
    Seg h a (xs ++ y :: ys) b ↔ Seg h a xs y ∧ Seg h y ys b := by
  induction xs generalizing a with
  | nil => simp [Seg, and_assoc]
  | cons x xs ih => simp [Seg, ih, and_assoc]

theorem Seg.congr {h h' : Heap} {a b : Nat} {xs : List Nat} (hs : Seg h a xs b)
    (hn : ∀ x ∈ a :: xs, h'.next x = h.next x) (hp : ∀ x ∈ b :: xs, h'.prev x = h.prev x) : Seg h' a xs b := by
  induction xs generalizing a with
  | nil => simp only [Seg] at *; rw [hn a (by simp), hp b (by simp)]; exact hs
  | cons x xs ih =>
    simp only [Seg] at *
    refine ⟨by rw [hn a (by simp)]; exact hs.1, by rw [hp x (by simp)]; exact hs.2.1, ih hs.2.2 ?_ ?_⟩
    · intro y hy; exact hn y (by simp at hy ⊢; grind)
    · intro y hy; exact hp y (by simp at hy ⊢; grind)

/-- A list none of whose nodes is touched stays what it is. -/
theorem IsList.untouched {h h' : Heap} {l : List Nat} (hu : Untouched l h h') {head : Nat} {xs : List Nat}
    (hl : IsList h head xs) (hd : ∀ x ∈ head :: xs, x ∉ l) : IsList h' head xs :=
  ⟨hl.seg.congr (fun x hx => (hu.2 x (hd x hx)).1) (fun x hx => (hu.2 x (hd x hx)).2), hl.nodup,
    fun x hx => by rw [hu.1]; exact hl.mapped x hx⟩

theorem mem_last {xs : List Nat} {a : Nat} : a ∈ xs ++ [a] := by simp

/-! ### C54: the operations are the sequence operations -/

/-- `INIT_LIST_HEAD` makes an empty list. -/
theorem init_spec {h : Heap} {a : Nat} (hm : h.mapped a = true) :
    ∃ h', initHead a h = some h' ∧ IsList h' a [] ∧ Untouched [a] h h' := by
  simp only [initHead, Heap.setP, Heap.setN, hm, bind, Option.bind, if_true]
  refine ⟨_, rfl, ⟨?_, by simp, ?_⟩, rfl, ?_⟩
  · simp [Seg]
  · grind
  · grind

/-- `list_add` puts the new node in front. -/
theorem add_spec {h : Heap} {head newp : Nat} {xs : List Nat} (hl : IsList h head xs) (hnew : newp ∉ head :: xs)
    (hm : h.mapped newp = true) :
    ∃ h', add newp head h = some h' ∧ IsList h' head (newp :: xs) ∧ Untouched (newp :: head :: xs) h h' := by
  obtain ⟨hs, hn, hmp⟩ := hl
  cases xs with
  | nil =>
    simp only [Seg] at hs
    have h1 : h.mapped head = true := hmp _ (by simp)
    simp only [add, Heap.setP, Heap.getN, Heap.setN, h1, hm, hs, bind, Option.bind, if_true]
    refine ⟨_, rfl, ⟨?_, ?_, ?_⟩, ⟨rfl, ?_⟩⟩
    · simp only [Seg]; grind
    · grind
    · grind
    · grind
  | cons y ys =>
    simp only [Seg] at hs
    have h1 : h.mapped head = true := hmp _ (by simp)
    have h2 : h.mapped y = true := hmp _ (by simp)
    simp only [add, Heap.setP, Heap.getN, Heap.setN, h1, h2, hm, hs, bind, Option.bind, if_true]
    refine ⟨_, rfl, ⟨?_, ?_, ?_⟩, ⟨rfl, ?_⟩⟩
    · simp only [Seg]
      refine ⟨by grind, by grind, by grind, by grind, hs.2.2.congr ?_ ?_⟩ <;> grind
    · grind
    · grind
    · grind

/-- `list_add_tail` puts the new node at the end. -/
theorem addTail_spec {h : Heap} {head newp : Nat} {xs : List Nat} (hl : IsList h head xs) (hnew : newp ∉ head :: xs)
    (hm : h.mapped newp = true) :
    ∃ h', addTail newp head h = some h' ∧ IsList h' head (xs ++ [newp]) ∧ Untouched (newp :: head :: xs) h h' := by
  obtain ⟨hs, hn, hmp⟩ := hl
  rcases List.eq_nil_or_concat xs with rfl | ⟨ys, y, rfl⟩
  · simp only [Seg] at hs
    have h1 : h.mapped head = true := hmp _ (by simp)
    simp only [addTail, Heap.setP, Heap.getP, Heap.setN, h1, hm, hs, bind, Option.bind, if_true]
    refine ⟨_, rfl, ⟨?_, ?_, ?_⟩, ⟨rfl, ?_⟩⟩
    · simp only [List.nil_append, Seg]; grind
    · grind
    · grind
    · grind
  · simp only [List.concat_eq_append] at *
    rw [Seg.append] at hs
    obtain ⟨hs1, hs2⟩ := hs
    simp only [Seg] at hs2
    have h1 : h.mapped head = true := hmp _ (by simp)
    have h2 : h.mapped y = true := hmp _ (by simp)
    simp only [addTail, Heap.setP, Heap.getP, Heap.setN, h1, h2, hm, hs2, bind, Option.bind, if_true]
    refine ⟨_, rfl, ⟨?_, ?_, ?_⟩, ⟨rfl, ?_⟩⟩
    · rw [Seg.append, Seg.append]
      refine ⟨⟨hs1.congr ?_ ?_, ?_⟩, ?_⟩
      · grind
      · grind
      · simp only [Seg]; grind
      · simp only [Seg]; grind
    · grind
    · grind
    · grind

/-- Unlinking `e` from a segment: the neighbours of `e` are linked to each other. -/
theorem unlink {h : Heap} {head e : Nat} {pre post : List Nat} (hl : IsList h head (pre ++ e :: post)) :
    ∃ h', delPtr (h.prev e) (h.next e) h = some h' ∧ IsList h' head (pre ++ post) ∧
      Untouched (head :: (pre ++ post)) h h' := by
  obtain ⟨hs, hn, hmp⟩ := hl
  rw [Seg.append] at hs
  obtain ⟨hs1, hs2⟩ := hs
  have h1 : h.mapped head = true := hmp _ (by simp)
  rcases List.eq_nil_or_concat pre with rfl | ⟨ys, y, rfl⟩ <;> rcases post with _ | ⟨z, zs⟩
  · simp only [Seg] at hs1 hs2
    simp only [delPtr, Heap.setP, Heap.setN, h1, hs1, hs2, bind, Option.bind, if_true]
    refine ⟨_, rfl, ⟨?_, ?_, ?_⟩, ⟨rfl, ?_⟩⟩
    · simp [Seg]
    · grind
    · grind
    · grind
  · simp only [Seg] at hs1 hs2
    have h2 : h.mapped z = true := hmp _ (by simp)
    simp only [delPtr, Heap.setP, Heap.setN, h1, h2, hs1, hs2, bind, Option.bind, if_true]
    refine ⟨_, rfl, ⟨?_, ?_, ?_⟩, ⟨rfl, ?_⟩⟩
    · simp only [List.nil_append, Seg]
      refine ⟨by grind, by grind, hs2.2.2.congr ?_ ?_⟩ <;> grind
    · grind
    · grind
    · grind
  · simp only [List.concat_eq_append] at *
    rw [Seg.append] at hs1
    simp only [Seg] at hs1 hs2
    have h2 : h.mapped y = true := hmp _ (by simp)
    simp only [delPtr, Heap.setP, Heap.setN, h1, h2, hs1, hs2, bind, Option.bind, if_true]
    refine ⟨_, rfl, ⟨?_, ?_, ?_⟩, ⟨rfl, ?_⟩⟩
    · rw [List.append_nil, Seg.append]
      refine ⟨hs1.1.congr ?_ ?_, ?_⟩
      · grind
      · grind
      · simp only [Seg]; grind
    · grind
    · grind
    · grind
  · simp only [List.concat_eq_append] at *
    rw [Seg.append] at hs1
    simp only [Seg] at hs1 hs2
    have h2 : h.mapped y = true := hmp _ (by simp)
    have h3 : h.mapped z = true := hmp _ (by simp)
    simp only [delPtr, Heap.setP, Heap.setN, h2, h3, hs1, hs2, bind, Option.bind, if_true]
    refine ⟨_, rfl, ⟨?_, ?_, ?_⟩, ⟨rfl, ?_⟩⟩
    · rw [Seg.append, Seg.append]
      refine ⟨⟨hs1.1.congr ?_ ?_, ?_⟩, hs2.2.2.congr ?_ ?_⟩
      · grind
      · grind
      · simp only [Seg]; grind
      · grind
      · grind
    · grind
    · grind
    · grind

/-- `list_del` removes exactly that element; the element's own links stay as they were. -/
theorem del_spec {h : Heap} {head e : Nat} {pre post : List Nat} (hl : IsList h head (pre ++ e :: post)) :
    ∃ h', del e h = some h' ∧ IsList h' head (pre ++ post) ∧ Untouched (head :: (pre ++ post)) h h' := by
  have h1 : h.mapped e = true := hl.mapped _ (by simp)
  simp only [del, Heap.getP, Heap.getN, h1, bind, Option.bind, if_true]
  exact unlink hl

/-- `list_del_init` removes the element and makes it a list of its own. -/
theorem delInit_spec {h : Heap} {head e : Nat} {pre post : List Nat} (hl : IsList h head (pre ++ e :: post)) :
    ∃ h', delInit e h = some h' ∧ IsList h' head (pre ++ post) ∧ IsList h' e [] ∧
      Untouched (head :: (pre ++ e :: post)) h h' := by
  obtain ⟨h1, e1, hl1, hu1⟩ := del_spec hl
  have hm : h1.mapped e = true := by rw [hu1.1]; exact hl.mapped _ (by simp)
  obtain ⟨h2, e2, hl2, hu2⟩ := init_spec hm
  have hn := hl.nodup
  refine ⟨h2, by simp only [delInit, e1, bind, Option.bind]; exact e2, hl1.untouched hu2 ?_, hl2, ?_, ?_⟩
  · intro x hx; grind
  · rw [hu2.1, hu1.1]
  · intro x hx
    have a1 := hu2.2 x (by grind)
    have a2 := hu1.2 x (by grind)
    grind

/-- `list_move` to the front of another list. -/
theorem move_spec {h : Heap} {head head2 e : Nat} {pre post ys : List Nat} (hl : IsList h head (pre ++ e :: post))
    (hl2 : IsList h head2 ys) (hd : ∀ x ∈ head2 :: ys, x ∉ head :: (pre ++ e :: post)) :
    ∃ h', move e head2 h = some h' ∧ IsList h' head (pre ++ post) ∧ IsList h' head2 (e :: ys) ∧
      Untouched (head :: (pre ++ e :: post) ++ head2 :: ys) h h' := by
  have hm : h.mapped e = true := hl.mapped _ (by simp)
  obtain ⟨h1, e1, hl1, hu1⟩ := unlink hl
  have hl2' := hl2.untouched hu1 (by grind)
  have hm1 : h1.mapped e = true := by rw [hu1.1]; exact hm
  obtain ⟨h2, e2, hl3, hu2⟩ := add_spec hl2' (newp := e) (by grind) hm1
  have hn := hl.nodup
  refine ⟨h2, ?_, hl1.untouched hu2 ?_, hl3, ?_, ?_⟩
  · simp only [move, Heap.getP, Heap.getN, hm, if_true, bind, Option.bind, e1]
    exact e2
  · grind
  · rw [hu2.1, hu1.1]
  · intro x hx
    have a1 := hu2.2 x (by grind)
    have a2 := hu1.2 x (by grind)
    grind

/-- `list_move` to the front of its own list. -/
theorem move_same_spec {h : Heap} {head e : Nat} {pre post : List Nat} (hl : IsList h head (pre ++ e :: post)) :
    ∃ h', move e head h = some h' ∧ IsList h' head (e :: (pre ++ post)) ∧ Untouched (head :: (pre ++ e :: post)) h h' := by
  have hm : h.mapped e = true := hl.mapped _ (by simp)
  obtain ⟨h1, e1, hl1, hu1⟩ := unlink hl
  have hn := hl.nodup
  have hm1 : h1.mapped e = true := by rw [hu1.1]; exact hm
  obtain ⟨h2, e2, hl3, hu2⟩ := add_spec hl1 (newp := e) (by grind) hm1
  refine ⟨h2, ?_, hl3, ?_, ?_⟩
  · simp only [move, Heap.getP, Heap.getN, hm, if_true, bind, Option.bind, e1]
    exact e2
  · rw [hu2.1, hu1.1]
  · intro x hx
    have a1 := hu2.2 x (by grind)
    have a2 := hu1.2 x (by grind)
    grind

set_option maxHeartbeats 1000000 in
/-- `list_replace` puts the new node in the place of an element. -/
theorem replace_spec {h : Heap} {head old new : Nat} {pre post : List Nat} (hl : IsList h head (pre ++ old :: post))
    (hnew : new ∉ head :: (pre ++ old :: post)) (hm : h.mapped new = true) :
    ∃ h', replace old new h = some h' ∧ IsList h' head (pre ++ new :: post) ∧
      Untouched (new :: head :: (pre ++ post)) h h' := by
  obtain ⟨hs, hn, hmp⟩ := hl
  rw [Seg.append] at hs
  obtain ⟨hs1, hs2⟩ := hs
  have h0 : h.mapped old = true := hmp _ (by simp)
  have h1 : h.mapped head = true := hmp _ (by simp)
  rcases List.eq_nil_or_concat pre with rfl | ⟨ys, y, rfl⟩ <;> rcases post with _ | ⟨z, zs⟩
  · simp only [Seg] at hs1 hs2
    have hne : head ≠ new := by grind
    simp only [replace, Heap.setP, Heap.setN, Heap.getN, Heap.getP, h0, h1, hm, hs1, hs2, bind, Option.bind, if_true,
      if_neg (Ne.symm hne)]
    refine ⟨_, rfl, ⟨?_, ?_, ?_⟩, ⟨rfl, ?_⟩⟩
    · simp only [List.nil_append, Seg]; grind
    · grind
    · grind
    · grind
  · simp only [Seg] at hs1 hs2
    have h2 : h.mapped z = true := hmp _ (by simp)
    have hne : head ≠ new := by grind
    have hne2 : z ≠ new := by grind
    simp only [replace, Heap.setP, Heap.setN, Heap.getN, Heap.getP, h0, h1, h2, hm, hs1, hs2, bind, Option.bind, if_true,
      if_neg (Ne.symm hne)]
    refine ⟨_, rfl, ⟨?_, ?_, ?_⟩, ⟨rfl, ?_⟩⟩
    · simp only [List.nil_append, Seg]
      refine ⟨by grind, by grind, by grind, by grind, hs2.2.2.congr ?_ ?_⟩ <;> grind
    · grind
    · grind
    · grind
  · simp only [List.concat_eq_append] at *
    rw [Seg.append] at hs1
    simp only [Seg] at hs1 hs2
    have h2 : h.mapped y = true := hmp _ (by simp)
    have hne : y ≠ new := by grind
    simp only [replace, Heap.setP, Heap.setN, Heap.getN, Heap.getP, h0, h1, h2, hm, hs1, hs2, bind, Option.bind, if_true,
      if_neg (Ne.symm hne)]
    refine ⟨_, rfl, ⟨?_, ?_, ?_⟩, ⟨rfl, ?_⟩⟩
    · rw [Seg.append, Seg.append]
      refine ⟨⟨hs1.1.congr ?_ ?_, ?_⟩, ?_⟩
      · grind
      · grind
      · simp only [Seg]; grind
      · simp only [Seg]; grind
    · grind
    · grind
    · grind
  · simp only [List.concat_eq_append] at *
    rw [Seg.append] at hs1
    simp only [Seg] at hs1 hs2
    have h2 : h.mapped y = true := hmp _ (by simp)
    have h3 : h.mapped z = true := hmp _ (by simp)
    have hne : y ≠ new := by grind
    simp only [replace, Heap.setP, Heap.setN, Heap.getN, Heap.getP, h0, h2, h3, hm, hs1, hs2, bind, Option.bind, if_true,
      if_neg (Ne.symm hne)]
    refine ⟨_, rfl, ⟨?_, ?_, ?_⟩, ⟨rfl, ?_⟩⟩
    · rw [Seg.append, Seg.append]
      refine ⟨⟨hs1.1.congr ?_ ?_, ?_⟩, ?_⟩
      · grind
      · grind
      · simp only [Seg]; grind
      · simp only [Seg]
        refine ⟨by grind, by grind, hs2.2.2.congr ?_ ?_⟩ <;> grind
    · grind
    · grind
    · grind

set_option maxHeartbeats 1000000 in
/-- `list_splice` inserts all elements of the first list in front of the second; the head node of the first list keeps
its old links (it is not a list any more unless it was empty). -/
theorem splice_spec {h : Heap} {addl head : Nat} {xs ys : List Nat} (ha : IsList h addl xs) (hl : IsList h head ys)
    (hd : ∀ x ∈ head :: ys, x ∉ addl :: xs) :
    ∃ h', splice addl head h = some h' ∧ IsList h' head (xs ++ ys) ∧ (xs = [] → IsList h' addl []) ∧
      h'.next addl = h.next addl ∧ h'.prev addl = h.prev addl ∧ Untouched (head :: (xs ++ ys)) h h' := by
  obtain ⟨hs1, hn1, hm1⟩ := ha
  obtain ⟨hs2, hn2, hm2⟩ := hl
  have k1 : h.mapped addl = true := hm1 _ (by simp)
  have k2 : h.mapped head = true := hm2 _ (by simp)
  rcases xs with _ | ⟨x, xs⟩
  · refine ⟨h, ?_, ⟨hs2, hn2, hm2⟩, fun _ => ⟨hs1, hn1, hm1⟩, rfl, rfl, rfl, fun _ _ => ⟨rfl, rfl⟩⟩
    simp only [Seg] at hs1
    simp [splice, Heap.getN, k1, hs1]
  · have hxs : ∃ ini l, x :: xs = ini ++ [l] := by
      rcases List.eq_nil_or_concat (x :: xs) with h0 | ⟨ini, l, h0⟩
      · cases h0
      · exact ⟨ini, l, by rw [h0, List.concat_eq_append]⟩
    obtain ⟨ini, l, hxs⟩ := hxs
    have hf : h.next addl = x ∧ h.prev x = addl := by simp only [Seg] at hs1; exact ⟨hs1.1, hs1.2.1⟩
    have hb : h.prev addl = l ∧ h.next l = addl := by
      rw [hxs, Seg.append] at hs1; simp only [Seg] at hs1; exact ⟨hs1.2.2, hs1.2.1⟩
    have hmid : Seg h x xs addl := by simp only [Seg] at hs1; exact hs1.2.2
    have k3 : h.mapped x = true := hm1 _ (by simp)
    have k4 : h.mapped l = true := hm1 _ (by rw [hxs]; simp)
    have hlmem : l ∈ x :: xs := by rw [hxs]; simp
    have hne : addl ≠ x := by grind
    have hne2 : addl ≠ l := by grind
    have hne3 : head ≠ l := by grind
    have hne4 : head ≠ addl := by grind
    -- the inner part of the first list, up to its last element
    have hinner : ∀ h' : Heap, (∀ z ∈ x :: xs, z ≠ l → h'.next z = h.next z) → (∀ z ∈ xs, h'.prev z = h.prev z) →
        h'.next head = x → h'.prev x = head → ∀ b, h'.next l = b → h'.prev b = l → Seg h' head (x :: xs) b := by
      intro h' a1 a2 a3 a4 b a5 a6
      have : ∀ (zs : List Nat) (z : Nat), Seg h z zs addl → (z :: zs).Nodup → (∀ w ∈ z :: zs, w ∈ x :: xs) →
          (∀ w ∈ zs, w ∈ xs) → (∃ ini', z :: zs = ini' ++ [l]) → addl ∉ z :: zs → Seg h' z zs b := by
        intro zs
        induction zs with
        | nil =>
          intro z _ _ _ _ ⟨ini', hi⟩ _
          have : z = l := by
            cases ini' with
            | nil => simpa using hi
            | cons => simp at hi
          rw [this]
          exact ⟨a5, a6⟩
        | cons w ws ih =>
          intro z hz hnd hsub hsub2 ⟨ini', hi⟩ hna
          simp only [Seg] at hz ⊢
          have hzl : z ≠ l := by
            intro hzl
            rcases List.eq_nil_or_concat (w :: ws) with h0 | ⟨i2, l2, h0⟩
            · cases h0
            · rw [List.concat_eq_append] at h0
              rw [h0, ← List.cons_append] at hi
              have := (List.append_inj' hi rfl).2
              simp only [List.cons.injEq, and_true] at this
              have : l ∈ w :: ws := by rw [h0, this]; simp
              grind
          refine ⟨by rw [a1 z (hsub z (by simp)) hzl]; exact hz.1, by rw [a2 w (hsub2 w (by simp))]; exact hz.2.1, ?_⟩
          refine ih w hz.2.2 (by grind) (by grind) (by grind) ?_ (by grind)
          cases ini' with
          | nil => simp at hi
          | cons i is => exact ⟨is, by simpa using (List.cons.inj hi).2⟩
      simp only [Seg]
      exact ⟨a3, a4, this xs x hmid (by grind) (fun w hw => hw) (fun w hw => hw) ⟨ini, hxs⟩ (by grind)⟩
    rcases ys with _ | ⟨y, ys⟩
    · simp only [Seg] at hs2
      simp only [splice, Heap.setP, Heap.setN, Heap.getN, Heap.getP, k1, k2, k3, k4, hf, hb, hs2, bind, Option.bind,
        if_true, if_neg hne2, if_neg hne3, if_false, pure, ne_eq, hne, not_false_eq_true]
      refine ⟨_, rfl, ⟨?_, ?_, ?_⟩, (fun h0 => by cases h0), ?_, ?_, rfl, ?_⟩
      · rw [List.append_nil]
        apply hinner <;> grind
      · grind
      · grind
      · grind
      · grind
      · grind
    · simp only [Seg] at hs2
      have k5 : h.mapped y = true := hm2 _ (by simp)
      have hne5 : addl ≠ y := by grind
      have hne6 : addl ≠ head := by grind
      simp only [splice, Heap.setP, Heap.setN, Heap.getN, Heap.getP, k1, k2, k3, k4, k5, hf, hb, hs2, bind, Option.bind,
        if_true, if_neg hne2, if_neg hne3, if_false, pure, ne_eq, hne, not_false_eq_true]
      refine ⟨_, rfl, ⟨?_, ?_, ?_⟩, (fun h0 => by cases h0), ?_, ?_, rfl, ?_⟩
      · rw [Seg.append]
        refine ⟨?_, hs2.2.2.congr ?_ ?_⟩
        · apply hinner <;> grind
        · grind
        · grind
      · grind
      · grind
      · grind
      · grind
      · grind

/-- `list_empty`. -/
theorem isEmpty_spec {h : Heap} {head : Nat} {xs : List Nat} (hl : IsList h head xs) :
    isEmpty head h = some (decide (xs = [])) := by
  obtain ⟨hs, hn, hmp⟩ := hl
  have h1 : h.mapped head = true := hmp _ (by simp)
  cases xs with
  | nil => simp only [Seg] at hs; simp [isEmpty, Heap.getN, h1, hs]
  | cons x xs =>
    simp only [Seg] at hs
    have : head ≠ x := by grind
    simp [isEmpty, Heap.getN, h1, hs, this]

/-- Every node of the ring can be taken as the head. -/
theorem IsList.rotate {h : Heap} {head z : Nat} {pre post : List Nat} (hl : IsList h head (pre ++ z :: post)) :
    IsList h z (post ++ head :: pre) := by
  obtain ⟨hs, hn, hmp⟩ := hl
  rw [Seg.append] at hs
  refine ⟨Seg.append.2 ⟨hs.2, hs.1⟩, ?_, fun x hx => hmp x (by simp at hx ⊢; grind)⟩
  simp only [List.nodup_cons, List.nodup_append, List.mem_append, List.mem_cons] at hn ⊢
  grind

theorem Untouched.mono {l l' : List Nat} {h h' : Heap} (hu : Untouched l h h') (hs : ∀ x ∈ l, x ∈ l') : Untouched l' h h' :=
  ⟨hu.1, fun x hx => hu.2 x fun hh => hx (hs x hh)⟩

theorem Untouched.trans {l : List Nat} {h h' h'' : Heap} (h1 : Untouched l h h') (h2 : Untouched l h' h'') :
    Untouched l h h'' :=
  ⟨by rw [h2.1, h1.1], fun x hx => ⟨by rw [(h2.2 x hx).1, (h1.2 x hx).1], by rw [(h2.2 x hx).2, (h1.2 x hx).2]⟩⟩

/-- `list_add` after an element: insertion right behind it. -/
theorem add_after_spec {h : Heap} {head z newp : Nat} {pre post : List Nat} (hl : IsList h head (pre ++ z :: post))
    (hnew : newp ∉ head :: (pre ++ z :: post)) (hm : h.mapped newp = true) :
    ∃ h', add newp z h = some h' ∧ IsList h' head (pre ++ z :: newp :: post) ∧
      Untouched (newp :: head :: (pre ++ z :: post)) h h' := by
  obtain ⟨h', e, hl', hu⟩ := add_spec hl.rotate (newp := newp) (by grind) hm
  refine ⟨h', e, ?_, hu.mono (by grind)⟩
  rw [← List.cons_append] at hl'
  exact hl'.rotate

/-- `list_add_tail` before an element: insertion right in front of it. -/
theorem addTail_before_spec {h : Heap} {head z newp : Nat} {pre post : List Nat} (hl : IsList h head (pre ++ z :: post))
    (hnew : newp ∉ head :: (pre ++ z :: post)) (hm : h.mapped newp = true) :
    ∃ h', addTail newp z h = some h' ∧ IsList h' head (pre ++ newp :: z :: post) ∧
      Untouched (newp :: head :: (pre ++ z :: post)) h h' := by
  obtain ⟨h', e, hl', hu⟩ := addTail_spec hl.rotate (newp := newp) (by grind) hm
  refine ⟨h', e, ?_, hu.mono (by grind)⟩
  rw [List.append_assoc, List.cons_append] at hl'
  have := hl'.rotate
  rwa [List.append_assoc, List.singleton_append] at this

/-- `list_replace` of the head of a non-empty list: the new node becomes the head of the same sequence. -/
theorem replace_head_spec {h : Heap} {old new x : Nat} {xs : List Nat} (hl : IsList h old (x :: xs))
    (hnew : new ∉ old :: x :: xs) (hm : h.mapped new = true) :
    ∃ h', replace old new h = some h' ∧ IsList h' new (x :: xs) ∧ Untouched (new :: x :: xs) h h' := by
  have hr := IsList.rotate (pre := []) hl
  obtain ⟨h', e, hl', hu⟩ := replace_spec hr (new := new) (by grind) hm
  exact ⟨h', e, IsList.rotate hl', hu.mono (by grind)⟩

/-- `list_replace_init` of an element: the new node takes its place, the old node becomes a list of its own. -/
theorem replaceInit_spec {h : Heap} {head old new : Nat} {pre post : List Nat} (hl : IsList h head (pre ++ old :: post))
    (hnew : new ∉ head :: (pre ++ old :: post)) (hm : h.mapped new = true) :
    ∃ h', replaceInit old new h = some h' ∧ IsList h' head (pre ++ new :: post) ∧ IsList h' old [] ∧
      Untouched (new :: head :: (pre ++ old :: post)) h h' := by
  have hn := hl.nodup
  have h0 : h.mapped old = true := hl.mapped _ (by simp)
  obtain ⟨h1, e1, hl1, hu1⟩ := del_spec hl
  have hm1 : h1.mapped new = true := by rw [hu1.1]; exact hm
  have hnext : h.next old = (post ++ [head]).head (by simp) := by
    have := (Seg.append.1 hl.seg).2
    cases post with
    | nil => exact this.1
    | cons z zs => exact this.1
  have hins : ∃ h2, addTail new (h.next old) h1 = some h2 ∧ IsList h2 head (pre ++ new :: post) ∧
      Untouched (new :: head :: (pre ++ post)) h1 h2 := by
    cases post with
    | nil =>
      obtain ⟨h2, e2, hl2, hu2⟩ := addTail_spec hl1 (newp := new) (by grind) hm1
      refine ⟨h2, by rw [hnext]; exact e2, ?_, hu2⟩
      rw [List.append_nil] at hl2
      exact hl2
    | cons z zs =>
      obtain ⟨h2, e2, hl2, hu2⟩ := addTail_before_spec hl1 (newp := new) (by grind) hm1
      exact ⟨h2, by rw [hnext]; exact e2, hl2, hu2⟩
  obtain ⟨h2, e2, hl2, hu2⟩ := hins
  have hm2 : h2.mapped old = true := by rw [hu2.1, hu1.1]; exact h0
  obtain ⟨h3, e3, hl3, hu3⟩ := init_spec hm2
  refine ⟨h3, ?_, hl2.untouched hu3 (by grind), hl3, ?_⟩
  · simp only [replaceInit, Heap.getN, h0, if_true, bind, Option.bind, e1, e2]
    exact e3
  · exact ((hu1.mono (by grind)).trans (hu2.mono (by grind))).trans (hu3.mono (by grind))

/-- Negative side of `list_replace_init` (DESIGN F12): on the head of an empty list it leaves the new node linked to a
node that does not link back; documented use requires `old` to be in a list with another node. -/
theorem replaceInit_self_broken (h : Heap) (old new : Nat) (hne : new ≠ old) (hl : IsList h old [])
    (hm : h.mapped new = true) :
    ∃ h', replaceInit old new h = some h' ∧ h'.next new = old ∧ h'.prev old = old ∧ ¬ ∃ xs, IsList h' new xs := by
  have h0 : h.mapped old = true := hl.mapped _ (by simp)
  have hs := hl.seg
  simp only [Seg] at hs
  simp only [replaceInit, del, delPtr, addTail, initHead, Heap.getN, Heap.getP, Heap.setN, Heap.setP, h0, hm, hs, bind,
    Option.bind, if_true]
  refine ⟨_, rfl, ?_, ?_, ?_⟩
  · grind
  · grind
  · rintro ⟨xs, hl', _, _⟩
    cases xs with
    | nil => simp only [Seg] at hl'; grind
    | cons x xs =>
      simp only [Seg] at hl'
      grind

end Verif.LinkedList
