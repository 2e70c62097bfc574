import Verif.LinkedListProps
/-
C55: iteration over the lists of src/list.h, including removal of visited elements.
-/
namespace Verif.LinkedList

/-! ### C55: iteration -/

theorem forEach_seg {h : Heap} {head : Nat} (xs : List Nat) : ∀ (pos : Nat), Seg h pos xs head → head ∉ pos :: xs →
    (∀ x ∈ pos :: xs, h.mapped x = true) → ∀ fuel, xs.length + 2 ≤ fuel → forEach head h fuel pos = some (pos :: xs) := by
  induction xs with
  | nil =>
    intro pos hs hn hm fuel hf
    obtain ⟨f, rfl⟩ : ∃ f, fuel = f + 2 := ⟨fuel - 2, by simp at hf; omega⟩
    simp only [Seg] at hs
    have h1 : pos ≠ head := by grind
    have h2 := hm pos (by simp)
    simp [forEach, h1, Heap.getN, h2, hs]
  | cons x xs ih =>
    intro pos hs hn hm fuel hf
    obtain ⟨f, rfl⟩ : ∃ f, fuel = f + 1 := ⟨fuel - 1, by simp at hf; omega⟩
    simp only [Seg] at hs
    have h1 : pos ≠ head := by grind
    have h2 := hm pos (by simp)
    have := ih x hs.2.2 (by grind) (by grind) f (by simp at hf; omega)
    simp [forEach, h1, Heap.getN, h2, hs, this]

/-- `list_for_each`: visits exactly the elements, in order, and terminates. -/
theorem forEach_spec {h : Heap} {head : Nat} {xs : List Nat} (hl : IsList h head xs) (fuel : Nat) (hf : xs.length + 1 ≤ fuel) :
    (h.getN head).bind (forEach head h fuel) = some xs := by
  obtain ⟨hs, hn, hm⟩ := hl
  have h1 := hm head (by simp)
  cases xs with
  | nil =>
    simp only [Seg] at hs
    obtain ⟨f, rfl⟩ : ∃ f, fuel = f + 1 := ⟨fuel - 1, by simp at hf; omega⟩
    simp [Heap.getN, h1, hs, forEach]
  | cons x xs =>
    simp only [Seg] at hs
    simp only [Heap.getN, h1, if_true, Option.bind_some, hs.1]
    exact forEach_seg xs x hs.2.2 (by grind) (by grind) fuel (by simp at hf; omega)

/-- The mirror image of a heap. -/
def flip (h : Heap) : Heap := ⟨h.prev, h.next, h.mapped⟩

theorem Seg.flip {h : Heap} {b : Nat} (xs : List Nat) : ∀ a, Seg h a xs b → Seg (flip h) b xs.reverse a := by
  induction xs with
  | nil => intro a hs; simp only [Seg, List.reverse_nil, LinkedList.flip] at *; exact ⟨hs.2, hs.1⟩
  | cons x xs ih =>
    intro a hs
    simp only [Seg] at hs
    rw [List.reverse_cons]
    exact Seg.append.2 ⟨ih x hs.2.2, by simp only [Seg, LinkedList.flip]; exact ⟨hs.2.1, hs.1⟩⟩

theorem IsList.flip {h : Heap} {head : Nat} {xs : List Nat} (hl : IsList h head xs) :
    IsList (flip h) head xs.reverse := by
  refine ⟨hl.seg.flip, ?_, fun x hx => hl.mapped x (by simpa using hx)⟩
  have := hl.nodup
  simp only [List.nodup_cons, List.mem_reverse] at this ⊢
  exact ⟨this.1, List.nodup_iff_pairwise_ne.2 (List.pairwise_reverse.2 (this.2.imp fun h => Ne.symm h))⟩

theorem forEachPrev_flip {h : Heap} {head : Nat} (fuel : Nat) : ∀ pos, forEachPrev head h fuel pos = forEach head (flip h) fuel pos := by
  induction fuel with
  | zero => intro pos; rfl
  | succ n ih => intro pos; simp only [forEachPrev, forEach, Heap.getP, Heap.getN, ih]; rfl

/-- `list_for_each_prev`: visits exactly the elements, in reverse order. -/
theorem forEachPrev_spec {h : Heap} {head : Nat} {xs : List Nat} (hl : IsList h head xs) (fuel : Nat)
    (hf : xs.length + 1 ≤ fuel) : (h.getP head).bind (forEachPrev head h fuel) = some xs.reverse := by
  have := forEach_spec hl.flip fuel (by simpa using hf)
  rw [show forEachPrev head h fuel = forEach head (flip h) fuel from funext fun pos => forEachPrev_flip fuel pos]
  exact this

theorem IsList.unmap {h : Heap} {head e : Nat} {xs : List Nat} (hl : IsList h head xs) (he : e ∉ head :: xs) :
    IsList (unmap e h) head xs :=
  ⟨hl.seg.congr (fun _ _ => rfl) (fun _ _ => rfl), hl.nodup, fun x hx => by
    have := hl.mapped x hx
    simp only [LinkedList.unmap]
    rw [if_neg (by grind)]
    exact this⟩

/-- One loop body. -/
theorem runBody_spec {head : Nat} {b : Body} (hb : b ≠ .free) {kept rest : List Nat} {pos : Nat} {h : Heap}
    (hl : IsList h head (kept ++ pos :: rest)) :
    ∃ h1, runBody b pos h = some h1 ∧ IsList h1 head (kept ++ (if b = .keep then [pos] else []) ++ rest) ∧
      (∀ x, h1.mapped x = (h.mapped x && !decide (x = pos ∧ b = .removeFree))) ∧
      (∀ x, x ∉ head :: (kept ++ rest) → h1.next x = h.next x ∧ h1.prev x = h.prev x) := by
  have hn := hl.nodup
  cases b with
  | keep => exact ⟨h, rfl, by simpa using hl, by simp, fun x _ => ⟨rfl, rfl⟩⟩
  | remove =>
    obtain ⟨h1, e1, hl1, hu1⟩ := del_spec hl
    exact ⟨h1, e1, by simpa using hl1, fun x => by rw [hu1.1]; simp, fun x hx => hu1.2 x hx⟩
  | removeFree =>
    obtain ⟨h1, e1, hl1, hu1⟩ := del_spec hl
    refine ⟨unmap pos h1, by simp [runBody, e1], by simpa using hl1.unmap (e := pos) (by grind), fun x => ?_, fun x hx => hu1.2 x hx⟩
    simp only [unmap, hu1.1]
    by_cases hx : x = pos <;> simp [hx]
  | free => exact absurd rfl hb

/-- The safe loop, from any element on (`list_for_each_entry_safe_from`). -/
theorem forEachSafe_from {head : Nat} {body : Nat → Body} (hb : ∀ e, body e ≠ .free) (rest : List Nat) :
    ∀ (kept : List Nat) (pos : Nat) (h : Heap), IsList h head (kept ++ pos :: rest) → ∀ fuel, rest.length + 2 ≤ fuel →
    ∃ h', forEachSafe head body fuel pos (h.next pos) h = some (pos :: rest, h') ∧
      IsList h' head (kept ++ (pos :: rest).filter (fun e => body e == .keep)) ∧
      (∀ x, h'.mapped x = (h.mapped x && !decide (x ∈ pos :: rest ∧ body x = .removeFree))) ∧
      (∀ x, x ∉ head :: (kept ++ pos :: rest) → h'.next x = h.next x ∧ h'.prev x = h.prev x) := by
  induction rest with
  | nil =>
    intro kept pos h hl fuel hf
    obtain ⟨f, rfl⟩ : ∃ f, fuel = f + 2 := ⟨fuel - 2, by simp at hf; omega⟩
    obtain ⟨h1, e1, hl1, hm1, hu1⟩ := runBody_spec (hb pos) hl
    have hne : pos ≠ head := by have := hl.nodup; grind
    have hnext : h.next pos = head := (Seg.append.1 hl.seg).2.1
    have hmh : h1.mapped head = true := hl1.mapped _ (by simp)
    refine ⟨h1, ?_, ?_, ?_, ?_⟩
    · simp [forEachSafe, hne, e1, hnext, Heap.getN, hmh]
    · by_cases hk : body pos = .keep <;> simpa [hk] using hl1
    · intro x
      rw [hm1 x]
      by_cases hx : x = pos
      · simp [hx]
      · simp [hx]
    · intro x hx; exact hu1 x (by grind)
  | cons y ys ih =>
    intro kept pos h hl fuel hf
    obtain ⟨f, rfl⟩ : ∃ f, fuel = f + 1 := ⟨fuel - 1, by simp at hf; omega⟩
    obtain ⟨h1, e1, hl1, hm1, hu1⟩ := runBody_spec (hb pos) hl
    have hne : pos ≠ head := by have := hl.nodup; grind
    have hnext : h.next pos = y := (Seg.append.1 hl.seg).2.1
    have hmy : h1.mapped y = true := hl1.mapped _ (by simp)
    obtain ⟨h2, e2, hl2, hm2, hu2⟩ := ih _ y h1 hl1 f (by simp at hf; omega)
    refine ⟨h2, ?_, ?_, ?_, ?_⟩
    · simp [forEachSafe, hne, e1, hnext, Heap.getN, hmy, e2]
    · rw [List.append_assoc] at hl2
      by_cases hk : body pos = .keep <;> simpa [hk, List.filter_cons] using hl2
    · intro x
      rw [hm2 x, hm1 x]
      have hn := hl.nodup
      by_cases hx : x = pos
      · have : x ∉ y :: ys := by grind
        simp only [hx, List.mem_cons, true_or, true_and]
        grind
      · simp only [hx, List.mem_cons, false_and, false_or, decide_false, Bool.not_false, Bool.and_true]
    · intro x hx
      have hk : x ∉ kept ++ (if body pos = Body.keep then [pos] else []) := by
        by_cases hk : body pos = .keep <;> simp [hk] <;> grind
      have a1 := hu2 x (by grind)
      have a2 := hu1 x (by grind)
      exact ⟨by rw [a1.1, a2.1], by rw [a1.2, a2.2]⟩

/-- C55: `list_for_each_safe` over a list whose body removes (and possibly unmaps) an arbitrary subset of the visited
elements visits every element exactly once, in order, without touching unmapped memory, and leaves exactly the elements
that were kept. -/
theorem safe_iteration {h : Heap} {head : Nat} {xs : List Nat} (hl : IsList h head xs) (body : Nat → Body)
    (hb : ∀ e, body e ≠ .free) (fuel : Nat) (hf : xs.length + 1 ≤ fuel) :
    ∃ h', ((h.getN head).bind fun pos => (h.getN pos).bind fun p => forEachSafe head body fuel pos p h) = some (xs, h') ∧
      IsList h' head (xs.filter fun e => body e == .keep) ∧
      (∀ x, h'.mapped x = (h.mapped x && !decide (x ∈ xs ∧ body x = .removeFree))) ∧
      (∀ x, x ∉ head :: xs → h'.next x = h.next x ∧ h'.prev x = h.prev x) := by
  have h1 := hl.mapped head (by simp)
  cases xs with
  | nil =>
    have hs := hl.seg
    simp only [Seg] at hs
    obtain ⟨f, rfl⟩ : ∃ f, fuel = f + 1 := ⟨fuel - 1, by simp at hf; omega⟩
    exact ⟨h, by simp [Heap.getN, h1, hs, forEachSafe], hl, by simp, fun _ _ => ⟨rfl, rfl⟩⟩
  | cons x xs =>
    have hs : h.next head = x := hl.seg.1
    have h2 := hl.mapped x (by simp)
    obtain ⟨h', e, r⟩ := forEachSafe_from hb xs [] x h hl fuel (by simp at hf; omega)
    refine ⟨h', ?_, r⟩
    simp [Heap.getN, h1, hs, h2, e]

theorem forEachSafe_free {head : Nat} (rest : List Nat) :
    ∀ (pos : Nat) (h : Heap), Seg h pos rest head → (head :: pos :: rest).Nodup →
      (∀ x ∈ head :: pos :: rest, h.mapped x = true) → ∀ fuel, rest.length + 2 ≤ fuel →
    ∃ h', forEachSafe head (fun _ => .free) fuel pos (h.next pos) h = some (pos :: rest, h') ∧
      h'.next = h.next ∧ h'.prev = h.prev ∧ (∀ x, h'.mapped x = (h.mapped x && !decide (x ∈ pos :: rest))) := by
  induction rest with
  | nil =>
    intro pos h hs hn hm fuel hf
    obtain ⟨f, rfl⟩ : ∃ f, fuel = f + 2 := ⟨fuel - 2, by simp at hf; omega⟩
    have hne : pos ≠ head := by grind
    have hnext : h.next pos = head := hs.1
    have hmh : h.mapped head = true := hm _ (by simp)
    refine ⟨unmap pos h, ?_, rfl, rfl, ?_⟩
    · simp [forEachSafe, hne, Ne.symm hne, runBody, hnext, Heap.getN, unmap, hmh]
    · intro x
      by_cases hx : x = pos <;> simp [unmap, hx]
  | cons y ys ih =>
    intro pos h hs hn hm fuel hf
    obtain ⟨f, rfl⟩ : ∃ f, fuel = f + 1 := ⟨fuel - 1, by simp at hf; omega⟩
    have hne : pos ≠ head := by grind
    have hnext : h.next pos = y := hs.1
    have hyp : y ≠ pos := by grind
    have hmy : h.mapped y = true := hm _ (by simp)
    obtain ⟨h2, e2, n2, p2, m2⟩ := ih y (unmap pos h) (hs.2.2.congr (fun _ _ => rfl) (fun _ _ => rfl)) (by grind)
      (by intro x hx; simp only [unmap]; grind) f (by simp at hf; omega)
    have e2' : forEachSafe head (fun _ => .free) f y (h.next y) (unmap pos h) = some (y :: ys, h2) := e2
    refine ⟨h2, ?_, n2, p2, ?_⟩
    · have hg : (unmap pos h).getN y = some (h.next y) := by simp [Heap.getN, unmap, hyp, hmy]
      simp [forEachSafe, hne, runBody, hnext, hg, e2']
    · intro x
      rw [m2 x]
      by_cases hx : x = pos <;> simp [unmap, hx]

/-- C55, a body that unmaps each visited element without unlinking it.
Every element is visited exactly once and no access to unmapped memory happens; nothing else is written. -/
theorem safe_iteration_free_all {h : Heap} {head : Nat} {xs : List Nat} (hl : IsList h head xs) (fuel : Nat)
    (hf : xs.length + 1 ≤ fuel) :
    ∃ h', ((h.getN head).bind fun pos => (h.getN pos).bind fun p => forEachSafe head (fun _ => .free) fuel pos p h) = some (xs, h') ∧
      h'.next = h.next ∧ h'.prev = h.prev ∧ (∀ x, h'.mapped x = (h.mapped x && !decide (x ∈ xs))) := by
  have h1 := hl.mapped head (by simp)
  cases xs with
  | nil =>
    have hs := hl.seg
    simp only [Seg] at hs
    obtain ⟨f, rfl⟩ : ∃ f, fuel = f + 1 := ⟨fuel - 1, by simp at hf; omega⟩
    exact ⟨h, by simp [Heap.getN, h1, hs, forEachSafe], rfl, rfl, by simp⟩
  | cons x xs =>
    have hs : h.next head = x := hl.seg.1
    have h2 := hl.mapped x (by simp)
    obtain ⟨h', e, r⟩ := forEachSafe_free xs x h hl.seg.2.2 hl.nodup hl.mapped fuel (by simp at hf; omega)
    refine ⟨h', ?_, r⟩
    simp [Heap.getN, h1, hs, h2, e]

theorem destroyWalk_spec {head : Nat} {ok : Nat → Bool} (rest : List Nat) :
    ∀ (pos : Nat) (h : Heap), IsList h head (pos :: rest) → ∀ fuel, rest.length + 2 ≤ fuel →
    ∃ h', destroyWalk head ok fuel pos (h.next pos) h =
        some ((pos :: rest).takeWhile ok ++ ((pos :: rest).dropWhile ok).take 1, (pos :: rest).all ok, h') ∧
      IsList h' head ((pos :: rest).dropWhile ok) ∧
      (∀ x, h'.mapped x = (h.mapped x && !decide (x ∈ (pos :: rest).takeWhile ok))) := by
  induction rest with
  | nil =>
    intro pos h hl fuel hf
    obtain ⟨f, rfl⟩ : ∃ f, fuel = f + 2 := ⟨fuel - 2, by simp at hf; omega⟩
    have hn := hl.nodup
    have hne : pos ≠ head := by grind
    have hnext : h.next pos = head := hl.seg.2.2.1
    obtain ⟨h1, e1, hl1, hu1⟩ := del_spec (pre := []) hl
    have hmh : h1.mapped head = true := hl1.mapped _ (by simp)
    cases hok : ok pos with
    | true =>
      refine ⟨unmap pos h1, ?_, ?_, ?_⟩
      · simp [destroyWalk, hne, Ne.symm hne, e1, hok, hnext, Heap.getN, unmap, hmh]
      · simpa [hok] using hl1.unmap (e := pos) (by grind)
      · intro x
        by_cases hx : x = pos <;> simp [hok, unmap, hu1.1, hx]
    | false =>
      have hmp : h1.mapped pos = true := by rw [hu1.1]; exact hl.mapped _ (by simp)
      obtain ⟨h2, e2, hl2, hu2⟩ := add_spec hl1 (newp := pos) (by grind) hmp
      refine ⟨h2, ?_, ?_, ?_⟩
      · simp [destroyWalk, hne, e1, hok, e2]
      · simpa [hok] using hl2
      · intro x; simp [hok, hu2.1, hu1.1]
  | cons y ys ih =>
    intro pos h hl fuel hf
    obtain ⟨f, rfl⟩ : ∃ f, fuel = f + 1 := ⟨fuel - 1, by simp at hf; omega⟩
    have hn := hl.nodup
    have hne : pos ≠ head := by grind
    have hnext : h.next pos = y := hl.seg.2.2.1
    obtain ⟨h1, e1, hl1, hu1⟩ := del_spec (pre := []) hl
    rw [List.nil_append] at hl1
    cases hok : ok pos with
    | true =>
      have hl1' := hl1.unmap (e := pos) (by grind)
      have hg : (unmap pos h1).getN y = some ((unmap pos h1).next y) := by
        have := hl1'.mapped y (by simp)
        simp [Heap.getN, this]
      obtain ⟨h2, e2, hl2, hm2⟩ := ih y (unmap pos h1) hl1' f (by simp at hf; omega)
      refine ⟨h2, ?_, ?_, ?_⟩
      · simp only [destroyWalk, hne, if_false, e1, hok, if_true, hnext, bind, Option.bind, hg, e2]
        simp [hok]
      · simpa [hok] using hl2
      · intro x
        rw [hm2 x]
        by_cases hx : x = pos
        · simp [hok, unmap, hx]
        · simp [hok, unmap, hu1.1, hx, List.takeWhile_cons]
    | false =>
      have hmp : h1.mapped pos = true := by rw [hu1.1]; exact hl.mapped _ (by simp)
      obtain ⟨h2, e2, hl2, hu2⟩ := add_spec hl1 (newp := pos) (by grind) hmp
      refine ⟨h2, ?_, ?_, ?_⟩
      · simp [destroyWalk, hne, e1, hok, e2]
      · simpa [hok] using hl2
      · intro x; simp [hok, hu2.1, hu1.1]

/-- C55, the loop of `rseq_mempool_destroy`: ranges are visited in list order, each once, up to and including the first
one whose munmap fails; no unmapped memory is accessed; the list that stays behind is well formed and holds exactly the
ranges that are still mapped ("Keep list coherent in case of partial failure", rseq-mempool.c:914). -/
theorem destroy_list_coherent {h : Heap} {head : Nat} {xs : List Nat} (hl : IsList h head xs) (ok : Nat → Bool)
    (fuel : Nat) (hf : xs.length + 1 ≤ fuel) :
    ∃ h', ((h.getN head).bind fun pos => (h.getN pos).bind fun p => destroyWalk head ok fuel pos p h) =
        some (xs.takeWhile ok ++ (xs.dropWhile ok).take 1, xs.all ok, h') ∧
      IsList h' head (xs.dropWhile ok) ∧
      (∀ x, h'.mapped x = (h.mapped x && !decide (x ∈ xs.takeWhile ok))) := by
  have h1 := hl.mapped head (by simp)
  cases xs with
  | nil =>
    have hs := hl.seg
    simp only [Seg] at hs
    obtain ⟨f, rfl⟩ : ∃ f, fuel = f + 1 := ⟨fuel - 1, by simp at hf; omega⟩
    exact ⟨h, by simp [Heap.getN, h1, hs, destroyWalk], hl, by simp⟩
  | cons x xs =>
    have hs : h.next head = x := hl.seg.1
    have h2 := hl.mapped x (by simp)
    obtain ⟨h', e, r⟩ := destroyWalk_spec xs x h hl fuel (by simp at hf; omega)
    refine ⟨h', ?_, r⟩
    simp only [Heap.getN, h1, if_true, Option.bind_some, hs, h2]
    exact e

theorem del_flip (e : Nat) (h : Heap) : del e (flip h) = (del e h).map flip := by
  simp only [del, delPtr, Heap.getP, Heap.getN, Heap.setP, Heap.setN, flip]
  by_cases h1 : h.mapped e = true <;> by_cases h2 : h.mapped (h.prev e) = true <;>
    by_cases h3 : h.mapped (h.next e) = true <;> simp [h1, h2, h3, flip]

theorem runBody_flip (b : Body) (e : Nat) (h : Heap) : runBody b e (flip h) = (runBody b e h).map flip := by
  cases b with
  | keep => rfl
  | remove => exact del_flip e h
  | removeFree =>
    simp only [runBody, del_flip]
    cases del e h <;> rfl
  | free => rfl

theorem forEachPrevSafe_flip (head : Nat) (body : Nat → Body) (fuel : Nat) : ∀ pos p h,
    forEachPrevSafe head body fuel pos p h = (forEachSafe head body fuel pos p (flip h)).map fun x => (x.1, flip x.2) := by
  induction fuel with
  | zero => intros; rfl
  | succ n ih =>
    intro pos p h
    simp only [forEachPrevSafe, forEachSafe, runBody_flip]
    by_cases hp : pos = head
    · simp [hp, flip]
    · rw [if_neg hp, if_neg hp]
      cases hr : runBody (body pos) pos h with
      | none => rfl
      | some h1 =>
        have hg : (flip h1).getN p = h1.getP p := rfl
        simp only [Option.map_some, bind, Option.bind, hg]
        cases h1.getP p with
        | none => rfl
        | some q =>
          simp only [ih]
          cases forEachSafe head body n p q (flip h1) <;> rfl

theorem flip_flip (h : Heap) : flip (flip h) = h := rfl

/-- C55 for `list_for_each_prev_safe`: the same in reverse order. -/
theorem safe_iteration_prev {h : Heap} {head : Nat} {xs : List Nat} (hl : IsList h head xs) (body : Nat → Body)
    (hb : ∀ e, body e ≠ .free) (fuel : Nat) (hf : xs.length + 1 ≤ fuel) :
    ∃ h', ((h.getP head).bind fun pos => (h.getP pos).bind fun p => forEachPrevSafe head body fuel pos p h) =
        some (xs.reverse, h') ∧
      IsList h' head (xs.filter fun e => body e == .keep) ∧
      (∀ x, h'.mapped x = (h.mapped x && !decide (x ∈ xs ∧ body x = .removeFree))) ∧
      (∀ x, x ∉ head :: xs → h'.next x = h.next x ∧ h'.prev x = h.prev x) := by
  obtain ⟨h', e, hl', hm, hu⟩ := safe_iteration hl.flip body hb fuel (by simpa using hf)
  refine ⟨flip h', ?_, ?_, ?_, ?_⟩
  · have e1 : ∀ a, (flip h).getN a = h.getP a := fun _ => rfl
    simp only [e1] at e
    cases h1 : h.getP head with
    | none => rw [h1] at e; cases e
    | some pos =>
      cases h2 : h.getP pos with
      | none => rw [h1] at e; simp [h2] at e
      | some p =>
        simp only [h1, h2, Option.bind_some] at e ⊢
        rw [forEachPrevSafe_flip, e]
        rfl
  · have := hl'.flip
    rwa [List.filter_reverse, List.reverse_reverse] at this
  · intro x
    have := hm x
    simpa [flip] using this
  · intro x hx
    have := hu x (by simpa using hx)
    exact ⟨this.2, this.1⟩

/-! ### Examples -/

/-- Every sequence of distinct nodes is the content of some list, reached from an empty one by additions. -/
theorem exists_list (head : Nat) (xs : List Nat) (hn : (head :: xs).Nodup) :
    ∃ h, IsList h head xs ∧ (∀ x, h.mapped x = true) ∧ ∀ x, x ∉ head :: xs → h.next x = x ∧ h.prev x = x := by
  induction xs with
  | nil => exact ⟨⟨id, id, fun _ => true⟩, ⟨⟨rfl, rfl⟩, by simp, fun _ _ => rfl⟩, fun _ => rfl, fun x _ => ⟨rfl, rfl⟩⟩
  | cons y ys ih =>
    obtain ⟨h, hl, hm, hs⟩ := ih (by grind)
    obtain ⟨h', _, hl', hu⟩ := add_spec hl (newp := y) (by grind) (hm y)
    refine ⟨h', hl', fun x => by rw [hu.1]; exact hm x, fun x hx => ?_⟩
    rw [(hu.2 x (by grind)).1, (hu.2 x (by grind)).2]
    exact hs x (by grind)

/-- A list of four elements, for the single-list theorems. -/
example : ∃ h, IsList h 100 ([3, 1] ++ 4 :: [15]) ∧ 9 ∉ 100 :: ([3, 1] ++ 4 :: [15]) ∧ h.mapped 9 = true := by
  obtain ⟨h, hl, hm, _⟩ := exists_list 100 [3, 1, 4, 15] (by decide)
  exact ⟨h, hl, by decide, hm 9⟩

/-- Two disjoint lists, for `list_move` and `list_splice`. -/
example : ∃ h, IsList h 100 [3, 1, 4] ∧ IsList h 200 [7, 8] ∧ ∀ x ∈ 200 :: [7, 8], x ∉ 100 :: [3, 1, 4] := by
  obtain ⟨h, hl, hm, hs⟩ := exists_list 100 [3, 1, 4] (by decide)
  have h0 : IsList h 200 [] := ⟨hs 200 (by decide), by decide, fun x _ => hm x⟩
  obtain ⟨h1, _, l1, u1⟩ := addTail_spec h0 (newp := 7) (by decide) (hm 7)
  obtain ⟨h2, _, l2, u2⟩ := addTail_spec l1 (newp := 8) (by decide) (by rw [u1.1]; exact hm 8)
  exact ⟨h2, (hl.untouched u1 (by decide)).untouched u2 (by decide), l2, by decide⟩

/-- Removing the even elements, unmapping 4. -/
example : ∃ h h', IsList h 100 [3, 2, 4] ∧
    ((h.getN 100).bind fun pos => (h.getN pos).bind fun p =>
      forEachSafe 100 (fun e => if e = 4 then .removeFree else if e % 2 = 0 then .remove else .keep) 10 pos p h) =
        some ([3, 2, 4], h') ∧ IsList h' 100 [3] := by
  obtain ⟨h, hl, _⟩ := exists_list 100 [3, 2, 4] (by decide)
  obtain ⟨h', e, l, _⟩ := safe_iteration hl (fun e => if e = 4 then .removeFree else if e % 2 = 0 then .remove else .keep)
    (by intro e; grind) 10 (by decide)
  exact ⟨h, h', hl, e, l⟩

end Verif.LinkedList
