import Verif.MempoolCheckProps
import Verif.MempoolCapacity
/-
C73: `rseq_mempool_destroy` called again on a pool that it kept because the kernel refused to unmap a range
(rseq-mempool.c:913-917, "Keep list coherent in case of partial failure").
-/
namespace Verif.Mempool
open Verif

variable [Abi]

/-- The pool after a destroy that did not finish: `range_list` holds the ranges left; the memory is whatever the rest of
the program makes of it. -/
def afterDestroy (s : State) (d : DestroyResult) (m' : Mem) : State :=
  { s with mem := m', pool := { s.pool with ranges := d.left } }

/-! ### What destroy leaves -/

theorem destroyLoop_left {c : Config} {acc : Bool} {ok : Nat → Bool} {l : List Range} {k : Nat} {done : List (Nat × Nat)}
    {d : DestroyResult} (h : destroyLoop c acc ok l k done = .ok d) (hf : d.freed = false) :
    ∃ pre r post, l = pre ++ r :: post ∧ d.unmapped = done ++ pre.map (rangeUnmapArgs c acc) ∧
      d.left = { r with bitmap := none } :: post ∧ ∀ x ∈ pre ++ [r], leaked c x = false := by
  induction l generalizing k done with
  | nil => unfold destroyLoop at h; cases h; cases hf
  | cons a l ih =>
    unfold destroyLoop at h
    cases hl : leaked c a with
    | true => rw [hl] at h; cases h
    | false =>
      rw [hl] at h
      simp only [Bool.false_eq_true, if_false] at h
      cases hok : ok k with
      | true =>
        rw [hok] at h
        simp only [if_true] at h
        obtain ⟨pre, r, post, e1, e2, e3, e4⟩ := ih h
        refine ⟨a :: pre, r, post, by rw [e1]; rfl, by rw [e2]; simp, e3, ?_⟩
        intro x hx
        rcases List.mem_cons.1 hx with rfl | hx
        · exact hl
        · exact e4 x hx
      | false =>
        rw [hok] at h
        simp only [Bool.false_eq_true, if_false] at h
        cases h
        exact ⟨[], a, l, rfl, by simp, rfl, fun x hx => by rcases List.mem_singleton.1 hx with rfl; exact hl⟩

/-! ### Every range of a pool with several ranges has been used -/

def AllUsed (l : List Range) : Prop := l.length ≤ 1 ∨ ∀ r ∈ l, 0 < r.nextUnused

theorem AllUsed.put {l : List Range} (h : AllUsed l) {r' : Range} (hr : l.length ≤ 1 ∨ 0 < r'.nextUnused) :
    AllUsed (putRange l r') := by
  rcases h with h | h
  · exact Or.inl (by rw [length_putRange]; exact h)
  · rcases hr with hr | hr
    · exact Or.inl (by rw [length_putRange]; exact hr)
    · refine Or.inr fun x hx => ?_
      obtain ⟨y, hy, e⟩ := List.mem_map.1 hx
      by_cases hb : y.base = r'.base
      · rw [if_pos hb] at e; rw [← e]; exact hr
      · rw [if_neg hb] at e; rw [← e]; exact h y hy

theorem setAllocSlot_nextUnused {c : Config} {r r' : Range} {off : Nat} (h : setAllocSlot c r off = some r') :
    r'.nextUnused = r.nextUnused := by
  unfold setAllocSlot at h
  split at h
  · cases h; rfl
  · dsimp only at h
    split at h
    · cases h
    · cases h; rfl

theorem clearAllocSlot_nextUnused {c : Config} {r r' : Range} {off : Nat} (h : clearAllocSlot c r off = some r') :
    r'.nextUnused = r.nextUnused := by
  unfold clearAllocSlot at h
  split at h
  · cases h; rfl
  · dsimp only at h
    split at h
    · cases h; rfl
    · cases h

theorem takeSlot_allUsed {c : Config} {s s' : State} {r : Range} {off addr : Nat} {x : Choice}
    (h : takeSlot c s r off addr = .ok (x, s')) (hu : AllUsed s.pool.ranges)
    (hr : s.pool.ranges.length ≤ 1 ∨ 0 < r.nextUnused) : AllUsed s'.pool.ranges := by
  unfold takeSlot at h
  split at h
  · cases h
  · rename_i r' e
    cases h
    exact hu.put (by rw [setAllocSlot_nextUnused e]; exact hr)

theorem lockedAlloc_allUsed {c : Config} (hv : Valid c) {env : RangeEnv} {s s' : State} {x : Choice}
    (hfull : ∀ r ∈ s.pool.ranges.tail, r.nextUnused = c.stride)
    (h : lockedAlloc c env s = .ok (x, s')) (hu : AllUsed s.pool.ranges) : AllUsed s'.pool.ranges := by
  have hi := hv.item_pos
  have hle := hv.item_le
  unfold lockedAlloc at h
  dsimp only at h
  split at h
  · split at h
    · cases h
    · rename_i r hf
      have hm : r ∈ s.pool.ranges := List.mem_of_find?_eq_some hf
      split at h
      · cases h
      · exact takeSlot_allUsed h hu (hu.imp id fun hx => hx r hm)
  · cases hl : s.pool.ranges with
    | nil =>
      rw [hl] at h
      dsimp only at h
      split at h
      · cases h; exact hu
      · exact takeSlot_allUsed h (Or.inl (by simp)) (Or.inl (by simp))
    | cons a l =>
      rw [hl] at h hu hfull
      dsimp only at h
      by_cases hroom : a.nextUnused + c.itemLen > c.stride
      · rw [if_pos hroom] at h
        dsimp only at h
        split at h
        · cases h; rw [hl]; exact hu
        · refine takeSlot_allUsed h (Or.inr ?_) (Or.inr (by dsimp only; omega))
          intro y hy
          dsimp only at hy
          rcases List.mem_cons.1 hy with rfl | hy
          · dsimp only; omega
          · rcases List.mem_cons.1 hy with rfl | hy
            · omega
            · rw [hfull y hy]; omega
      · rw [if_neg hroom] at h
        dsimp only at h
        exact takeSlot_allUsed h (hu.put (Or.inr (by dsimp only; omega))) (Or.inr (by dsimp only; omega))

theorem malloc_allUsed {c : Config} (hv : Valid c) {env : RangeEnv} {s s' : State} {x : Ret} {fill : Fill}
    (hfull : ∀ r ∈ s.pool.ranges.tail, r.nextUnused = c.stride)
    (h : malloc c fill env s = .ok (x, s')) (hu : AllUsed s.pool.ranges) : AllUsed s'.pool.ranges := by
  unfold malloc at h
  split at h
  · cases h; exact hu
  · split at h
    · cases h
    · cases h
    · rename_i e; cases h; exact lockedAlloc_allUsed hv hfull e hu
    · rename_i e
      cases h
      have := lockedAlloc_allUsed hv hfull e hu
      exact this

theorem all_used {c : Config} (hv : Valid c) {uaf : Bool} (hrc : uaf = true → c.robust = true ∨ c.cow = true)
    {g : Ghost} (hg : Reach c uaf g) : AllUsed g.s.pool.ranges := by
  induction hg with
  | create => exact Or.inl (by simp)
  | step g g' hg hs ih =>
    have hi := reach_inv hv hrc hg
    cases hs with
    | mallocPtr fill env p s' henv hm => exact malloc_allUsed hv hi.full hm ih
    | mallocNull fill env e' s' henv hm => exact malloc_allUsed hv hi.full hm ih
    | free p s' hp h =>
      unfold free at h
      dsimp only at h
      split at h
      · cases h
      · rename_i r hf
        have hm : r ∈ g.s.pool.ranges := List.mem_of_find?_eq_some hf
        split at h
        · cases h
        · rename_i e
          cases h
          exact ih.put (by rw [clearAllocSlot_nextUnused e]; exact ih.imp id fun hx => hx r hm)
    | store p cpu o b hp hcpu ho => exact ih
    | ext m' h => exact ih

/-! ### The free list leaves the ranges that remain -/

theorem not_linked {c : Config} {m m' : Mem} {l : List Range} {h : Nat} {F : List Nat} (hc : Chain c m h F)
    (hpos : ∀ p ∈ F, 0 < p)
    (hkeep : ∀ p ∈ F, InUsedPart l p → m'.readWord c.pg (p + c.stride * c.flCol) = m.readWord c.pg (p + c.stride * c.flCol))
    (hout : ∃ p ∈ F, ¬ InUsedPart l p) :
    ¬ ∃ ns, Linked (fun n => (m'.readWord c.pg n).toNat) h ns ∧ ∀ n ∈ ns, InUsedPart l (freeListToPercpu c n) := by
  induction F generalizing h with
  | nil => obtain ⟨p, hp, _⟩ := hout; cases hp
  | cons p F ih =>
    rintro ⟨ns, hl, hn⟩
    obtain ⟨e, hc⟩ := hc
    cases ns with
    | nil =>
      have : h = 0 := hl
      have := hpos p List.mem_cons_self
      omega
    | cons n ns =>
      obtain ⟨e1, _, hl⟩ := hl
      have hin := hn n List.mem_cons_self
      rw [← e1, e, toPercpu_toFreeList] at hin
      refine ih hc (fun q hq => hpos q (List.mem_cons_of_mem _ hq)) (fun q hq => hkeep q (List.mem_cons_of_mem _ hq)) ?_
        ⟨ns, ?_, fun x hx => hn x (List.mem_cons_of_mem _ hx)⟩
      · obtain ⟨q, hq, hx⟩ := hout
        rcases List.mem_cons.1 hq with rfl | hq
        · exact absurd hin hx
        · exact ⟨q, hq, hx⟩
      · rw [e, ← hkeep p List.mem_cons_self hin, ← e, e1]
        exact hl

/-! ### The property -/

theorem destroy_loop_of {c : Config} {ok : Nat → Bool} {g : Ghost} (h : Hist c false g) {d : DestroyResult}
    (hd : destroy c ok g.s = .ok d) :
    destroyLoop c true ok g.s.pool.ranges 0 [] = .ok d ∧ (c.robust = true → g.live = []) := by
  rw [destroy_spec h.valid h.inv] at hd
  split at hd
  · cases hd
  · rename_i h1
    split at hd
    · cases hd
    · refine ⟨hd, fun hr => ?_⟩
      by_cases hl : g.live = []
      · exact hl
      · exact absurd ⟨hr, hl⟩ h1

/-- What an unfinished destroy leaves. -/
theorem unfinished {c : Config} {ok : Nat → Bool} {g : Ghost} (h : Hist c false g) {d : DestroyResult}
    (hd : destroy c ok g.s = .ok d) (hf : d.freed = false) :
    ∃ pre r post, g.s.pool.ranges = pre ++ r :: post ∧
      d.unmapped = pre.map (fun r => (r.base - 2 * c.pg, 2 * c.pg + rangeLen c)) ∧
      d.left = { r with bitmap := none } :: post ∧ (∀ x ∈ d.left, leaked c x = false) := by
  obtain ⟨hl, hlive⟩ := destroy_loop_of h hd
  obtain ⟨pre, r, post, e1, e2, e3, _⟩ := destroyLoop_left hl hf
  have hi := h.inv
  refine ⟨pre, r, post, e1, ?_, e3, ?_⟩
  · rw [e2, List.nil_append]
    apply List.map_congr_left
    intro x hx
    have hR := hi.ranges.each x (by rw [e1]; exact List.mem_append_left _ hx)
    simp [rangeUnmapArgs, hR.maddr, hR.mlen]
  · have hnl : ∀ r ∈ g.s.pool.ranges, leaked c r = false := by
      cases hr : c.robust with
      | false => exact not_leaked_nonrobust hi hr
      | true =>
        rw [hlive hr] at hi
        exact not_leaked hi
    intro x hx
    rw [e3] at hx
    rcases List.mem_cons.1 hx with rfl | hx
    · rfl
    · exact hnl x (by rw [e1]; exact List.mem_append_right _ (List.mem_cons_of_mem _ hx))

theorem checkFreeList_congr {c : Config} {s s' : State} {r : Range} {l : List Range} (hm : s'.mem = s.mem)
    (hh : s'.pool.head = s.pool.head) (h1 : s.pool.ranges = r :: l) (h2 : s'.pool.ranges = { r with bitmap := none } :: l) :
    checkFreeList c s' = checkFreeList c s ∧ checkPoolPoison c s' = checkPoolPoison c s := by
  have ht : ∀ left node, traverse c s'.pool s'.mem left node = traverse c s.pool s.mem left node := by
    intro left
    induction left with
    | zero => intro node; unfold traverse; rfl
    | succ n ih =>
      intro node
      have ha : ∀ a, addrInPool s'.pool a = addrInPool s.pool a := by
        intro a; unfold addrInPool; rw [h1, h2]; rfl
      rw [traverse.eq_def, traverse.eq_def c s.pool]
      dsimp only
      rw [ha, hm]
      rw [hm] at ih
      rw [ih]
  constructor
  · unfold checkFreeList
    dsimp only
    rw [h2, hh, ht, h1]
    rfl
  · unfold checkPoolPoison
    rw [h2, hm, h1, List.all_cons, List.all_cons]
    congr 1
    generalize (r.nextUnused + c.itemLen - 1) / c.itemLen = n
    generalize 0 = o
    induction n generalizing o with
    | zero => rfl
    | succ n ih => unfold checkRangePoison; rw [ih]; rfl

/-- C73: a destroy that did not finish can be repeated if the pool is not robust, or if nothing was unmapped yet: the
second call unmaps exactly the ranges that the first one left, and frees the pool. Missing for the full property: robust
pools of which some range was already unmapped, see `destroy_retry_aborts`. -/
theorem destroy_retry_partial {c : Config} {ok : Nat → Bool} {g : Ghost} (h : Hist c false g) {d : DestroyResult}
    (hd : destroy c ok g.s = .ok d) (hf : d.freed = false) (hcase : c.robust = false ∨ d.unmapped = [])
    (m' : Mem) (hm : ExtOK c d.left g.s.mem m') :
    ∃ d2, destroy c (fun _ => true) (afterDestroy g.s d m') = .ok d2 ∧ d2.freed = true ∧ d2.left = [] ∧
      d.unmapped ++ d2.unmapped = g.s.pool.ranges.map (fun r => (r.base - 2 * c.pg, 2 * c.pg + rangeLen c)) := by
  obtain ⟨pre, r, post, e1, e2, e3, hnl⟩ := unfinished h hd hf
  obtain ⟨_, hlive⟩ := destroy_loop_of h hd
  have hi := h.inv
  have hmem : ∀ x ∈ r :: post, x ∈ g.s.pool.ranges := fun x hx => by rw [e1]; exact List.mem_append_right _ hx
  have hacc : mappingsAccessible c (afterDestroy g.s d m').pool = true := by
    unfold mappingsAccessible afterDestroy
    dsimp only
    rw [e3]
    cases hc : c.cow with
    | false => rfl
    | true =>
      have := (hi.ranges.each r (hmem r List.mem_cons_self)).can hc
      simp [this]
  have hargs : d.left.map (rangeUnmapArgs c true) =
      (r :: post).map (fun r => (r.base - 2 * c.pg, 2 * c.pg + rangeLen c)) := by
    rw [e3, List.map_cons, List.map_cons]
    have key : ∀ x ∈ r :: post, rangeUnmapArgs c true x = (x.base - 2 * c.pg, 2 * c.pg + rangeLen c) := by
      intro x hx
      have hR := hi.ranges.each x (hmem x hx)
      simp [rangeUnmapArgs, hR.maddr, hR.mlen]
    congr 1
    · exact key r List.mem_cons_self
    · exact List.map_congr_left fun x hx => key x (List.mem_cons_of_mem _ hx)
  refine ⟨⟨0, d.left.map (rangeUnmapArgs c true), [], true⟩, ?_, rfl, rfl, ?_⟩
  · have hloop : destroyLoop c true (fun _ => true) (afterDestroy g.s d m').pool.ranges 0 [] =
        .ok ⟨0, d.left.map (rangeUnmapArgs c true), [], true⟩ := by
      show destroyLoop c true (fun _ => true) d.left 0 [] = _
      rw [destroyLoop_ok (fun _ => rfl) hnl]
      rfl
    unfold destroy
    dsimp only
    rw [hacc]
    cases hr : c.robust with
    | false => exact hloop
    | true =>
      have hun : d.unmapped = [] := hcase.resolve_left (by rw [hr]; exact Bool.noConfusion)
      have hpre : pre = [] := by rw [e2] at hun; exact List.map_eq_nil_iff.1 hun
      subst hpre
      rw [List.nil_append] at e1
      have hext : ExtOK c g.s.pool.ranges g.s.mem m' := by
        rw [e3] at hm
        rw [e1]
        refine ⟨hm.wf, fun x hx y hy => ?_, fun y hy x hx => ?_⟩
        · rcases List.mem_cons.1 hx with rfl | hx
          · exact hm.inside _ List.mem_cons_self y hy
          · exact hm.inside x (List.mem_cons_of_mem _ hx) y hy
        · have hout : ∀ r1 ∈ ({ r with bitmap := none } :: post : List Range), ¬ InRegion c r1.base y := by
            intro z hz
            rcases List.mem_cons.1 hz with rfl | hz
            · exact hy r List.mem_cons_self
            · exact hy z (List.mem_cons_of_mem _ hz)
          rcases List.mem_cons.1 hx with hx | hx
          · rw [hx]
            have := hm.outside y hout _ List.mem_cons_self
            exact this
          · exact hm.outside y hout x (List.mem_cons_of_mem _ hx)
      have h2 : Hist c false ⟨{ g.s with mem := m' }, g.live, g.freed⟩ :=
        ⟨h.valid, .step _ _ h.reach (.ext g m' hext), h.mode⟩
      have hi2 := h2.inv
      dsimp only at hi2
      obtain ⟨c1, c2⟩ := checkFreeList_congr (c := c) (s := { g.s with mem := m' }) (s' := afterDestroy g.s d m') rfl rfl e1 e3
      obtain ⟨v, hpv⟩ := Option.isSome_iff_exists.1 (h.valid.robust_poison hr)
      have hp : checkPoolPoison c { g.s with mem := m' } = true := by
        rw [checkPoolPoison_iff h.valid hi2 hr hpv]
        rintro p (hp | hp)
        · rw [hlive hr] at hp; cases hp
        · exact hi2.poison rfl v hpv p hp
      have hmap : (afterDestroy g.s d m').itemsMapped = true := hi.mapped
      rw [c1, c2, hp, checkFreeList_spec h.valid hi2, if_pos (hlive hr), hmap]
      exact hloop
  · show d.unmapped ++ d.left.map (rangeUnmapArgs c true) = _
    rw [e2, hargs, e1, List.map_append]

/-- C73, negative side (F20): on a robust pool, once a range was unmapped, calling destroy again aborts the process,
whatever the kernel answers: the free list still runs through the memory that is gone. -/
theorem destroy_retry_aborts {c : Config} {ok : Nat → Bool} {g : Ghost} (h : Hist c false g) (hrob : c.robust = true)
    {d : DestroyResult} (hd : destroy c ok g.s = .ok d) (hf : d.freed = false) (hun : d.unmapped ≠ [])
    (m' : Mem) (hm : ExtOK c d.left g.s.mem m') (ok2 : Nat → Bool) :
    ∃ w, destroy c ok2 (afterDestroy g.s d m') = .aborted w := by
  obtain ⟨pre, r, post, e1, e2, e3, hnl⟩ := unfinished h hd hf
  obtain ⟨_, hlive⟩ := destroy_loop_of h hd
  have hl := hlive hrob
  have hi := h.inv
  have hv := h.valid
  have hpos := hv.item_pos
  cases hpre : pre with
  | nil => rw [e2, hpre] at hun; exact absurd rfl hun
  | cons a pre' =>
  have ha : a ∈ g.s.pool.ranges := by rw [e1, hpre]; exact List.mem_append_left _ List.mem_cons_self
  have hmem : ∀ x ∈ r :: post, x ∈ g.s.pool.ranges := fun x hx => by rw [e1]; exact List.mem_append_right _ hx
  have hau : 0 < a.nextUnused := by
    rcases all_used hv h.mode h.reach with h1 | h1
    · rw [e1, hpre] at h1; simp at h1
    · exact h1 a ha
  -- the ranges left, with their bases
  have hleft : ∀ x ∈ d.left, ∃ y ∈ r :: post, y.base = x.base ∧ y.nextUnused = x.nextUnused := by
    intro x hx
    rw [e3] at hx
    rcases List.mem_cons.1 hx with rfl | hx
    · exact ⟨r, List.mem_cons_self, rfl, rfl⟩
    · exact ⟨x, List.mem_cons_of_mem _ hx, rfl, rfl⟩
  have hinF : a.base ∈ g.freed := by
    have : Used c g.s.pool.ranges a.base := ⟨a, ha, 0, by rw [Nat.zero_mul]; exact hau, by simp⟩
    rcases (hi.used _).1 this with hx | hx
    · rw [hl] at hx; cases hx
    · exact hx
  have hregion : ∀ x ∈ g.s.pool.ranges, ∀ p, x.base ≤ p → p < x.base + x.nextUnused → InRegion c x.base p := by
    intro x hx p h1 h2
    have hR := hi.ranges.each x hx
    have h3 := Nat.mul_le_mul_left c.stride (show 1 ≤ c.nCols by have := hv.ncpu_pos; have := ncpu_le_nCols c; omega)
    have := hR.nu
    refine ⟨h1, ?_⟩
    rw [rangeLen_eq]
    omega
  have hout : ¬ InUsedPart d.left a.base := by
    rintro ⟨x, hx, h1, h2⟩
    obtain ⟨y, hy, hb, hn⟩ := hleft x hx
    rw [← hb] at h1 h2
    rw [← hn] at h2
    have hyg := hmem y hy
    have hne : a.base ≠ y.base := by
      have hnd := hi.ranges.nodup
      rw [e1, hpre, List.map_append, List.nodup_append] at hnd
      exact hnd.2.2 a.base (List.mem_map.2 ⟨a, List.mem_cons_self, rfl⟩) y.base (List.mem_map.2 ⟨y, hy, rfl⟩)
    have hap := hi.ranges.apart a ha y hyg hne
    have hin := hregion y hyg a.base h1 h2
    unfold InRegion at hin
    unfold Apart at hap
    have hp1 := hv.pg_pos
    omega
  have hbad := not_linked (m' := m') (l := d.left) hi.chain
    (fun p hp => by
      obtain ⟨x, hx, k, _, e⟩ := hi.slotF hp
      have := (hi.ranges.each x hx).pos
      have := hv.pg_pos
      omega)
    (fun p hp hin => by
      obtain ⟨x, hx, h1, h2⟩ := hin
      obtain ⟨y, hy, hb, hn⟩ := hleft x hx
      refine Mem.readWord_congr fun j hj => ?_
      refine (hm.inside x hx _ ?_).2
      rw [← hb]
      rw [← hb] at h1 h2
      rw [← hn] at h2
      obtain ⟨z, hz, k, hk, e⟩ := hi.slotF hp
      have h4 := hregion y (hmem y hy) p h1 h2
      have h5 : InRegion c z.base p := by
        have := col_in (c := c) (base := z.base) (i := 0) (a := k * c.itemLen)
          (by have := hv.ncpu_pos; have := ncpu_le_nCols c; omega) (by omega)
        rw [Nat.mul_zero, Nat.add_zero, ← e] at this
        exact this
      have hzy := region_unique hi.ranges hz (hmem y hy) h5 h4
      have := hv.item_ge
      have := col_in (c := c) (base := z.base) (i := c.flCol) (a := k * c.itemLen + j) hv.flCol_lt (by omega)
      rw [← hzy]
      rw [show z.base + c.stride * c.flCol + (k * c.itemLen + j) = p + c.stride * c.flCol + j by omega] at this
      exact this)
    ⟨a.base, hinF, hout⟩
  have hacc : mappingsAccessible c (afterDestroy g.s d m').pool = true := by
    unfold mappingsAccessible afterDestroy
    dsimp only
    rw [e3]
    cases hc : c.cow with
    | false => rfl
    | true =>
      have := (hi.ranges.each r (hmem r List.mem_cons_self)).can hc
      simp [this]
  have hmap : (afterDestroy g.s d m').itemsMapped = true := hi.mapped
  have hcheck : ∃ w, checkFreeList c (afterDestroy g.s d m') = .aborted w := by
    unfold checkFreeList
    dsimp only
    generalize (List.map (fun _ => c.stride >>> c.order) (afterDestroy g.s d m').pool.ranges).sum -
      (List.map (fun r => (c.stride - r.nextUnused) >>> c.order) (afterDestroy g.s d m').pool.ranges).sum = n
    rcases traverse_cases (c := c) (pool := (afterDestroy g.s d m').pool) (m := m') n g.s.pool.head with
      ⟨ns, h1, h2, _, _⟩ | ⟨⟨w, e⟩, _⟩
    · exact absurd ⟨ns, h1, h2⟩ hbad
    · refine ⟨w, ?_⟩
      have e' : traverse c (afterDestroy g.s d m').pool (afterDestroy g.s d m').mem n (afterDestroy g.s d m').pool.head =
        .aborted w := e
      rw [e']
  obtain ⟨w, e⟩ := hcheck
  refine ⟨w, ?_⟩
  unfold destroy
  dsimp only
  rw [hrob, hacc, hmap, e]
  rfl

end Verif.Mempool

/-! ### Examples -/

namespace Verif.Mempool
open Verif

section
variable [Abi]

/-- Freeing every live item. -/
theorem free_all {c : Config} {g : Ghost} (h : Hist c false g) : ∃ g', Hist c false g' ∧ g'.live = [] ∧
    g'.s.pool.ranges.length = g.s.pool.ranges.length := by
  generalize hn : g.live.length = n
  induction n generalizing g with
  | zero => exact ⟨g, h, List.length_eq_zero_iff.1 hn, rfl⟩
  | succ n ih =>
    obtain ⟨p, L, hl⟩ := List.exists_cons_of_length_eq_add_one hn
    have hp : p ∈ g.live := by rw [hl]; exact List.mem_cons_self
    obtain ⟨s', e, _⟩ := free_spec h.valid h.inv hp
    have h' : Hist c false ⟨s', g.live.erase p, p :: g.freed⟩ :=
      ⟨h.valid, .step _ _ h.reach (.free g p s' hp e), h.mode⟩
    obtain ⟨g', h1, h2, h3⟩ := ih h' (by dsimp only; rw [List.length_erase_of_mem hp]; omega)
    refine ⟨g', h1, h2, h3.trans ?_⟩
    unfold free at e
    dsimp only at e
    split at e
    · cases e
    · split at e
      · cases e
      · cases e; exact length_putRange _ _

end

attribute [local instance] le64

/-- A robust pool with one item per range. -/
def exOnePer : Config :=
  { pg := 4096, order := 12, stride := 4096, ncpu := 2, cow := false, robust := true, poison := some 7#64
    maxRanges := 0, initSet := false, global := false }

theorem exOnePer_valid : Valid exOnePer :=
  ⟨by decide, by decide, ⟨12, by decide⟩, ⟨12, by decide⟩, by decide, by decide, fun _ => rfl, fun h => (by cases h)⟩

/-- Two ranges, nothing allocated; the kernel unmaps one range only: the hypotheses of `destroy_retry_aborts`. If it
unmaps none, those of `destroy_retry_partial`. -/
theorem ex_retry : ∃ g, Hist exOnePer false g ∧ g.s.pool.ranges.length = 2 ∧
    (∃ d m', destroy exOnePer (fun k => k == 0) g.s = .ok d ∧ d.freed = false ∧ d.unmapped ≠ [] ∧
      ExtOK exOnePer d.left g.s.mem m') ∧
    (∃ d m', destroy exOnePer (fun _ => false) g.s = .ok d ∧ d.freed = false ∧ d.unmapped = [] ∧
      ExtOK exOnePer d.left g.s.mem m') := by
  obtain ⟨g, hg, hl, hf, ht, hle, hi⟩ := fill_reach exOnePer_valid false (n := 2) (by decide) (Or.inl rfl) (by decide) 2 (by decide)
  have hcount := count_used exOnePer_valid hi.toInv0
  rw [hl, hf] at hcount
  have hlen : g.s.pool.ranges.length = 2 := by
    match hr : g.s.pool.ranges with
    | [] => rw [hr] at hcount; simp at hcount
    | [r] =>
      have hnu := (hi.ranges.each r (by rw [hr]; exact List.mem_singleton.2 rfl)).nu
      rw [hr] at hcount
      simp at hcount
      have hd : r.nextUnused / exOnePer.itemLen ≤ 4096 / 4096 := Nat.div_le_div_right hnu
      omega
    | a :: b :: l => rw [hr] at hle; simp at hle; subst hle; rfl
  obtain ⟨g', h', hl', hlen'⟩ := free_all (g := g) ⟨exOnePer_valid, hg, fun h => by cases h⟩
  have key : ∀ ok, ∃ d, destroy exOnePer ok g'.s = .ok d ∧ ∃ k, d.unmapped.length = k ∧ k ≤ 2 ∧ (∀ i, i < k → ok i = true) ∧
      (k < 2 → ok k = false) ∧ d.freed = decide (k = 2) := by
    intro ok
    obtain ⟨_, k, left, h1, h2, h3, _, e⟩ := destroy_unmaps_once_partial h' (fun _ => hl') ok
    simp only [List.length_map, hlen', hlen] at h1 h3 e
    exact ⟨_, e, k, by simp [hlen', hlen, h1], h1, h2, h3, rfl⟩
  have hext : ∀ l, ∃ m', ExtOK exOnePer l g'.s.mem m' := fun l =>
    ⟨⟨fun a => g'.s.mem.read exOnePer.pg a, fun _ => none⟩, ⟨(fun p q h => by cases h), (fun r _ x _ => ⟨Or.inr rfl, rfl⟩), (fun x hx => hx)⟩⟩
  refine ⟨g', h', hlen'.trans hlen, ?_, ?_⟩
  · obtain ⟨d, e, k, hk, h1, h2, h3, h4⟩ := key (fun k => k == 0)
    obtain ⟨m', hm⟩ := hext d.left
    have hk1 : k = 1 := by
      match k with
      | 0 => have := h3 (by decide); cases this
      | 1 => rfl
      | 2 => have := h2 1 (by decide); cases this
      | k + 3 => omega
    subst hk1
    exact ⟨d, m', e, h4, (fun hu => by rw [hu] at hk; cases hk), hm⟩
  · obtain ⟨d, e, k, hk, h1, h2, h3, h4⟩ := key (fun _ => false)
    obtain ⟨m', hm⟩ := hext d.left
    have hk1 : k = 0 := by
      match k with
      | 0 => rfl
      | k + 1 => have := h2 0 (by omega); cases this
    subst hk1
    exact ⟨d, m', e, h4, List.length_eq_zero_iff.1 hk, hm⟩

end Verif.Mempool
