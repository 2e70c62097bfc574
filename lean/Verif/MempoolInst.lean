import Verif.MempoolProps

/-!
# The theorems of `MempoolProps` applied to concrete pools

Each example gives one theorem a concrete, non-trivial history, so all its hypotheses hold together, and reads off what
the theorem says there.
-/

namespace Verif.Mempool

open Mem

attribute [local instance] le64

theorem length_two {α : Type} : ∀ {l : List α}, l.length = 2 → ∃ a b, l = [a, b]
  | [a, b], _ => ⟨a, b, rfl⟩

/-- The history used below: two live items and a freed one, in a robust COW_INIT pool (2 CPUs, 16-byte items). -/
theorem exGhost (uaf : Bool) : ∃ g p q f, Hist exRobust uaf g ∧ g.live = [p, q] ∧ p ≠ q ∧ g.freed = [f] := by
  obtain ⟨g, f, h, hl, hf⟩ := ex_hist (uaf := uaf) exRobust_valid (fun _ => Or.inl rfl) (Or.inr (by decide)) (by decide) (by decide)
  obtain ⟨p, q, hpq⟩ := length_two hl
  refine ⟨g, p, q, f, h, hpq, ?_, hf⟩
  have := (live_disjoint h).1
  rw [hpq] at this
  intro e
  subst e
  simp at this

/-- The same for the plain pool (3 CPUs, 8-byte items). -/
theorem exGhostPlain : ∃ g p q f, Hist exPlain false g ∧ g.live = [p, q] ∧ p ≠ q ∧ g.freed = [f] := by
  obtain ⟨g, f, h, hl, hf⟩ := ex_hist (uaf := false) exPlain_valid (fun h => by cases h) (Or.inl rfl) (by decide) (by decide)
  obtain ⟨p, q, hpq⟩ := length_two hl
  refine ⟨g, p, q, f, h, hpq, ?_, hf⟩
  have := (live_disjoint h).1
  rw [hpq] at this
  intro e
  subst e
  simp at this

/-- `live_disjoint`: byte 3 of the first item on CPU 1 is not byte 5 of the second one on CPU 0. -/
example : ∃ g p q, Hist exRobust false g ∧ g.live = [p, q] ∧ p ≠ q ∧ cpuAddr exRobust p 1 + 3 ≠ cpuAddr exRobust q 0 + 5 := by
  obtain ⟨g, p, q, _, h, hl, hne, _⟩ := exGhost false
  exact ⟨g, p, q, h, hl, hne, (live_disjoint h).2 p (by simp [hl]) q (by simp [hl]) 1 0 (by decide) (by decide)
    (fun e => by cases e) 3 5 (by decide) (by decide)⟩

/-- `live_inside`. -/
example : ∃ g p, Hist exRobust false g ∧ p ∈ g.live ∧ 16 ∣ p ∧
    ∃ r ∈ g.s.pool.ranges, r.base + 4096 ≤ cpuAddr exRobust p 1 ∧ cpuAddr exRobust p 1 + 16 ≤ r.base + 8192 := by
  obtain ⟨g, p, q, _, h, hl, _, _⟩ := exGhost false
  have hp : p ∈ g.live := by simp [hl]
  obtain ⟨hd, r, hr, _, _, _, hc⟩ := live_inside h p hp
  obtain ⟨h1, h2, _⟩ := hc 1 (by decide)
  exact ⟨g, p, h, hp, hd, r, hr, h1, h2⟩

/-- `addressing_injective`, for a live and a freed item. -/
example : ∃ g p f, Hist exRobust false g ∧ p ∈ g.live ∧ f ∈ g.freed ∧
    freeListToPercpu exRobust (percpuToFreeList exRobust f) = f ∧
    (cpuAddr exRobust f 0 + 7 = cpuAddr exRobust p 1 + 7 → f = p ∧ 0 = 1 ∧ 7 = 7) := by
  obtain ⟨g, p, q, f, h, hl, _, hf⟩ := exGhost false
  have hp : p ∈ g.live := by simp [hl]
  have hf : f ∈ g.freed := by simp [hf]
  obtain ⟨h1, _, h3, _⟩ := addressing_injective h f p (Or.inr hf) (Or.inl hp)
  exact ⟨g, p, f, h, hp, hf, h3, h1 0 1 7 7 (by decide) (by decide) (by decide) (by decide)⟩

/-- `zmalloc_zero`: the freed item is reused and reads as zero on CPU 1. -/
example : ∃ g f s', Hist exRobust false g ∧ malloc exRobust .zero { base := none } g.s = .ok (.ptr f, s') ∧
    s'.mem.read 4096 (cpuAddr exRobust f 1 + 9) = 0#8 := by
  obtain ⟨g, p, q, f, h, hl, _, hf⟩ := exGhost false
  obtain ⟨s', e⟩ := malloc_reuses_freed h _ (ex_env ..) .zero (by decide) f [] hf
  exact ⟨g, f, s', h, e, zmalloc_zero h _ (ex_env ..) f s' e 1 9 (by decide) (by decide)⟩

/-- `malloc_init_content`: an init image of 12 bytes. -/
example : ∃ g f s', Hist exRobust false g ∧
    malloc exRobust (.init (fun i => BitVec.ofNat 8 (i + 1)) 12) { base := none } g.s = .ok (.ptr f, s') ∧
    s'.mem.read 4096 (cpuAddr exRobust f 1 + 9) = 10#8 := by
  obtain ⟨g, p, q, f, h, hl, _, hf⟩ := exGhost false
  obtain ⟨s', e⟩ := malloc_reuses_freed h _ (ex_env ..) (.init (fun i => BitVec.ofNat 8 (i + 1)) 12) (by decide) f [] hf
  exact ⟨g, f, s', h, e, malloc_init_content h _ (ex_env ..) _ 12 f s' e 1 9 (by decide) (by decide)⟩

/-- `malloc_keeps_live`. -/
example : ∃ g p f s', Hist exRobust false g ∧ p ∈ g.live ∧ malloc exRobust .zero { base := none } g.s = .ok (.ptr f, s') ∧
    s'.mem.read 4096 (cpuAddr exRobust p 1 + 15) = g.s.mem.read 4096 (cpuAddr exRobust p 1 + 15) := by
  obtain ⟨g, p, q, f, h, hl, _, hf⟩ := exGhost false
  have hp : p ∈ g.live := by simp [hl]
  obtain ⟨s', e⟩ := malloc_reuses_freed h _ (ex_env ..) .zero (by decide) f [] hf
  exact ⟨g, p, f, s', h, hp, e, malloc_keeps_live h _ (ex_env ..) _ _ s' e p hp 1 15 (by decide) (by decide)⟩

/-- `free_keeps_live`: the second item is freed, the first stays. -/
example : ∃ g p q s', Hist exRobust false g ∧ free exRobust q g.s = .ok s' ∧
    s'.mem.read 4096 (cpuAddr exRobust p 0 + 2) = g.s.mem.read 4096 (cpuAddr exRobust p 0 + 2) := by
  obtain ⟨g, p, q, f, h, hl, hne, _⟩ := exGhost false
  obtain ⟨s', e, hk⟩ := free_keeps_live h q (by simp [hl])
  exact ⟨g, p, q, s', h, e, hk p (by simp [hl]) hne 0 2 (by decide) (by decide)⟩

/-- `store_isolated`: a store to CPU 1's copy of the first item. -/
example : ∃ g p, Hist exRobust false g ∧ p ∈ g.live ∧
    (store exRobust (cpuAddr exRobust p 1 + 4) 0x7f#8 g.s).mem.read 4096 (cpuAddr exRobust p 1 + 4) = 0x7f#8 := by
  obtain ⟨g, p, q, f, h, hl, hne, _⟩ := exGhost false
  have hp : p ∈ g.live := by simp [hl]
  exact ⟨g, p, h, hp, (store_isolated h p 1 4 hp (by decide) (by decide) _).1⟩

/-- `malloc_fails_iff` where an item is free: malloc does not fail. -/
example : ∃ g, Hist exRobust false g ∧ ¬ ∃ e s', malloc exRobust .zero { base := none } g.s = .ok (.null e, s') := by
  obtain ⟨g, p, q, f, h, hl, _, hf⟩ := exGhost false
  refine ⟨g, h, fun hm => ?_⟩
  have := (((malloc_fails_iff h _ (ex_env ..) .zero (by decide)).1).1 hm).1
  rw [hf] at this
  cases this

/-- `capacity_bound`. -/
example : ∃ g, Hist exRobust false g ∧ g.live.length ≤ 512 := by
  obtain ⟨g, _, _, _, h, _⟩ := exGhost false
  exact ⟨g, h, (capacity_bound h (by decide)).2⟩
/-- `capacity_reached`. -/
example : ∃ g, Hist exRobust false g ∧ g.live.length = 512 := capacity_reached exRobust_valid (by decide) (by decide)
/-- `capacity_unlimited`, with 3 ranges of 8192 items. -/
example : ∃ g, Hist exPlain false g ∧ g.live.length = 24576 :=
  capacity_unlimited exPlain_valid rfl 3 (by decide) (by decide)

/-- `einval_iff`: an init image of 17 bytes does not fit in 16, one of 16 bytes does. -/
example : ∃ g, Hist exRobust false g ∧
    (∃ s', malloc exRobust (.init (fun _ => 1#8) 17) { base := none } g.s = .ok (.null .EINVAL, s')) ∧
    ¬ ∃ s', malloc exRobust (.init (fun _ => 1#8) 16) { base := none } g.s = .ok (.null .EINVAL, s') := by
  obtain ⟨g, _, _, _, h, _⟩ := exGhost false
  exact ⟨g, h, (einval_iff h _ (ex_env ..) _).1.2 (by decide), fun hn => absurd ((einval_iff h _ (ex_env ..) _).1.1 hn) (by decide)⟩

/-- `double_free_aborts`. -/
example : ∃ g f, Hist exRobust false g ∧ f ∈ g.freed ∧ free exRobust f g.s = .aborted .doubleFree := by
  obtain ⟨g, p, q, f, h, hl, _, hf⟩ := exGhost false
  have hf : f ∈ g.freed := by simp [hf]
  exact ⟨g, f, h, hf, double_free_aborts h rfl f hf⟩

/-- `destroy_leak_aborts`. -/
example : ∃ g, Hist exRobust false g ∧ ∃ w, destroy exRobust (fun _ => true) g.s = .aborted w := by
  obtain ⟨g, p, q, f, h, hl, _, hf⟩ := exGhost false
  exact ⟨g, h, destroy_leak_aborts h rfl (by simp [hl]) _⟩

/-- `use_after_free_detected`: byte 3 of the freed item is overwritten on CPU 1. -/
example : ∃ g f, Hist exRobust true g ∧ g.freed = [f] ∧ malloc exRobust .zero { base := none } g.s = .aborted .poison := by
  obtain ⟨g, p, q, f, h, hl, _, hf⟩ := exGhost true
  have hm : f ∈ g.freed := by simp [hf]
  have h' : Hist exRobust true { g with s := store exRobust (cpuAddr exRobust f 1 + 3) 0#8 g.s } :=
    ⟨h.valid, Reach.step g _ h.reach (Step.store g f 1 3 0#8 (Or.inr ⟨rfl, hm⟩) (by decide) (by decide)), h.mode⟩
  refine ⟨_, f, h', hf, (use_after_free_detected h' rfl _ rfl f hm 1 3 (by decide) (by decide) ?_).2.1 .zero _ [] (ex_env ..)
    (by decide) hf⟩
  show Mem.read exRobust.pg (Mem.write exRobust.pg _ _ _) _ ≠ _
  rw [read_write_self]
  decide

/-- `no_false_alarm`: both operations succeed. -/
example : ∃ g p, Hist exPlain false g ∧ p ∈ g.live ∧ (∃ ret s', malloc exPlain .zero { base := none } g.s = .ok (ret, s')) ∧
    ∃ s', free exPlain p g.s = .ok s' := by
  obtain ⟨g, p, q, f, h, hl, _, hf⟩ := exGhostPlain
  have hp : p ∈ g.live := by simp [hl]
  exact ⟨g, p, h, hp, (no_false_alarm h).1 _ _ (ex_env ..), (no_false_alarm h).2.1 p hp⟩

/-- `uaf_coherent`, for a client that may store into freed items. -/
example : ∃ g, Hist exRobust true g ∧ g.live.length = 2 ∧
    (malloc exRobust .zero { base := none } g.s = .aborted .poison ∨
      (∃ e, malloc exRobust .zero { base := none } g.s = .ok (.null e, g.s)) ∨
      ∃ p s', malloc exRobust .zero { base := none } g.s = .ok (.ptr p, s') ∧ p ∉ g.live) := by
  obtain ⟨g, p, q, f, h, hl, _, hf⟩ := exGhost true
  refine ⟨g, h, by simp [hl], ?_⟩
  rcases uaf_coherent h .zero _ (ex_env ..) with e | e | ⟨p, s', e, hn, _⟩
  · exact Or.inl e
  · exact Or.inr (Or.inl e)
  · exact Or.inr (Or.inr ⟨p, s', e, hn⟩)

/-- `freed_is_poisoned`: byte 9 on CPU 2 of a non-robust COW_ZERO pool. -/
example : ∃ g p s', Hist exPlain false g ∧ p ∈ g.live ∧ free exPlain p g.s = .ok s' ∧
    s'.mem.read 4096 (cpuAddr exPlain p 2 + 5) = 0x33#8 := by
  obtain ⟨g, p, q, f, h, hl, _, hf⟩ := exGhostPlain
  have hp : p ∈ g.live := by simp [hl]
  obtain ⟨s', e, hk⟩ := freed_is_poisoned h _ rfl p hp
  exact ⟨g, p, s', h, hp, e, (hk 2 5 (by decide) (by decide) (Or.inr (Or.inr (Or.inl ⟨rfl, by decide⟩)))).trans (by decide)⟩

/-- `callback_once`: the callback accepts all three CPUs, or refuses CPU 1. -/
example : (rangeCreate exPlain ⟨[], 0, 0⟩ ⟨fun _ => 0#8, fun _ => none⟩ { base := some 131072 }).1.length = 3 ∧
    (rangeCreate exPlain ⟨[], 0, 0⟩ ⟨fun _ => 0#8, fun _ => none⟩ { base := some 131072, cb := fun k => (k != 1, []) }).2 = none :=
  ⟨((callback_once (c := exPlain) ⟨[], 0, 0⟩ _ { base := some 131072 } 131072 rfl (Or.inl rfl) (fun h => by cases h)
      (fun h => by cases h) 3 rfl).1 (fun _ _ => rfl)).2.1,
   ((callback_once (c := exPlain) ⟨[], 0, 0⟩ _ { base := some 131072, cb := fun k => (k != 1, []) } 131072 rfl (Or.inl rfl)
      (fun h => by cases h) (fun h => by cases h) 3 rfl).2 1 (by decide) (by decide) (fun i hi => by
        obtain rfl : i = 0 := by omega
        decide)).1⟩

/-- A robust pool whose items were all given back. -/
theorem exGhostFreed : ∃ g f, Hist exRobust false g ∧ g.live = [] ∧ f ∈ g.freed := by
  obtain ⟨g, p, q, f, h, hl, hne, hf⟩ := exGhost false
  obtain ⟨s1, e1, _⟩ := free_keeps_live h p (by simp [hl])
  have h1 : Hist exRobust false ⟨s1, g.live.erase p, p :: g.freed⟩ :=
    ⟨h.valid, Reach.step g _ h.reach (Step.free g p s1 (by simp [hl]) e1), h.mode⟩
  have hl1 : g.live.erase p = [q] := by simp [hl]
  obtain ⟨s2, e2, _⟩ := free_keeps_live h1 q (by simp [hl1])
  exact ⟨_, q, ⟨h1.valid, Reach.step _ _ h1.reach (Step.free _ q s2 (by simp [hl1]) e2), h1.mode⟩, by simp [hl1], by simp⟩

/-- `destroy_unmaps_once_partial` and `destroy_hides_failure`: `munmap` fails, the result is 0. -/
example : ∃ g, Hist exRobust false g ∧ ∃ left, destroy exRobust (fun _ => false) g.s = .ok ⟨0, [], left, false⟩ ∧ left ≠ [] := by
  obtain ⟨g, f, h, hl, _⟩ := exGhostFreed
  obtain ⟨left, e, _, hn⟩ := destroy_hides_failure h (fun _ => hl)
  exact ⟨g, h, left, e, hn⟩
example : ∃ g, Hist exRobust false g ∧ ∃ k left, k ≤ g.s.pool.ranges.length ∧
    destroy exRobust (fun k => k < 1) g.s =
      .ok ⟨0, (g.s.pool.ranges.map (fun r => (r.base - 2 * 4096, 2 * 4096 + rangeLen exRobust))).take k, left,
        decide (k = g.s.pool.ranges.length)⟩ := by
  obtain ⟨g, f, h, hl, _⟩ := exGhostFreed
  obtain ⟨_, k, left, hk, _, _, _, e⟩ := destroy_unmaps_once_partial h (fun _ => hl) (fun k => k < 1)
  simp only [List.length_map] at hk e
  exact ⟨g, h, k, left, hk, e⟩

/-- `destroy_in_child_partial` and `destroy_in_child_aborts`. -/
example : ∃ g, Hist exRobust false g ∧ ∃ d, destroy exRobust (fun _ => true) (forkChild exRobust g.s) = .ok d ∧ d.freed = true := by
  obtain ⟨g, f, h, hl, _⟩ := exGhostFreed
  exact ⟨g, h, _, (destroy_in_child_partial h rfl (fun _ => hl) (fun _ => true) (fun _ => rfl)).2, rfl⟩
example : ∃ g p, Hist exRobust false g ∧ p ∈ g.live ∧
    destroy exRobust (fun _ => true) (forkChild exRobust g.s) = .aborted .leak := by
  obtain ⟨g, p, q, f, h, hl, _, hf⟩ := exGhost false
  have hp : p ∈ g.live := by simp [hl]
  exact ⟨g, p, h, hp, destroy_in_child_aborts h rfl rfl p hp⟩

end Verif.Mempool
