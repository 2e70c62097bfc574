import Verif.MempoolInst
import Verif.MempoolTestsProps
import Verif.MempoolRetry
import Verif.MempoolMisfree
import Verif.MempoolGlobal
import Verif.MempoolCheckProps

/-!
# The remaining theorems about one pool and several pools, applied to concrete cases
-/

namespace Verif.Mempool

open Mem

attribute [local instance] le64

/-! ### `MempoolCheckProps` -/

/-- `checkFreeList_exact`, on an intact list and on a node that points to itself. -/
example : checkFreeList exRobust (exCorrupt 0) = .ok () := by
  rcases checkFreeList_exact exRobust_valid _ (exCorrupt_ranges 0) with h | h
  · exact h.1
  · exact absurd ⟨[percpuToFreeList exRobust 8192], ⟨rfl, by decide, by show _ = _; decide +kernel⟩,
      fun n hn => by rcases List.mem_singleton.1 hn with rfl; exact ⟨_, List.mem_singleton.2 rfl, by decide, by decide⟩, by decide⟩ h.2
example : ∃ w, checkFreeList exRobust (exCorrupt (percpuToFreeList exRobust 8192)) = .aborted w := by
  rcases checkFreeList_exact exRobust_valid _ (exCorrupt_ranges (percpuToFreeList exRobust 8192)) with h | h
  · exact absurd h.2 (cyclic_not_intact (fun _ => percpuToFreeList exRobust 8192) rfl (fun _ => by decide +kernel) (fun _ => by decide))
  · exact h.1

/-- `destroy_passes`: the pool of `exGhostFreed` is destroyed, so its list and its poison were intact. -/
example : ∃ g f, Hist exRobust false g ∧ f ∈ g.freed ∧ ListIntact exRobust g.s := by
  obtain ⟨g, f, h, hl, hf⟩ := exGhostFreed
  obtain ⟨d, hd⟩ := (no_false_alarm h).2.2 hl (fun _ => true)
  refine ⟨g, f, h, hf, ?_⟩
  by_cases hm : g.s.itemsMapped = true
  · by_cases ha : mappingsAccessible exRobust g.s.pool = true
    · exact (destroy_passes h.valid g.s (h.inv.ranges.each) rfl ha hm _ hd).1
    · exfalso
      apply ha
      unfold mappingsAccessible
      split
      · rfl
      · split
        · rfl
        · rename_i r l hr
          have := (h.inv.ranges.each r (by rw [hr]; exact List.mem_cons_self)).can rfl
          rw [this]
          rfl
  · exact absurd h.inv.mapped hm

/-- `max_nr_cpus_spec`: 6 CPUs were asked for. -/
example : ∃ c s, create (some { maxNrCpus := 6 }) 24#64 4096 0 true true { base := some 1048576 } ⟨fun _ => 0#8, fun _ => none⟩ = .pool c s ∧
    getMaxNrCpus (some c) ≠ none := by
  refine ⟨_, _, rfl, fun hn => ?_⟩
  have := (max_nr_cpus_spec (some { maxNrCpus := 6 }) 24#64 (by decide) 4096 0 true true { base := some 1048576 }
    ⟨fun _ => 0#8, fun _ => none⟩ rfl).1.1 hn
  cases this

/-! ### `MempoolCreateProps` -/

/-- `create_validates`: a stride below the page size, and a good request. -/
example : create (some { stride := 2048#64 }) 24#64 4096 4 true true { base := some 1048576 } ⟨fun _ => 0#8, fun _ => none⟩ = .null .EINVAL ∧
    create none 24#64 4096 4 true true { base := some 1048576 } ⟨fun _ => 0#8, fun _ => none⟩ ≠ .ub ∧
    ∃ k, IsRounded 24 k ∧ BadArgs { stride := 2048#64 } k 4096 4 := by
  obtain ⟨k, hk, h1, _⟩ := create_validates (some { stride := 2048#64 }) 24#64 (by decide) 4096 4 true true
    { base := some 1048576 } ⟨fun _ => 0#8, fun _ => none⟩
  obtain ⟨_, _, _, h2, _⟩ := create_validates none 24#64 (by decide) 4096 4 true true
    { base := some 1048576 } ⟨fun _ => 0#8, fun _ => none⟩
  exact ⟨rfl, h2, k, hk, h1.1 rfl⟩

/-- A system that grants memory at 1 MiB satisfies what the theorems ask of the environment. -/
theorem ex_env_at (c : Config) (h1 : c.stride ∣ 1048576) (hp : 2 * c.pg ≤ 1048576) (h3 : 1048576 + rangeLen c ≤ 2 ^ 64) :
    EnvOK c [] ⟨fun _ => 0#8, fun _ => none⟩ { base := some 1048576 } := by
  refine ⟨?_, (fun _ _ _ h => by cases h)⟩
  rintro base e
  cases e
  exact ⟨h1, by omega, h3, (fun r hr => by cases hr), fun x hx => hx⟩

/-- `create_reach`: a newly created pool of 24-byte items on 4 CPUs starts a history. -/
example : ∃ c s, create none 24#64 4096 4 true true { base := some 1048576 } ⟨fun _ => 0#8, fun _ => none⟩ = .pool c s ∧
    c.ncpu = 4 ∧ Hist c false ⟨s, [], []⟩ := by
  refine ⟨_, _, rfl, rfl, ?_⟩
  have := create_reach none 24#64 (by decide) 4096 4 ⟨12, rfl⟩ true true { base := some 1048576 } ⟨fun _ => 0#8, fun _ => none⟩
    (fun p q h => by cases h) _ _ (ex_env_at _ (by decide) (by decide) (by decide)) rfl
  exact ⟨this.1, this.2 false, fun h => by cases h⟩

/-- `create_cleanup`: the first range of the plain pool. -/
example : ∃ r m, (rangeCreate exZero ⟨[], 0, 0⟩ ⟨fun _ => 0#8, fun _ => none⟩ { base := some 1048576 }).2 = some (r, m) ∧
    destroy exZero (fun _ => true) { pool := ⟨[r], 0, 1⟩, mem := m } = .ok ⟨0, [(r.mmapAddr, r.mmapLen)], [], true⟩ := by
  obtain ⟨r, e, _⟩ := ex_create (c := exZero) (m := ⟨fun _ => 0#8, fun _ => none⟩) (b := 1048576) rfl
  exact ⟨r, _, e, create_cleanup exZero_valid _ (fun p q h => by cases h) _ (ex_env_at _ (by decide) (by decide) (by decide)) r _ e⟩

/-- `create_huge_item_ub`: 2^63 + 1 bytes. -/
example : validate none 0x8000000000000001#64 4096 4 = .ub := create_huge_item_ub none _ (by decide) 4096 4

/-- `setters_exact`: poisoning leaves the stride that was set before. -/
example : ∃ b, setPoison 7#64 (some { stride := 8192#64 }) = .ok b ∧ b.poisonSet = true ∧ b.poison = 7#64 := by
  obtain ⟨_, _, _, _, _, hp, _⟩ := setters_exact { stride := 8192#64 }
  obtain ⟨_, b, e, h1, h2, _⟩ := hp 7#64
  exact ⟨b, e, h1, h2⟩

/-- `setters_commute_partial`: robust and maximal number of ranges. -/
example : run2 .robust (.maxRanges 3) { stride := 8192#64 } = run2 (.maxRanges 3) .robust { stride := 8192#64 } :=
  setters_commute_partial _ _ (by decide) (by decide) (by decide) _

/-! ### Several pools -/

/-- `every_pool_has_history`, `pointer_leads_to_range`, `free_finds_its_pool`, `global_free`: two pools with live items. -/
example : ∃ w e1 e2 p, WReach 4096 w ∧ w.entries = [e1, e2] ∧ e1.c = exRobust ∧ e2.c = exZero ∧ p ∈ e2.live ∧
    Hist e1.c false (e1.ghost w.mem) ∧ (∃ r ∈ e2.pool.ranges, r.base = p - p % 65536) ∧
    (∃ s', wfree p 65536 w = .ok (e2, s')) ∧ ∃ s', globalFree p none w = .ok (e2, s') := by
  obtain ⟨w, e1, e2, hw, he, hc1, hc2, hl1, hl2⟩ := ex_two_live
  obtain ⟨p, hp⟩ := List.exists_mem_of_ne_nil _ hl2
  have m1 : e1 ∈ w.entries := by simp [he]
  have m2 : e2 ∈ w.entries := by simp [he]
  obtain ⟨r, hr, hb, _⟩ := pointer_leads_to_range hw e2 m2 p hp
  obtain ⟨s', e, _⟩ := free_finds_its_pool hw e2 m2 p hp
  obtain ⟨s2, e', _⟩ := global_free hw e2 m2 p hp none (by rw [hc2]; rfl)
  rw [hc2] at hb e
  exact ⟨w, e1, e2, p, hw, he, hc1, hc2, hp, every_pool_has_history hw e1 m1, ⟨r, hr, hb⟩, ⟨s', e⟩, ⟨s2, e'⟩⟩

/-- `malloc_keeps_other_pools`: an allocation in the robust pool leaves the items of the other pool alone. -/
example : ∃ w e1 e2 p ret s', WReach 4096 w ∧ w.entries = [e1, e2] ∧ p ∈ e2.live ∧
    malloc e1.c .zero { base := none } { pool := e1.pool, mem := w.mem } = .ok (ret, s') ∧
    s'.mem.read 4096 (cpuAddr e2.c p 2 + 7) = w.mem.read 4096 (cpuAddr e2.c p 2 + 7) := by
  obtain ⟨w, e1, e2, hw, he, hc1, hc2, hl1, hl2⟩ := ex_two_live
  obtain ⟨p, hp⟩ := List.exists_mem_of_ne_nil _ hl2
  obtain ⟨ret, s', e⟩ := (no_false_alarm (every_pool_has_history hw e1 (by simp [he]))).1 .zero { base := none } (ex_env ..)
  exact ⟨w, e1, e2, p, ret, s', hw, he, hp, e, malloc_keeps_other_pools hw [] [e2] e1 he .zero _ ret s' (ex_env ..)
    (fun _ hb => by cases hb) e e2 (by simp) p hp 2 (by rw [hc2]; decide) 7 (by rw [hc2]; decide)⟩

/-! ### Global pools -/

/-- `global_items`, `global_malloc`, `global_store`. -/
example : ∃ g f s' q, GlobalPool exGlobal g ∧ q ∈ g.live ∧ globalMalloc exGlobal .zero { base := none } g.s = .ok (.ptr f, s') ∧
    32 ∣ q ∧ f ∉ g.live ∧ direct exGlobal s' (f + 31) = 0#8 ∧ direct exGlobal (store exGlobal (q + 5) 9#8 g.s) (q + 5) = 9#8 := by
  obtain ⟨g, f, h, hl, hf, henv, s', e⟩ := ex_global
  obtain ⟨q, q2, hq⟩ := length_two hl
  have hqm : q ∈ g.live := by simp [hq]
  obtain ⟨_, _, _, hi, _⟩ := global_items h
  obtain ⟨_, hn, hz, _⟩ := global_malloc h _ henv .zero f s' e
  exact ⟨g, f, s', q, h, hqm, e, (hi q hqm).1, hn, hz rfl 31 (by decide), (global_store h q 5 hqm (by decide) 9#8).1⟩

/-! ### Wrong frees and repeated destruction -/

/-- `robust_free_detects_partial` and `interior_free_corrupts`: a free of the address 8 bytes inside the first of four
items is taken; the last 8 bytes of poison land in the second item. -/
example : ∃ g p s', Hist exFour false g ∧ p ∈ g.live ∧ free exFour (p + 8) g.s = .ok s' ∧
    s'.mem.read 4096 (cpuAddr exFour (p + 1024) 1 + 3) = 0#8 ∧ s'.mem.read 4096 (cpuAddr exFour (p + 1024) 1) = 7#8 := by
  obtain ⟨g, p, r, h, _, _, hp, hq⟩ := ex_four
  obtain ⟨s', v, e, hv, hc, _⟩ := interior_free_corrupts h rfl rfl p 8 hp hq (by decide)
  cases hv
  exact ⟨g, p, s', h, hp, e, (hc 1 3 (by decide) (by decide)).trans (by decide), (hc 1 0 (by decide) (by decide)).trans (by decide)⟩
example : ∃ g p, Hist exFour false g ∧ p ∈ g.live ∧ free exFour (p + 8) g.s ≠ .aborted .doubleFree := by
  obtain ⟨g, p, r, h, hr, hpr, hp, hq⟩ := ex_four
  have hd : exFour.itemLen ∣ p := (live_inside h p hp).1
  refine ⟨g, p, h, hp, fun hn => ((robust_free_detects_partial h rfl r hr (p + 8) (by omega) ?_).1.1 hn) ?_⟩
  · show p + 8 < r.base + 4096
    omega
  · have h10 : exFour.itemLen = 1024 := rfl
    rw [h10] at hd ⊢
    have : p + 8 - (p + 8) % 1024 = p := by omega
    rw [this]
    exact hp

/-- `destroy_retry_aborts` and `destroy_retry_partial`: the kernel unmapped one of two ranges, or none. -/
example : ∃ g d m' w, Hist exOnePer false g ∧ destroy exOnePer (fun k => k == 0) g.s = .ok d ∧ d.freed = false ∧
    destroy exOnePer (fun _ => true) (afterDestroy g.s d m') = .aborted w := by
  obtain ⟨g, h, _, ⟨d, m', e, hf, hu, hx⟩, _⟩ := ex_retry
  obtain ⟨w, hw⟩ := destroy_retry_aborts h rfl e hf hu m' hx (fun _ => true)
  exact ⟨g, d, m', w, h, e, hf, hw⟩
example : ∃ g d m' d2, Hist exOnePer false g ∧ destroy exOnePer (fun _ => false) g.s = .ok d ∧ d.freed = false ∧
    destroy exOnePer (fun _ => true) (afterDestroy g.s d m') = .ok d2 ∧ d2.freed = true := by
  obtain ⟨g, h, _, _, d, m', e, hf, hu, hx⟩ := ex_retry
  obtain ⟨d2, hw, h2, _⟩ := destroy_retry_partial h e hf (Or.inr hu) m' hx
  exact ⟨g, d, m', d2, h, e, hf, hw, h2⟩

/-! ### tests/mempool_test.c -/

/-- After an allocation without a new range, address 4096 is in no range: ranges start at 2 pages or above. -/
theorem ex_fn_outside {c : Config} {s : State} (h : Hist c false ⟨s, [], []⟩) (hpg : c.pg = 4096) (p : Nat) (s1 : State)
    (hm : malloc c (.plain 0) { base := none } s = .ok (.ptr p, s1)) : ∀ r ∈ s1.pool.ranges, ¬ InRegion c r.base (4096#64).toNat := by
  intro r hr hin
  rcases (malloc_local h.valid h.inv (ex_env ..) hm).2 r hr with ⟨r0, h0, hb⟩ | hb
  · have := (h.inv.ranges.each r0 h0).pos
    have h2 := hin.1
    have : (4096#64).toNat = 4096 := rfl
    omega
  · cases hb

/-- `mempool_robust_tests`, and with it the theorem of every single test, for both policies. -/
example (policy : Nat) (hp : policy = 0 ∨ policy = 1) : ∃ c s, c.cow = (policy == 0) ∧
    create (some (testPoolAttr policy)) testDataLen 4096 8 true true { base := some 0x100000 } ⟨fun _ => 0#8, fun _ => none⟩ = .pool c s ∧
    testDoubleFree c { base := none } s = .aborted .doubleFree ∧
    testMemoryLeak c { base := none } (fun _ => true) s = .aborted .freeListCount ∧
    testFreeListCorruption c { base := none } { base := none } { base := none } s = .aborted .allocatorCorruption := by
  obtain ⟨c, s, _, _, hcow, _, henv, _, e, _⟩ := ex_test_pools policy hp
  have hwf : Mem.WF ⟨fun _ => 0#8, fun _ => none⟩ := fun p q h => by cases h
  obtain ⟨hv, hre⟩ := create_reach _ _ (by decide) 4096 8 ⟨12, rfl⟩ true true _ _ hwf c s henv e
  have hh : Hist c false ⟨s, [], []⟩ := ⟨hv, hre false, fun h => by cases h⟩
  have hpg : c.pg = 4096 := by
    obtain ⟨k, _, _, _, hp, _⟩ := create_validates (some (testPoolAttr policy)) testDataLen (by decide) 4096 8 true true
      { base := some 0x100000 } ⟨fun _ => 0#8, fun _ => none⟩
    exact (hp c s e).1.pg
  obtain ⟨t1, t2, _, _, _, t6, _⟩ := mempool_robust_tests policy 4096 8 ⟨12, rfl⟩ true true _ _ hwf c s henv e { base := none }
    { base := none } { base := none } (ex_env ..) (fun _ => true) 4096#64 (by decide) (fun p s1 hm => ex_fn_outside hh hpg p s1 hm)
  exact ⟨c, s, hcow, e, t1, t2, t6⟩

/-- `mempool_fill_test`: before the first allocation. -/
example (policy : Nat) (hp : policy = 0 ∨ policy = 1) : ∃ c s, c.cow = (policy == 0) ∧
    create (some (fillAttr policy 4 8192#_)) testDataLen 4096 8 true true { base := some 0x100000 } ⟨fun _ => 0#8, fun _ => none⟩ = .pool c s ∧
    ∃ ret s', malloc c .zero { base := none } s = .ok (ret, s') := by
  obtain ⟨_, _, c, s, _, hcow, _, henv, _, e⟩ := ex_test_pools policy hp
  have hwf : Mem.WF ⟨fun _ => 0#8, fun _ => none⟩ := fun p q h => by cases h
  exact ⟨c, s, hcow, e, (mempool_fill_test policy 4 (by decide) _ 4096 8 ⟨12, rfl⟩ true true _ _ hwf c s henv e s [] .nil).1 _ (ex_env ..)⟩

end Verif.Mempool
