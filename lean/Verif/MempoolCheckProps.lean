import Verif.MempoolCreateProps
import Verif.MempoolProps
/-
C58: what the consistency checks of `rseq_mempool_destroy` detect, for arbitrary memory content.
C59: `rseq_mempool_get_max_nr_cpus`.

Nothing here assumes that the free list or the items are intact: the memory is any memory.
-/
namespace Verif.Mempool
open Verif

variable [Abi]

/-- The addresses met when following `next` from `h` until NULL. -/
def Linked (next : Nat → Nat) : Nat → List Nat → Prop
  | h, [] => h = 0
  | h, n :: ns => h = n ∧ n ≠ 0 ∧ Linked next (next n) ns

/-- A slot address below the high-water mark of some range. -/
def InUsedPart (l : List Range) (a : Nat) : Prop := ∃ r ∈ l, r.base ≤ a ∧ a < r.base + r.nextUnused

/-- Slots that have ever been handed out. -/
def slotsUsed (c : Config) (l : List Range) : Nat := (l.map fun r => r.nextUnused / c.itemLen).sum

/-- An intact free list when nothing is allocated: NULL-terminated, every node is in the used part of the
pool, as many nodes as slots ever handed out. -/
def ListIntact (c : Config) (s : State) : Prop :=
  ∃ ns, Linked (fun n => (s.mem.readWord c.pg n).toNat) s.pool.head ns ∧
    (∀ n ∈ ns, InUsedPart s.pool.ranges (freeListToPercpu c n)) ∧ ns.length = slotsUsed c s.pool.ranges

theorem addrInPool_iff {pool : Pool} {a : Nat} : addrInPool pool a = true ↔ InUsedPart pool.ranges a := by
  unfold addrInPool InUsedPart
  rw [List.any_eq_true]
  simp only [Bool.and_eq_true, decide_eq_true_eq]

theorem traverse_cases {c : Config} {pool : Pool} {m : Mem} (left node : Nat) :
    (∃ ns, Linked (fun n => (m.readWord c.pg n).toNat) node ns ∧ (∀ n ∈ ns, InUsedPart pool.ranges (freeListToPercpu c n)) ∧
      ns.length ≤ left ∧ traverse c pool m left node = .ok ns.length) ∨
    ((∃ w, traverse c pool m left node = .aborted w) ∧
      ¬ ∃ ns, Linked (fun n => (m.readWord c.pg n).toNat) node ns ∧ (∀ n ∈ ns, InUsedPart pool.ranges (freeListToPercpu c n)) ∧
        ns.length ≤ left) := by
  induction left generalizing node with
  | zero =>
    by_cases h : node = 0
    · left
      exact ⟨[], h, fun _ hn => absurd hn List.not_mem_nil, Nat.le_refl _, by unfold traverse; rw [if_pos h]; rfl⟩
    · right
      refine ⟨⟨.freeListLoop, by unfold traverse; rw [if_neg h]⟩, ?_⟩
      rintro ⟨ns, h1, _, h3⟩
      cases ns with
      | nil => exact h h1
      | cons n ns => simp at h3
  | succ left ih =>
    by_cases h : node = 0
    · left
      exact ⟨[], h, fun _ hn => absurd hn List.not_mem_nil, Nat.zero_le _, by unfold traverse; rw [if_pos h]; rfl⟩
    · by_cases hin : InUsedPart pool.ranges (freeListToPercpu c node)
      · rcases ih (m.readWord c.pg node).toNat with ⟨ns, h1, h2, h3, e⟩ | ⟨⟨w, e⟩, hno⟩
        · left
          refine ⟨node :: ns, ⟨rfl, h, h1⟩, ?_, by rw [List.length_cons]; omega, ?_⟩
          · intro n hn
            rcases List.mem_cons.1 hn with rfl | hn
            · exact hin
            · exact h2 n hn
          · unfold traverse
            rw [if_neg h]
            dsimp only
            rw [if_pos (addrInPool_iff.2 hin), e]
            rfl
        · right
          refine ⟨⟨w, ?_⟩, ?_⟩
          · unfold traverse
            rw [if_neg h]
            dsimp only
            rw [if_pos (addrInPool_iff.2 hin), e]
          · rintro ⟨ns, h1, h2, h3⟩
            cases ns with
            | nil => exact h h1
            | cons n ns =>
              obtain ⟨rfl, _, h1⟩ := h1
              exact hno ⟨ns, h1, fun x hx => h2 x (List.mem_cons_of_mem _ hx), by rw [List.length_cons] at h3; omega⟩
      · right
        refine ⟨⟨.freeListRange, ?_⟩, ?_⟩
        · unfold traverse
          rw [if_neg h]
          dsimp only
          rw [if_neg fun hh => hin (addrInPool_iff.1 hh)]
        · rintro ⟨ns, h1, h2, _⟩
          cases ns with
          | nil => exact h h1
          | cons n ns =>
            obtain ⟨rfl, _, _⟩ := h1
            exact hin (h2 _ List.mem_cons_self)

omit [Abi] in
/-- A list is determined by where it starts. -/
theorem Linked.unique {next : Nat → Nat} {h : Nat} {a b : List Nat} (ha : Linked next h a) (hb : Linked next h b) : a = b := by
  induction a generalizing h b with
  | nil =>
    cases b with
    | nil => rfl
    | cons n b => exact absurd (hb.1.symm.trans ha) hb.2.1
  | cons n a ih =>
    cases b with
    | nil => exact absurd (ha.1.symm.trans hb) ha.2.1
    | cons k b =>
      obtain ⟨rfl, _, ha⟩ := ha
      obtain ⟨rfl, _, hb⟩ := hb
      rw [ih ha hb]

/-- C58: `check_free_list` passes exactly when the free list is intact and nothing is allocated; in every other
state of the memory (list too long, cyclic, leaving the pool, too short) it aborts.  It always terminates. -/
theorem checkFreeList_exact {c : Config} (hv : Valid c) (s : State) (hr : ∀ r ∈ s.pool.ranges, RangeInv c r) :
    (checkFreeList c s = .ok () ∧ ListIntact c s) ∨ ((∃ w, checkFreeList c s = .aborted w) ∧ ¬ ListIntact c s) := by
  have hsplit := sum_split hv hr
  have hsub : (s.pool.ranges.map fun _ => c.stride >>> c.order).sum -
      (s.pool.ranges.map fun r => (c.stride - r.nextUnused) >>> c.order).sum = slotsUsed c s.pool.ranges := by
    unfold slotsUsed; omega
  unfold checkFreeList
  dsimp only
  rw [hsub]
  rcases traverse_cases (c := c) (pool := s.pool) (m := s.mem) (slotsUsed c s.pool.ranges) s.pool.head with
    ⟨ns, h1, h2, h3, e⟩ | ⟨⟨w, e⟩, hno⟩
  · rw [e]
    dsimp only
    by_cases hl : ns.length = slotsUsed c s.pool.ranges
    · left
      refine ⟨if_neg ?_, ns, h1, h2, hl⟩
      unfold slotsUsed at hl
      omega
    · right
      refine ⟨⟨.freeListCount, if_pos ?_⟩, ?_⟩
      · unfold slotsUsed at hl
        omega
      · rintro ⟨ns', h1', _, hl'⟩
        rw [h1'.unique h1] at hl'
        exact hl hl'
  · rw [e]
    right
    refine ⟨⟨w, rfl⟩, ?_⟩
    rintro ⟨ns, h1, h2, h3⟩
    exact hno ⟨ns, h1, h2, by omega⟩

/-- C58: destroying a robust pool whose free list is not intact aborts, whatever happened to the memory. -/
theorem destroy_corrupt_list_aborts {c : Config} (hv : Valid c) (s : State) (hr : ∀ r ∈ s.pool.ranges, RangeInv c r)
    (hrob : c.robust = true) (hacc : mappingsAccessible c s.pool = true) (hmap : s.itemsMapped = true) (ok : Nat → Bool)
    (hbad : ¬ ListIntact c s) : ∃ w, destroy c ok s = .aborted w := by
  rcases checkFreeList_exact hv s hr with ⟨_, h⟩ | ⟨⟨w, e⟩, _⟩
  · exact absurd h hbad
  · refine ⟨w, ?_⟩
    unfold destroy
    dsimp only
    rw [hrob, hacc, hmap, e]
    rfl

/-- C58: a list that runs into a cycle is never intact. -/
theorem cyclic_not_intact {c : Config} {s : State} (nodes : Nat → Nat) (h0 : nodes 0 = s.pool.head)
    (hs : ∀ k, nodes (k + 1) = (s.mem.readWord c.pg (nodes k)).toNat) (hne : ∀ k, nodes k ≠ 0) : ¬ ListIntact c s := by
  rintro ⟨ns, h1, _, _⟩
  have : ∀ (ns : List Nat) k, ¬ Linked (fun n => (s.mem.readWord c.pg n).toNat) (nodes k) ns := by
    intro ns
    induction ns with
    | nil => exact fun k h => hne k h
    | cons n ns ih =>
      rintro k ⟨rfl, _, h⟩
      exact ih (k + 1) (by rw [hs k]; exact h)
  exact this ns 0 (by rw [h0]; exact h1)

/-- C58: destroying a robust pool in any state of the memory either unmaps or aborts for a reason: if it
gets past the checks then the free list is intact and every slot ever handed out shows poison. -/
theorem destroy_passes {c : Config} (hv : Valid c) (s : State) (hr : ∀ r ∈ s.pool.ranges, RangeInv c r)
    (hrob : c.robust = true) (hacc : mappingsAccessible c s.pool = true) (hmap : s.itemsMapped = true) (ok : Nat → Bool)
    {d : DestroyResult} (h : destroy c ok s = .ok d) :
    ListIntact c s ∧ ∀ r ∈ s.pool.ranges, ∀ k, k * c.itemLen < r.nextUnused →
      checkPoisonItem c r (k * c.itemLen) s.mem = true := by
  rcases checkFreeList_exact hv s hr with ⟨e, hi⟩ | ⟨_, hno⟩
  · refine ⟨hi, ?_⟩
    unfold destroy at h
    dsimp only at h
    rw [hrob, hacc, hmap, e] at h
    dsimp only [Bool.and_self, Bool.not_true, if_true] at h
    by_cases hp : checkPoolPoison c s = true
    · intro r hrm k hk
      unfold checkPoolPoison at hp
      have := (List.all_eq_true.1 hp) r hrm
      rw [checkRangePoison_iff] at this
      have h1 := this k (by rw [ceil_div hv (hr r hrm).nud]; exact (lt_div_iff hv (hr r hrm).nud).2 hk)
      rwa [Nat.zero_add] at h1
    · simp only [hp] at h
      cases h
  · obtain ⟨w, e⟩ := destroy_corrupt_list_aborts hv s hr hrob hacc hmap ok hno
    rw [e] at h
    cases h

/-! ### C59 -/

/-- C59: the number of CPUs a created pool reports: refused for global pools (and for NULL), otherwise the number
asked for, or the detected one if none was asked for; always positive. -/
theorem max_nr_cpus_spec (attr : Option Attr) (len : Word) (hlen : len.toNat ≤ 2 ^ (8 * wb - 1)) (pg detected : Nat)
    (callocOk nameOk : Bool) (env : RangeEnv) (m : Mem) {c : Config} {s : State}
    (h : create attr len pg detected callocOk nameOk env m = .pool c s) :
    (getMaxNrCpus (some c) = none ↔ (attr.getD {}).type = .global) ∧
    (∀ n, getMaxNrCpus (some c) = some n → 0 < n ∧
      ((attr.getD {}).maxNrCpus = n ∨ (attr.getD {}).maxNrCpus = 0 ∧ n = detected)) := by
  obtain ⟨k, _, _, hh⟩ := validate_spec attr len hlen pg detected
  unfold create at h
  rcases hh with ⟨e, _⟩ | ⟨hok, c', e, hc⟩
  · rw [e] at h; cases h
  · rw [e] at h
    dsimp only at h
    have hcc : c' = c := by
      split at h
      · cases h
      · split at h
        · cases h
        · split at h
          · cases h; rfl
          · cases h
    subst hcc
    generalize attr.getD {} = a at *
    unfold getMaxNrCpus
    dsimp only
    cases ht : a.type with
    | global =>
      rw [if_pos (hc.global.2 ht)]
      exact ⟨iff_of_true rfl rfl, fun n hn => by cases hn⟩
    | percpu =>
      have hg : ¬ c'.global = true := fun hg => by rw [hc.global.1 hg] at ht; cases ht
      rw [if_neg hg]
      refine ⟨iff_of_false (by simp) (by simp), fun n hn => ?_⟩
      have hn : c'.ncpu = n := Option.some.inj hn
      have hcpu := hc.ncpu
      rw [ht] at hcpu
      dsimp only at hcpu
      have hpos : ¬ (a.maxNrCpus < 0 ∨ (a.maxNrCpus = 0 ∧ detected = 0)) := fun hb => hok (Or.inr (Or.inl ⟨ht, hb⟩))
      split at hcpu
      · rename_i h0
        exact ⟨by omega, Or.inr ⟨h0, by omega⟩⟩
      · exact ⟨by omega, Or.inl (by omega)⟩

/-- NULL is refused. -/
theorem max_nr_cpus_null : getMaxNrCpus none = none := rfl

end Verif.Mempool

namespace Verif.Mempool
open Verif Verif.Mem

attribute [local instance] le64

/-! ### Examples -/

/-- A robust pool with one slot handed out and freed, whose free list node was overwritten with `next`. -/
def exCorrupt (next : Nat) : State :=
  { pool := { ranges := [{ base := 8192, header := 0, init := some 16384, nextUnused := 16, mmapAddr := 0
                           mmapLen := 8192 + rangeLen exRobust, bitmap := some fun _ => 0#64, canary := 1#8 }]
              head := percpuToFreeList exRobust 8192, nrRanges := 1 }
    mem := (Mem.writeWord exRobust.pg ⟨fun _ => 0#8, fun _ => none⟩ (percpuToFreeList exRobust 8192) (BitVec.ofNat _ next)) }

theorem exCorrupt_ranges (next : Nat) : ∀ r ∈ (exCorrupt next).pool.ranges, RangeInv exRobust r := by
  intro r hr
  rcases List.mem_singleton.1 hr with rfl
  exact { al := by decide, pos := by decide, top := by decide, nu := by decide, nud := by decide, init_eq := rfl
          bm := rfl, hdr := rfl, maddr := rfl, mlen := rfl, can := fun _ => rfl }

/-- A node that points to itself: destroy aborts. -/
example (ok : Nat → Bool) : ∃ w, destroy exRobust ok (exCorrupt (percpuToFreeList exRobust 8192)) = .aborted w :=
  destroy_corrupt_list_aborts exRobust_valid _ (exCorrupt_ranges _) rfl rfl rfl ok
    (cyclic_not_intact (fun _ => percpuToFreeList exRobust 8192) rfl
      (fun _ => by decide +kernel) (fun _ => by decide))

/-- The intact list passes. -/
example : ListIntact exRobust (exCorrupt 0) :=
  ⟨[percpuToFreeList exRobust 8192], ⟨rfl, by decide, by show _ = _; decide +kernel⟩,
    fun n hn => by rcases List.mem_singleton.1 hn with rfl; exact ⟨_, List.mem_singleton.2 rfl, by decide, by decide⟩, by decide⟩

/-- A pool for which 6 CPUs were asked, one that relies on detection, and a global one. -/
example : ∃ c s, create (some { maxNrCpus := 6 }) 24#64 4096 0 true true { base := some 1048576 } ⟨fun _ => 0#8, fun _ => none⟩ = .pool c s ∧
    getMaxNrCpus (some c) = some 6 := ⟨_, _, rfl, rfl⟩
example : ∃ c s, create none 24#64 4096 3 true true { base := some 1048576 } ⟨fun _ => 0#8, fun _ => none⟩ = .pool c s ∧
    getMaxNrCpus (some c) = some 3 := ⟨_, _, rfl, rfl⟩
example : ∃ c s, create (some { type := .global }) 24#64 4096 3 true true { base := some 1048576 } ⟨fun _ => 0#8, fun _ => none⟩ = .pool c s ∧
    getMaxNrCpus (some c) = none := ⟨_, _, rfl, rfl⟩

end Verif.Mempool
