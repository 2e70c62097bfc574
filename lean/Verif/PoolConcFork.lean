import Verif.PoolConcProps
/-
The child of a fork, on the machine of C27.

`fork()` copies the memory of the process and the thread that calls it; the other threads do not exist in
the child.  The pool structure, the ranges and (for pools that are not COW_INIT: `rseq-mempool.c`:804-816 is
for COW_INIT only) the items are private anonymous mappings and heap memory, so the child has its own copy.
The pool lock (`rseq-mempool.c`:172) is copied as it is: there are no `pthread_atfork` handlers (F51).

Simplifications: `fork` happens between two steps of the machine; structure changes become visible when the
lock is released, which makes no difference here, as the lock is not held in the positive theorems and the
child never gets it in the negative one.  The child may start threads: thread numbers are arbitrary.
-/
namespace Verif.PoolConc
open Verif Verif.Mem Verif.Mempool MProg

variable [Abi]

/-- A thread is about to return item `p` from an allocation, or has called `free` on it and not returned. -/
def WorksOn (st : TSt) (p : Nat) : Prop :=
  (∃ fill k, st = .filling fill p k) ∨ st = .wantFree p ∨ ∃ pool k, st = .inFree p pool k

/-- `s'` is the child of a process in state `s`.  The child may take every allocated item for its own: those
of clients, and those other threads were working on. -/
structure Forked (s s' : CState) : Prop where
  mem : s'.mem = s.mem
  pool : s'.pool = s.pool
  lock : s'.lock = s.lock
  th : ∀ t, s'.th t = .idle
  pend : ∀ t, s'.pend t = none
  nodup : s'.live.Nodup
  live : ∀ p, p ∈ s'.live ↔ p ∈ s.live ∨ ∃ t, WorksOn (s.th t) p

theorem worksOn_iff {st : TSt} {p : Nat} : WorksOn st p ↔ Holder st p := by
  cases st with
  | filling fill q k =>
    exact ⟨fun h => by rcases h with ⟨_, _, e⟩ | e | ⟨_, _, e⟩ <;> cases e <;> rfl, fun h => by cases h; exact Or.inl ⟨_, _, rfl⟩⟩
  | wantFree q =>
    exact ⟨fun h => by rcases h with ⟨_, _, e⟩ | e | ⟨_, _, e⟩ <;> cases e <;> rfl, fun h => by cases h; exact Or.inr (Or.inl rfl)⟩
  | inFree q pool k =>
    exact ⟨fun h => by rcases h with ⟨_, _, e⟩ | e | ⟨_, _, e⟩ <;> cases e <;> rfl,
      fun h => by cases h; exact Or.inr (Or.inr ⟨_, _, rfl⟩)⟩
  | _ => exact ⟨fun h => (by rcases h with ⟨_, _, e⟩ | e | ⟨_, _, e⟩ <;> cases e), fun h => False.elim h⟩

variable {c : Config} {split : Bool} {s s' s0 : CState} {L F : List Nat}

/-- The items of the child are those of the allocator invariant. -/
theorem Forked.mem_live (hf : Forked s s0) (hC : CInv c s L F) (p : Nat) : p ∈ s0.live ↔ p ∈ L := by
  rw [hf.live, hC.own]
  exact or_congr Iff.rfl (exists_congr fun t => worksOn_iff)

/-- Some child exists. -/
theorem CInv.forked (hC : CInv c s L F) :
    Forked s { s with th := fun _ => .idle, pend := fun _ => none, live := L } :=
  { mem := rfl, pool := rfl, lock := rfl, th := fun _ => rfl, pend := fun _ => rfl
    nodup := (List.nodup_append.1 hC.inv.nodup).1
    live := fun p => by
      show p ∈ L ↔ _
      rw [hC.own]
      exact or_congr Iff.rfl (exists_congr fun t => worksOn_iff.symm) }

omit [Abi] in
theorem used_congr {P : Nat → Prop} {A B : List Nat} (h : ∀ p, p ∈ A ↔ p ∈ B) (F : List Nat)
    (hu : ∀ p, P p ↔ p ∈ A ∨ p ∈ F) (p : Nat) : P p ↔ p ∈ B ∨ p ∈ F := by
  rw [hu, h]

/-- The child starts with the invariant, if the lock was free. -/
theorem Forked.cinv (hf : Forked s s0) (hC : CInv c s L F) (hl : s.lock = none) : ∃ L', CInv c s0 L' F := by
  have hm := hf.mem_live hC
  have hi : Inv c false { pool := s0.pool, mem := s0.mem } L F := by rw [hf.pool, hf.mem]; exact hC.inv
  refine ⟨L, hi, fun p => ?_, hf.nodup, fun t u p h => ?_, fun t p h => ?_, fun t => ?_, fun t => ?_, fun t d h => ?_⟩
  · rw [hm]
    refine ⟨Or.inl, ?_⟩
    rintro (h | ⟨t, h⟩)
    · exact h
    · rw [hf.th] at h; exact h.elim
  · rw [hf.th] at h; exact h.elim
  · rw [hf.th] at h; exact h.elim
  · rw [hf.th, hf.lock, hl]
    exact iff_of_false id (fun h => by cases h)
  · rw [hf.th]; trivial
  · rw [hf.pend] at h; cases h

theorem CInv.trace (hv : Valid c) (hsafe : FaultSafe c split) (hC : CInv c s L F) {labs : List Lab}
    (ht : CTrace c split s labs s') : ∃ L' F', CInv c s' L' F' := by
  induction ht generalizing L F with
  | nil s => exact ⟨L, F, hC⟩
  | cons hs _ ih =>
    obtain ⟨L1, F1, h1⟩ := hC.step hv hsafe hs
    exact ih h1

/-- A pool in use has a range. -/
theorem conc_ranges (hv : Valid c) (hsafe : FaultSafe c split) (h : CReach c split s) : s.pool.ranges ≠ [] := by
  induction h with
  | create => exact fun e => by cases e
  | @step s s' l h hs ih =>
    obtain ⟨L, F, hC⟩ := cinv_of_reach hv hsafe (CReach.step h hs)
    obtain ⟨L0, F0, hC0⟩ := cinv_of_reach hv hsafe h
    have key : ∀ t p, Holder (s'.th t) p → s'.pool.ranges ≠ [] := by
      intro t p hp e
      obtain ⟨r, hr, _⟩ := (hC.inv.used p).2 (Or.inl ((hC.own p).2 (Or.inr ⟨t, hp⟩)))
      dsimp only at hr
      rw [e] at hr
      cases hr
    cases hs with
    | take t fill r off addr pool' r' off' p s1 ht hk => exact key t p (by dsimp only; rw [upd_self]; rfl)
    | create t fill env r m r' off' p s1 ht henv hc hk => exact key t p (by dsimp only; rw [upd_self]; rfl)
    | unlockFree t p pool' ht hp =>
      have := hC0.prog t
      rw [ht] at this
      obtain ⟨⟨r, r', hr, _, e⟩, _⟩ := this
      subst e
      intro e
      have hlen := length_putRange s.pool.ranges r'
      dsimp only at e
      rw [e] at hlen
      exact ih (List.length_eq_zero_iff.1 hlen.symm)
    | _ => exact ih

/-- Threads of the child of a process whose pool lock was held: none of them gets it. -/
def Outside : TSt → Prop
  | .idle | .wantAlloc _ | .wantFree _ => True
  | _ => False

structure Stuck (s : CState) (t : Nat) : Prop where
  lock : s.lock = some t
  out : ∀ u, Outside (s.th u)

theorem Stuck.upd' {th : Nat → TSt} (h : ∀ u, Outside (th u)) {t : Nat} {st : TSt} (hst : Outside st) (u : Nat) :
    Outside (upd th t st u) := by
  by_cases e : u = t
  · subst e; rw [upd_self]; exact hst
  · rw [upd_ne _ e]; exact h u

theorem Stuck.step {t : Nat} (h : Stuck s t) {lab : Lab} (hs : CStep c split s lab s') :
    Stuck s' t ∧ (∀ u fill p, lab ≠ .returned u fill p) ∧ s'.pool = s.pool := by
  have no : ∀ {u st}, s.th u = st → ¬ Outside st → False := fun e hn => hn (e ▸ h.out _)
  have nl : s.lock = none → False := fun e => by have := h.lock; rw [e] at this; cases this
  cases hs with
  | alloc u fill hu hp hl => exact ⟨⟨h.lock, Stuck.upd' h.out trivial⟩, fun _ _ _ => Lab.noConfusion, rfl⟩
  | free u p hu hp hl hn => exact ⟨⟨h.lock, Stuck.upd' h.out trivial⟩, fun _ _ _ => Lab.noConfusion, rfl⟩
  | lockAlloc u fill hu hl => exact (nl hl).elim
  | lockFree u p r r' hu hp hl => exact (nl hl).elim
  | freeAbort u p hu hp hl => exact (nl hl).elim
  | readAlloc u fill x k hu => exact (no hu id).elim
  | take u fill r off addr pool' r' off' p s1 hu => exact (no hu id).elim
  | takeAbort u fill r off addr pool' w hu => exact (no hu id).elim
  | create u fill env r m r' off' p s1 hu => exact (no hu id).elim
  | createAbort u fill env r m w hu => exact (no hu id).elim
  | createNull u fill env hu => exact (no hu id).elim
  | allocAbort u fill hu => exact (hu.elim (fun e => no e id) (fun e => no e id)).elim
  | readFill u fill p x k hu => exact (no hu id).elim
  | writeFill u fill p x b k hu => exact (no hu id).elim
  | returned u fill p hu => exact (no hu id).elim
  | readFree u p pool' x k hu => exact (no hu id).elim
  | writeFree u p pool' x b k hu => exact (no hu id).elim
  | unlockFree u p pool' hu => exact (no hu id).elim
  | _ => exact ⟨⟨h.lock, h.out⟩, fun _ _ _ => Lab.noConfusion, rfl⟩

end Verif.PoolConc
