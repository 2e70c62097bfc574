import Verif.PoolConcFork
import Verif.PoolConcRace
import Verif.MempoolProps
/-
C111: a pool inherited by the child of a process with any number of threads.
-/
namespace Verif.PoolConc
open Verif Verif.Mem Verif.Mempool MProg

section
variable [Abi]
variable {c : Config} {split : Bool} {s s' s0 s1 : CState}

/-- C111: `fork` has a result at every moment. -/
theorem fork_child_exists (hv : Valid c) (hsafe : FaultSafe c split) (h : CReach c split s) : ∃ s0, Forked s s0 := by
  obtain ⟨L, F, hC⟩ := cinv_of_reach hv hsafe h
  exact ⟨_, hC.forked⟩

/-- C111: if nobody held the pool lock, the threads of the child never abort, whatever they do with the
inherited pool; no item is handed out twice (in particular none that was allocated, or being allocated or freed
by another thread, at the fork) and no two items share a byte. -/
theorem fork_child_sound (hv : Valid c) (hcow : c.cow = false) (h : CReach c split s) (hl : s.lock = none)
    (hf : Forked s s0) {labs : List Lab} (ht : CTrace c split s0 labs s') :
    (∀ t, s'.th t ≠ .dead) ∧ s'.live.Nodup ∧
    ∀ p q, p ∈ s'.live → q ∈ s'.live → ∀ i j o o', i < c.ncpu → j < c.ncpu → o < c.itemLen → o' < c.itemLen →
      cpuAddr c p i + o = cpuAddr c q j + o' → p = q ∧ i = j ∧ o = o' := by
  have hsafe : FaultSafe c split := Or.inr (Or.inl hcow)
  obtain ⟨L, F, hC⟩ := cinv_of_reach hv hsafe h
  obtain ⟨L0, hC0⟩ := hf.cinv hC hl
  obtain ⟨L1, F1, hC1⟩ := hC0.trace hv hsafe ht
  refine ⟨fun t e => ?_, hC1.nodup, fun p q hp hq i j o o' hi hj ho ho' e => ?_⟩
  · have := hC1.prog t
    rw [e] at this
    exact this
  · have hle := ncpu_le_nCols c
    have hsp := hC1.inv.slotL ((hC1.own p).2 (Or.inl hp))
    have hsq := hC1.inv.slotL ((hC1.own q).2 (Or.inl hq))
    unfold cpuAddr at e
    by_cases epq : p = q
    · subst epq
      by_cases eij : i = j
      · subst eij; exact ⟨rfl, rfl, by omega⟩
      · exact absurd e (slot_col_disj hsp eij ho ho')
    · exact absurd e (slot_disj hC1.inv.ranges hsp hsq epq (by omega) (by omega) ho ho')

/-- C111: what an allocation returns in the child is new and has its content. -/
theorem fork_child_content (hv : Valid c) (hcow : c.cow = false) (h : CReach c split s) (hl : s.lock = none)
    (hf : Forked s s0) {labs : List Lab} (ht : CTrace c split s0 labs s1) {t p : Nat} {fill : Fill}
    (hs : CStep c split s1 (.returned t fill p) s') :
    p ∉ s1.live ∧ s'.live = p :: s1.live ∧
    (fill = .zero → ∀ i o, i < c.ncpu → o < c.itemLen → s'.mem.read c.pg (cpuAddr c p i + o) = 0#8) ∧
    (∀ f len, fill = .init f len → ∀ i o, i < c.ncpu → o < len → s'.mem.read c.pg (cpuAddr c p i + o) = f o) := by
  have hsafe : FaultSafe c split := Or.inr (Or.inl hcow)
  obtain ⟨L, F, hC⟩ := cinv_of_reach hv hsafe h
  obtain ⟨L0, hC0⟩ := hf.cinv hC hl
  obtain ⟨L1, F1, hC1⟩ := hC0.trace hv hsafe ht
  exact hC1.content hs

/-- C111: an item that was live in the parent is live in the child until freed there; each of its bytes has the
value it had in the parent at the fork until the child stores to it. -/
theorem fork_child_keeps (hv : Valid c) (hcow : c.cow = false) (h : CReach c split s) (hl : s.lock = none)
    (hf : Forked s s0) {labs : List Lab} (ht : CTrace c split s0 labs s') {p : Nat} (hp : p ∈ s.live)
    (hn : ∀ t, .freeCall t p ∉ labs) :
    p ∈ s'.live ∧ ∀ i o, i < c.ncpu → o < c.itemLen →
      s'.mem.read c.pg (cpuAddr c p i + o) = lastStored p i o labs (s.mem.read c.pg (cpuAddr c p i + o)) := by
  have hsafe : FaultSafe c split := Or.inr (Or.inl hcow)
  obtain ⟨L, F, hC⟩ := cinv_of_reach hv hsafe h
  obtain ⟨L0, hC0⟩ := hf.cinv hC hl
  have := hC0.privateMemory hv hsafe ht ((hf.live p).2 (Or.inl hp)) hn
  rw [hf.mem] at this
  exact this

/-- C111: an item that another thread was allocating or freeing at the fork is lost in the child: no allocation
returns it, unless the child itself frees it (it has no pointer to it). -/
theorem fork_child_lost (hv : Valid c) (hcow : c.cow = false) (h : CReach c split s) (hl : s.lock = none)
    (hf : Forked s s0) {u p : Nat} (hp : WorksOn (s.th u) p) {labs : List Lab} (ht : CTrace c split s0 labs s')
    (hn : ∀ t, .freeCall t p ∉ labs) : ∀ t fill, .returned t fill p ∉ labs := by
  have hsafe : FaultSafe c split := Or.inr (Or.inl hcow)
  obtain ⟨L, F, hC⟩ := cinv_of_reach hv hsafe h
  obtain ⟨L0, hC0⟩ := hf.cinv hC hl
  have hp0 : p ∈ s0.live := (hf.live p).2 (Or.inr ⟨u, hp⟩)
  clear hp hf hC h hl
  induction ht generalizing L0 F with
  | nil s => exact fun _ _ h => by cases h
  | @cons a b d lab labs hs ht ih =>
    obtain ⟨L1, F1, hC1⟩ := hC0.step hv hsafe hs
    have hp1 := (hC0.undisturbed hv hs hp0).1 fun t e => hn t (by rw [e]; exact List.mem_cons_self)
    intro t fill hm
    rcases List.mem_cons.1 hm with e | hm
    · subst e
      exact (hC0.content hs).1 hp0
    · exact ih (fun t e => hn t (List.mem_cons_of_mem _ e)) F1 L1 hC1 hp1 t fill hm

/-- C111, exactness: if the lock was held, no allocation of the child ever returns and the pool never changes. -/
theorem fork_child_stuck {t : Nat} (hl : s.lock = some t) (hf : Forked s s0) {labs : List Lab}
    (ht : CTrace c split s0 labs s') : (∀ u fill p, .returned u fill p ∉ labs) ∧ s'.pool = s.pool := by
  have hs0 : Stuck s0 t := ⟨by rw [hf.lock, hl], fun u => by rw [hf.th]; trivial⟩
  have hpool : s0.pool = s.pool := hf.pool
  clear hf hl
  induction ht with
  | nil => exact ⟨fun _ _ _ h => (by cases h), hpool⟩
  | cons hs _ ih =>
    obtain ⟨h1, hlab, hp⟩ := hs0.step hs
    obtain ⟨a, b⟩ := ih h1 (hp.trans hpool)
    refine ⟨fun u fill p hm => ?_, b⟩
    rcases List.mem_cons.1 hm with e | hm
    · exact hlab u fill p e.symm
    · exact a u fill p hm

/-- C111, destroy: with the lock free and no munmap failing, a child that destroys the inherited pool succeeds
exactly if the pool is not robust, or nothing was allocated at the fork and no other thread was between an
allocation and its return or inside `free`.  Otherwise it aborts.  (With the lock held the pool may be in the middle
of a change that the machine shows at the unlock only; the theorem is not meant for that.) -/
theorem fork_child_destroy (hv : Valid c) (hsafe : FaultSafe c split) (h : CReach c split s) (_hl : s.lock = none) :
    ((∃ r, destroy c (fun _ => true) (forkChild c { pool := s.pool, mem := s.mem }) = .ok r) ↔
      c.robust = false ∨ (s.live = [] ∧ ∀ t p, ¬ WorksOn (s.th t) p)) ∧
    ((¬ ∃ r, destroy c (fun _ => true) (forkChild c { pool := s.pool, mem := s.mem }) = .ok r) →
      ∃ w, destroy c (fun _ => true) (forkChild c { pool := s.pool, mem := s.mem }) = .aborted w) := by
  obtain ⟨L, F, hC⟩ := cinv_of_reach hv hsafe h
  have hi := hC.inv
  have hL : (s.live = [] ∧ ∀ t p, ¬ WorksOn (s.th t) p) ↔ L = [] := by
    constructor
    · rintro ⟨h1, h2⟩
      refine List.eq_nil_iff_forall_not_mem.2 fun p hp => ?_
      rcases (hC.own p).1 hp with h | ⟨t, h⟩
      · rw [h1] at h; cases h
      · exact h2 t p (worksOn_iff.2 h)
    · intro e
      refine ⟨List.eq_nil_iff_forall_not_mem.2 fun p hp => ?_, fun t p hp => ?_⟩
      · have := (hC.own p).2 (Or.inl hp)
        rw [e] at this; cases this
      · have := (hC.own p).2 (Or.inr ⟨t, worksOn_iff.1 hp⟩)
        rw [e] at this; cases this
  rw [hL]
  have hgood : c.robust = false ∨ L = [] → ∀ r ∈ s.pool.ranges, leaked c r = false := by
    rintro (hr | rfl)
    · exact not_leaked_nonrobust hi hr
    · exact not_leaked hi
  have main : (c.robust = false ∨ L = [] → ∃ r, destroy c (fun _ => true) (forkChild c { pool := s.pool, mem := s.mem }) = .ok r) ∧
      (¬ (c.robust = false ∨ L = []) → ∃ w, destroy c (fun _ => true) (forkChild c { pool := s.pool, mem := s.mem }) = .aborted w) := by
    cases hcow : c.cow with
    | false =>
      have e : forkChild c { pool := s.pool, mem := s.mem } = { pool := s.pool, mem := s.mem } := by
        unfold forkChild; rw [hcow]; rfl
      rw [e, destroy_spec hv hi]
      constructor
      · intro hg
        have h1 : ¬ (c.robust = true ∧ L ≠ []) := by
          rintro ⟨a, b⟩
          rcases hg with hg | hg
          · rw [hg] at a; cases a
          · exact b hg
        rw [if_neg h1]
        have h2 : ¬ (c.robust = true ∧ checkPoolPoison c { pool := s.pool, mem := s.mem } = false) := by
          rintro ⟨a, b⟩
          have hg' : L = [] := hg.resolve_left fun e => by rw [e] at a; cases a
          cases hpv : c.poison with
          | none => have := hv.robust_poison a; rw [hpv] at this; cases this
          | some v =>
            have : checkPoolPoison c { pool := s.pool, mem := s.mem } = true := by
              rw [checkPoolPoison_iff hv hi a hpv]
              rintro p (hp | hp)
              · rw [hg'] at hp; cases hp
              · exact hi.poison rfl v hpv p hp
            rw [this] at b; cases b
        rw [if_neg h2]
        exact ⟨_, destroyLoop_ok (fun _ => rfl) (hgood hg)⟩
      · intro hg
        refine ⟨.freeListCount, if_pos ⟨?_, fun e => hg (Or.inr e)⟩⟩
        cases hr : c.robust with
        | true => rfl
        | false => exact absurd (Or.inl hr) hg
    | true =>
      have hacc : mappingsAccessible c (forkChild c { pool := s.pool, mem := s.mem }).pool = false := by
        unfold forkChild
        rw [if_pos hcow]
        cases hl : s.pool.ranges with
        | nil => exact absurd hl (conc_ranges hv hsafe h)
        | cons a l => simp [mappingsAccessible, hcow]
      have e : destroy c (fun _ => true) (forkChild c { pool := s.pool, mem := s.mem }) =
          destroyLoop c false (fun _ => true) (s.pool.ranges.map fun r => { r with canary := 0#8 }) 0 [] := by
        unfold destroy
        dsimp only
        rw [hacc]
        simp only [Bool.and_false, Bool.false_eq_true, if_false]
        unfold forkChild
        rw [if_pos hcow]
      rw [e]
      constructor
      · intro hg
        refine ⟨_, destroyLoop_ok (fun _ => rfl) fun r hr => ?_⟩
        obtain ⟨r', hr', rfl⟩ := List.mem_map.1 hr
        exact hgood hg r' hr'
      · intro hg
        have hr : c.robust = true := by
          cases hr : c.robust with
          | true => rfl
          | false => exact absurd (Or.inl hr) hg
        obtain ⟨p, hp⟩ := List.exists_mem_of_ne_nil L fun e => hg (Or.inr e)
        obtain ⟨r, hr', hleak⟩ := leaked_of_live hv hi hr hp
        exact ⟨.leak, destroyLoop_leak ⟨_, List.mem_map.2 ⟨r, hr', rfl⟩, hleak⟩ 0 []⟩
  refine ⟨⟨fun ⟨r, hr⟩ => ?_, main.1⟩, fun hn => ?_⟩
  · by_cases hg : c.robust = false ∨ L = []
    · exact hg
    · obtain ⟨w, hw⟩ := main.2 hg
      rw [hr] at hw; cases hw
  · by_cases hg : c.robust = false ∨ L = []
    · exact absurd (main.1 hg) hn
    · exact main.2 hg

/-- A thread allocates (without initialisation) from a calm pool: the schedule. -/
theorem calm_trace (hv : Valid c) (hsafe : FaultSafe c split) {L F : List Nat} (hC : CInv c s L F) {n : Nat} (hc : Calm c n s)
    (hroom : n + c.itemLen ≤ c.stride) (t : Nat) :
    ∃ s1 s2 p, CTrace c split s [.tau, .tau, .tau] s1 ∧ CStep c split s1 (.returned t (.plain c.itemLen) p) s2 := by
  obtain ⟨r, l, hr, hnu⟩ := hc.room
  have h1 : CStep c split s _ _ := CStep.alloc t (.plain c.itemLen) (hc.idle t) (hc.pend t) (Nat.le_refl _)
  obtain ⟨L1, F1, hC1⟩ := hC.step hv hsafe h1
  have hP : lockedP c s.pool = .ret (.take { r with nextUnused := r.nextUnused + c.itemLen } r.nextUnused (r.base + r.nextUnused)
      { s.pool with ranges := putRange s.pool.ranges { r with nextUnused := r.nextUnused + c.itemLen } }) := by
    unfold lockedP
    rw [if_neg (not_not_intro hc.head), hr]
    dsimp only
    rw [if_neg (by omega)]
  have h2 := CStep.lockAlloc (c := c) (split := split) (s := { s with th := upd s.th t (.wantAlloc (.plain c.itemLen)) }) t
    (.plain c.itemLen) (upd_self ..) hc.lock
  obtain ⟨L2, F2, hC2⟩ := hC1.step hv hsafe h2
  dsimp only at h2 hC2
  rw [hP] at h2 hC2
  cases hk : takeSlot c { pool := { s.pool with ranges := putRange s.pool.ranges { r with nextUnused := r.nextUnused + c.itemLen } }, mem := s.mem }
      { r with nextUnused := r.nextUnused + c.itemLen } r.nextUnused (r.base + r.nextUnused) with
  | ub => unfold takeSlot at hk; split at hk <;> cases hk
  | aborted w =>
    obtain ⟨L3, F3, hC3⟩ := hC2.step hv hsafe (CStep.takeAbort t (.plain c.itemLen) _ _ _ _ w (upd_self ..) hk)
    have := hC3.prog t
    dsimp only at this
    rw [upd_self] at this
    exact this.elim
  | ok x =>
    obtain ⟨ch, s3⟩ := x
    cases ch with
    | null e => unfold takeSlot at hk; split at hk <;> cases hk
    | item r' off' p =>
      have h3 := CStep.take (c := c) (split := split) (s := { s with
        lock := some t
        th := upd (upd s.th t (.wantAlloc (.plain c.itemLen))) t (.inAlloc (.plain c.itemLen) (.ret (.take
          { r with nextUnused := r.nextUnused + c.itemLen } r.nextUnused (r.base + r.nextUnused)
          { s.pool with ranges := putRange s.pool.ranges { r with nextUnused := r.nextUnused + c.itemLen } }))) })
        t (.plain c.itemLen) _ _ _ _ r' off' p s3 (upd_self ..) hk
      exact ⟨_, _, p, .cons h1 (.cons h2 (.cons h3 (.nil _))), CStep.returned t (.plain c.itemLen) p (upd_self ..) (hc.pend t)⟩

end

/-! ### A process that forks while another thread is about to return an item -/

attribute [local instance] le64

def forkC : Config :=
  { pg := 4096, order := 3, stride := 4096, ncpu := 1, cow := false, robust := true, poison := some 0x5555555555555555#64
    maxRanges := 1, initSet := false, global := false }

theorem forkC_valid : Valid forkC :=
  ⟨by decide, by decide, ⟨12, by decide⟩, ⟨12, by decide⟩, by decide, by decide, fun _ => rfl, fun h => by cases h⟩

theorem fork_init : ∃ s, CReach forkC true s ∧ Calm forkC 0 s ∧ s.live = [] := by
  have hrc : ∃ r m, (rangeCreate forkC ⟨[], 0, 0⟩ raceMem { base := some 16384 }).2 = some (r, m) ∧ r.nextUnused = 0 := ⟨_, _, rfl, rfl⟩
  obtain ⟨r, m, hrc, hnu⟩ := hrc
  refine ⟨_, CReach.create raceMem { base := some 16384 } r m (fun _ _ h => by cases h) ⟨fun b e => ?_, fun _ _ _ h => by cases h⟩ hrc,
    ⟨fun _ => rfl, fun _ => rfl, rfl, rfl, r, [], rfl, hnu⟩, rfl⟩
  cases e
  exact ⟨by decide, by decide, by decide, fun r hr => (by cases hr), fun x hx => hx⟩

/-- Thread 5 owns `q`; thread 9's `zmalloc` is about to return `p` when thread 7 forks; then thread 3 of the
child allocates. -/
theorem ex_fork : ∃ s s0 s1 s2 p q r, CReach forkC true s ∧ s.lock = none ∧ q ∈ s.live ∧ WorksOn (s.th 9) p ∧ s.th 7 = .idle ∧
    Forked s s0 ∧ CTrace forkC true s0 [.tau, .tau, .tau] s1 ∧ CStep forkC true s1 (.returned 3 (.plain 8) r) s2 := by
  have hsafe : FaultSafe forkC true := Or.inr (Or.inl rfl)
  obtain ⟨s, h, hc, _⟩ := fork_init
  obtain ⟨s1, s2, q, h1, hs1, _, hc2⟩ := calm_alloc forkC_valid hsafe h hc (by decide) 5 .zero (by decide)
  have hq : q ∈ s2.live := by cases hs1; exact List.mem_cons_self
  obtain ⟨s3, s4, p, h3, hs3, hl3, hc4⟩ := calm_alloc forkC_valid hsafe (CReach.step h1 hs1) hc2 (by decide) 9 .zero (by decide)
  obtain ⟨L, F, hC⟩ := cinv_of_reach forkC_valid hsafe h3
  have hf := hC.forked
  cases hs3 with
  | returned _ _ _ ht hp =>
    have hlock : s3.lock = none := hc4.lock
    obtain ⟨L0, hC0⟩ := hf.cinv hC hlock
    have hcalm : Calm forkC (0 + forkC.itemLen + forkC.itemLen) { s3 with th := fun _ => .idle, pend := fun _ => none, live := L } :=
      ⟨fun _ => rfl, fun _ => rfl, hlock, hc4.head, hc4.room⟩
    obtain ⟨a, b, r, hab, hb⟩ := calm_trace forkC_valid hsafe hC0 hcalm (by decide) 3
    refine ⟨s3, _, a, b, p, q, r, h3, hlock, by rw [hl3]; exact hq, Or.inl ⟨_, _, ht⟩, ?_, hf, hab, hb⟩
    have := hc4.idle 7
    dsimp only at this
    rw [upd_ne _ (by decide)] at this
    exact this

/-- The hypotheses of `fork_child_sound`, `fork_child_content`, `fork_child_keeps` and `fork_child_lost` hold together. -/
example : ∃ s s0 s1 p q, CReach forkC true s ∧ s.lock = none ∧ Forked s s0 ∧ CTrace forkC true s0 [.tau, .tau, .tau] s1 ∧
    q ∈ s1.live ∧ p ≠ q ∧ WorksOn (s.th 9) p ∧ ∀ t, s1.th t ≠ .dead := by
  obtain ⟨s, s0, s1, s2, p, q, r, h, hl, hq, hw, _, hf, ht, _⟩ := ex_fork
  refine ⟨s, s0, s1, p, q, h, hl, hf, ht, ?_, ?_, hw, (fork_child_sound forkC_valid rfl h hl hf ht).1⟩
  · exact (fork_child_keeps forkC_valid rfl h hl hf ht hq fun t => by simp).1
  · rintro rfl
    obtain ⟨L, F, hC⟩ := cinv_of_reach forkC_valid (Or.inr (Or.inl rfl)) h
    exact hC.apart 9 _ (worksOn_iff.1 hw) hq

/-- The item the child gets is neither the one in use nor the one that was about to be returned. -/
example : ∃ s s0 s1 s2 p q r, CReach forkC true s ∧ q ∈ s.live ∧ WorksOn (s.th 9) p ∧ Forked s s0 ∧
    CTrace forkC true s0 [.tau, .tau, .tau] s1 ∧ CStep forkC true s1 (.returned 3 (.plain 8) r) s2 ∧ r ≠ p ∧ r ≠ q := by
  obtain ⟨s, s0, s1, s2, p, q, r, h, hl, hq, hw, _, hf, ht, hs⟩ := ex_fork
  have snoc : ∀ {a b d : CState} {l : List Lab} {x : Lab}, CTrace forkC true a l b → CStep forkC true b x d →
      CTrace forkC true a (l ++ [x]) d := by
    intro a b d l x h1 h2
    induction h1 with
    | nil => exact .cons h2 (.nil _)
    | cons hs _ ih => exact .cons hs (ih h2)
  refine ⟨s, s0, s1, s2, p, q, r, h, hq, hw, hf, ht, hs, fun e => ?_, fun e => ?_⟩
  · exact fork_child_lost forkC_valid rfl h hl hf hw (snoc ht hs) (fun t => by simp) 3 (.plain 8) (by simp [e])
  · have := (fork_child_keeps forkC_valid rfl h hl hf ht hq fun t => by simp).1
    exact (fork_child_content forkC_valid rfl h hl hf ht hs).1 (e ▸ this)

/-- Destroying the pool in that child aborts; it succeeds in the child of the process that has just created it. -/
example : (∃ s w, CReach forkC true s ∧ s.lock = none ∧
      destroy forkC (fun _ => true) (forkChild forkC { pool := s.pool, mem := s.mem }) = .aborted w) ∧
    ∃ s r, CReach forkC true s ∧ destroy forkC (fun _ => true) (forkChild forkC { pool := s.pool, mem := s.mem }) = .ok r := by
  have hsafe : FaultSafe forkC true := Or.inr (Or.inl rfl)
  constructor
  · obtain ⟨s, _, _, _, p, q, _, h, hl, hq, hw, _⟩ := ex_fork
    obtain ⟨h1, h2⟩ := fork_child_destroy forkC_valid hsafe h hl
    obtain ⟨w, hw'⟩ := h2 fun hr => by
      rcases h1.1 hr with e | ⟨e, _⟩
      · cases e
      · rw [e] at hq; cases hq
    exact ⟨s, w, h, hl, hw'⟩
  · obtain ⟨s, h, hc, hl⟩ := fork_init
    obtain ⟨r, hr⟩ := (fork_child_destroy forkC_valid hsafe h hc.lock).1.2 (Or.inr ⟨hl, fun t p hw => by
      have := worksOn_iff.1 hw
      rw [hc.idle] at this
      exact this⟩)
    exact ⟨s, r, h, hr⟩

/-- A process that forks while thread 9 holds the lock. -/
example : ∃ s s0 s1 labs, CReach forkC true s ∧ s.lock = some 9 ∧ Forked s s0 ∧ CTrace forkC true s0 labs s1 ∧ labs ≠ [] ∧
    s1.pool = s.pool := by
  have hsafe : FaultSafe forkC true := Or.inr (Or.inl rfl)
  obtain ⟨s, h, hc, _⟩ := fork_init
  have h1 := CReach.step h (CStep.alloc 9 .zero (hc.idle 9) (hc.pend 9) (by decide))
  have h2 := CReach.step h1 (CStep.lockAlloc 9 .zero (upd_self s.th 9 _) hc.lock)
  obtain ⟨s0, hf⟩ := fork_child_exists forkC_valid hsafe h2
  have ht : CTrace forkC true s0 [.tau] _ := .cons (.alloc 3 .zero (hf.th 3) (hf.pend 3) (by decide)) (.nil _)
  exact ⟨_, s0, _, _, h2, rfl, hf, ht, by simp, (fork_child_stuck rfl hf ht).2⟩

end Verif.PoolConc
