import Verif.CowTest
/-
Invariant of tests/mempool_cow_race_test.c (C92).
-/
namespace Verif.CowTest
open Verif Verif.Mem Verif.Mempool Verif.PoolConc MProg

variable [Abi]

variable {c : Config} {split : Bool} {f : Nat → Byte} {len : Nat} {v : Byte} {s s' : CState}

/-- Inside an allocation with this fill, or finished. -/
def AllocSt (fill : Fill) : TSt → Prop
  | .wantAlloc g => g = fill
  | .inAlloc g _ => g = fill
  | .filling g _ _ => g = fill
  | .idle => True
  | .dead => True
  | _ => False

/-- Inside a free, or finished. -/
def FreeSt : TSt → Prop
  | .wantFree _ => True
  | .inFree _ _ _ => True
  | .idle => True
  | .dead => True
  | _ => False

/-- What a step that begins nothing does to the state of the init thread. -/
structure Kept (s s' : CState) : Prop where
  live : s'.live = s.live
  others : ∀ u, u ≠ 0 → s'.th u = .idle
  alloc : ∀ fill, AllocSt fill (s.th 0) → AllocSt fill (s'.th 0)
  free : FreeSt (s.th 0) → FreeSt (s'.th 0)
  idle : s.th 0 = .idle → s'.th 0 = .idle
  pend1 : ∀ u d, u ≠ 0 → s'.pend u = some d → s.pend u = some d
  pend0 : (s.th 0 = .idle → s.pend 0 = none) → s'.th 0 = .idle → s'.pend 0 = none

theorem pend_inAlloc (hv : Valid c) (h : CReach c split s) {t : Nat} {fill : Fill} {k : MProg Found}
    (ht : s.th t = .inAlloc fill k) : s.pend t = none := by
  have := reach_left hv h t
  rw [ht] at this
  exact this.2.1

theorem kept_of_quiet (hv : Valid c) (h : CReach c split s) (hoth : ∀ u, u ≠ 0 → s.th u = .idle)
    (hs : CStep c split s .tau s') (hq : Quiet s s') : Kept s s' := by
  -- the actor of a step that begins nothing is thread 0
  have act : ∀ {u : Nat} {st : TSt}, s.th u = st → st ≠ .idle → u = 0 := by
    intro u st e hne
    exact Classical.byContradiction fun hu => hne (e.symm.trans (hoth u hu))
  have mk : ∀ (u : Nat) (st st' : TSt) (lk : Option Nat) (m : Mem) (pool : Pool), s.th u = st → st ≠ .idle →
      (∀ fill, AllocSt fill st → AllocSt fill st') → (FreeSt st → FreeSt st') →
      (st' = .idle → s.pend u = none) →
      Kept s { s with mem := m, pool := pool, lock := lk, th := upd s.th u st' } := by
    intro u st st' lk m pool e hne ha hf hp
    have e0 := act e hne
    subst e0
    refine ⟨rfl, fun w hw => ?_, fun fill h1 => ?_, fun h1 => ?_, fun h1 => ?_, fun w d _ h1 => h1, fun _ h1 => ?_⟩
    · show upd s.th 0 st' w = _
      rw [upd_ne _ hw]; exact hoth w hw
    · show AllocSt fill (upd s.th 0 st' 0)
      rw [upd_self]; exact ha fill (e ▸ h1)
    · show FreeSt (upd s.th 0 st' 0)
      rw [upd_self]; exact hf (e ▸ h1)
    · exact absurd (e.symm.trans h1) hne
    · have h1 : upd s.th 0 st' 0 = .idle := h1
      rw [upd_self] at h1
      exact hp h1
  have same : ∀ (m : Mem) (pd : Nat → Option Pend), (∀ u d, u ≠ 0 → pd u = some d → s.pend u = some d) →
      ((s.th 0 = .idle → s.pend 0 = none) → s.th 0 = .idle → pd 0 = none) → Kept s { s with mem := m, pend := pd } :=
    fun m pd h1 h2 => ⟨rfl, hoth, fun _ => id, id, id, h1, h2⟩
  cases hs with
  | alloc u fill hu hp hl =>
    have := (hq u hu).1
    have this : upd s.th u (.wantAlloc fill) u = .idle := this
    rw [upd_self] at this
    cases this
  | lockAlloc u fill hu hl => exact mk u _ _ _ _ _ hu (by simp) (fun _ => id) (fun h => h.elim) (fun h => by cases h)
  | readAlloc u fill x k hu => exact mk u _ _ _ _ _ hu (by simp) (fun _ => id) (fun h => h.elim) (fun h => by cases h)
  | take u fill r off addr pool' r' off' p s1 hu ht => exact mk u _ _ _ _ _ hu (by simp) (fun _ => id) (fun h => h.elim) (fun h => by cases h)
  | takeAbort u fill r off addr pool' w hu ht => exact mk u _ _ _ _ _ hu (by simp) (fun _ _ => trivial) (fun _ => trivial) (fun h => by cases h)
  | create u fill env r m r' off' p s1 hu => exact mk u _ _ _ _ _ hu (by simp) (fun _ => id) (fun h => h.elim) (fun h => by cases h)
  | createAbort u fill env r m w hu => exact mk u _ _ _ _ _ hu (by simp) (fun _ _ => trivial) (fun _ => trivial) (fun h => by cases h)
  | createNull u fill env hu => exact mk u _ _ _ _ _ hu (by simp) (fun _ _ => trivial) (fun _ => trivial) (fun _ => pend_inAlloc hv h hu)
  | allocAbort u fill hu =>
    rcases hu with hu | hu
    · exact mk u _ _ _ _ _ hu (by simp) (fun _ _ => trivial) (fun _ => trivial) (fun h => by cases h)
    · exact mk u _ _ _ _ _ hu (by simp) (fun _ _ => trivial) (fun _ => trivial) (fun h => by cases h)
  | readFill u fill p x k hu => exact mk u _ _ _ _ _ hu (by simp) (fun _ => id) (fun h => h.elim) (fun h => by cases h)
  | writeFill u fill p x b k hu => exact mk u _ _ _ _ _ hu (by simp) (fun _ => id) (fun h => h.elim) (fun h => by cases h)
  | lockFree u p r r' hu => exact mk u _ _ _ _ _ hu (by simp) (fun _ h => h.elim) (fun _ => trivial) (fun h => by cases h)
  | freeAbort u p hu => exact mk u _ _ _ _ _ hu (by simp) (fun _ _ => trivial) (fun _ => trivial) (fun h => by cases h)
  | readFree u p pool' x k hu => exact mk u _ _ _ _ _ hu (by simp) (fun _ h => h.elim) (fun _ => trivial) (fun h => by cases h)
  | writeFree u p pool' x b k hu => exact mk u _ _ _ _ _ hu (by simp) (fun _ h => h.elim) (fun _ => trivial) (fun h => by cases h)
  | unlockFree u p pool' hu hp => exact mk u _ _ _ _ _ hu (by simp) (fun _ h => h.elim) (fun _ => trivial) (fun _ => hp)
  | snapStore u p cpu o q hu hp hl hcpu ho hsp hx =>
    have := (hq u hu).2 hp
    have this : upd s.pend u _ u = none := this
    rw [upd_self] at this
    cases this
  | snapFill u fill p x b k q hu hp hsp hx =>
    have e0 := act hu (by simp)
    subst e0
    refine same _ _ (fun w d hw h1 => ?_) fun _ h1 => ?_
    · rw [upd_ne _ hw] at h1; exact h1
    · rw [hu] at h1; cases h1
  | snapFree u p pool' x b k q hu hp hsp hx =>
    have e0 := act hu (by simp)
    subst e0
    refine same _ _ (fun w d hw h1 => ?_) fun _ h1 => ?_
    · rw [upd_ne _ hw] at h1; exact h1
    · rw [hu] at h1; cases h1
  | install u d hd =>
    refine same _ _ (fun w d' hw h1 => ?_) fun h0 h1 => ?_
    · by_cases e : w = u
      · subst e; rw [upd_self] at h1; cases h1
      · rw [upd_ne _ e] at h1; exact h1
    · by_cases e : 0 = u
      · subst e; exact upd_self ..
      · rw [upd_ne _ e]; exact h0 h1
  | ext m' hext => exact same _ _ (fun w d _ h1 => h1) fun h0 h1 => h0 h1

/-- The init thread is outside the pool, which has these live items. -/
def Rest (s : CState) (L : List Nat) : Prop := s.th 0 = .idle ∧ s.live = L

/-- The writer has nothing to do with the pool. -/
def Still (p : Prog) : Prop := p.phase = false ∧ p.stopWriter = false ∧ p.wp = .wait

/-- The writer may be using `ptr1`. -/
def Open (p : Prog) : Prop :=
  p.stopWriter = false ∧ (p.wp = .wait ∨ (p.phase = true ∧ (p.wp = .test ∨ p.wp = .store ∨ p.wp = .reset)))

/-- CPU 0 shows the init value in `ptr2`. -/
def Shown (c : Config) (f : Nat → Byte) (len : Nat) (s : CState) (q : Nat) : Prop :=
  ∀ o, o < len → s.mem.read c.pg (cpuAddr c q 0 + o) = f o

/-- The state of the program at each point of the init thread. -/
def At (c : Config) (split : Bool) (f : Nat → Byte) (len : Nat) (p : Prog) : Prop :=
  match p.ip with
  | .head => p.cs = none ∧ Still p
  | .call1 => Still p ∧ ∃ s, p.cs = some s ∧ Rest s []
  | .malloc1 => Still p ∧ ∃ s, p.cs = some s ∧ s.live = [] ∧ AllocSt (.plain 0) (s.th 0)
  | .publish => Still p ∧ ∃ s, p.cs = some s ∧ Rest s [p.ptr1]
  | .call2 => Open p ∧ ∃ s, p.cs = some s ∧ Rest s [p.ptr1]
  | .malloc2 => Open p ∧ ∃ s, p.cs = some s ∧ s.live = [p.ptr1] ∧ AllocSt (.init f len) (s.th 0)
  | .check _ => Open p ∧ ∃ s, p.cs = some s ∧ Rest s [p.ptr2, p.ptr1] ∧ (FaultSafe c split → Shown c f len s p.ptr2)
  | .wait => Open p ∧ ∃ s, p.cs = some s ∧ Rest s [p.ptr2, p.ptr1] ∧ (FaultSafe c split → Shown c f len s p.ptr2)
  | .callFree2 => Still p ∧ ∃ s, p.cs = some s ∧ Rest s [p.ptr2, p.ptr1]
  | .free2 => Still p ∧ ∃ s, p.cs = some s ∧ s.live = [p.ptr1] ∧ FreeSt (s.th 0)
  | .callFree1 => Still p ∧ ∃ s, p.cs = some s ∧ Rest s [p.ptr1]
  | .free1 => Still p ∧ ∃ s, p.cs = some s ∧ s.live = [] ∧ FreeSt (s.th 0)
  | .destroy => Still p ∧ ∃ s, p.cs = some s ∧ Rest s []
  | .stopWriter => p.cs = none ∧ Still p
  | .stopPhase => p.cs = none ∧ p.phase = false ∧ p.stopWriter = true ∧ p.wp = .wait
  | .done => p.cs = none ∧ p.phase = true ∧ p.stopWriter = true ∧ (p.wp = .wait ∨ p.wp = .test ∨ p.wp = .done)
  | .noMem => Still p ∨ (Open p ∧ ∃ s, p.cs = some s ∧ p.ptr1 ∈ s.live)
  | .unexpected => ¬ FaultSafe c split ∧ Open p ∧ ∃ s, p.cs = some s ∧ p.ptr1 ∈ s.live
  | .misuse => False

/-- The invariant. -/
structure PInv (c : Config) (split : Bool) (f : Nat → Byte) (len : Nat) (p : Prog) : Prop where
  reach : ∀ s, p.cs = some s → CReach c split s
  others : ∀ s, p.cs = some s → ∀ u, u ≠ 0 → s.th u = .idle
  pend0 : ∀ s, p.cs = some s → s.th 0 = .idle → s.pend 0 = none
  pend1 : ∀ s, p.cs = some s → ∀ u d, u ≠ 0 → s.pend u = some d → u = 1 ∧ p.wp = .store ∧ d.p = p.ptr1
  loc : At c split f len p

theorem PInv.quiet {p : Prog} (h : PInv c split f len p) (hw : p.wp ≠ .store) {s : CState} (hs : p.cs = some s) {u : Nat}
    (hu : u ≠ 0) : s.pend u = none := by
  cases e : s.pend u with
  | none => rfl
  | some d => exact absurd (h.pend1 s hs u d hu e).2.1 hw

/-- Steps of the init thread that leave the pool alone. -/
theorem PInv.move {p p' : Prog} (h : PInv c split f len p) (hc : p'.cs = p.cs) (hw : p'.wp = p.wp) (h1 : p'.ptr1 = p.ptr1)
    (hl : At c split f len p') : PInv c split f len p' := by
  refine ⟨fun s e => h.reach s (hc ▸ e), fun s e => h.others s (hc ▸ e), fun s e => h.pend0 s (hc ▸ e), fun s e u d hu hd => ?_, hl⟩
  rw [hw, h1]
  exact h.pend1 s (hc ▸ e) u d hu hd

/-- Steps of the writer that leave the pool alone. -/
theorem PInv.moveW {p p' : Prog} (h : PInv c split f len p) (hc : p'.cs = p.cs) (hw : p.wp ≠ .store)
    (hl : At c split f len p') : PInv c split f len p' := by
  refine ⟨fun s e => h.reach s (hc ▸ e), fun s e => h.others s (hc ▸ e), fun s e => h.pend0 s (hc ▸ e), fun s e u d hu hd => ?_, hl⟩
  rw [h.quiet hw (hc ▸ e) hu] at hd
  cases hd

theorem still_open {p : Prog} (h : Still p) : p.stopWriter = false ∧ p.wp = .wait := ⟨h.2.1, h.2.2⟩

theorem ptr_ne (hv : Valid c) (h : CReach c split s) {a b : Nat} (hl : s.live = [a, b]) : b ≠ a := by
  have := (conc_exclusive hv h).1
  rw [hl] at this
  intro e
  subst e
  simp at this

theorem At.store {p : Prog} (h : At c split f len p) (hw : p.wp = .store) : ∃ s, p.cs = some s ∧ p.ptr1 ∈ s.live := by
  obtain ⟨cs, phase, stopI, stopW, p1, p2, ip, wp⟩ := p
  cases hw
  have ns : ∀ {P : Prop}, Still ⟨cs, phase, stopI, stopW, p1, p2, ip, .store⟩ → P := fun e => by have := e.2.2; cases this
  cases ip with
  | head => exact ns h.2
  | call1 => exact ns h.1
  | malloc1 => exact ns h.1
  | publish => exact ns h.1
  | call2 => obtain ⟨_, s, h1, h2, h3⟩ := h; exact ⟨s, h1, by rw [h3]; exact List.mem_cons_self⟩
  | malloc2 => obtain ⟨_, s, h1, h2, h3⟩ := h; exact ⟨s, h1, by rw [h2]; exact List.mem_cons_self⟩
  | check i => obtain ⟨_, s, h1, h2, h3⟩ := h; exact ⟨s, h1, by rw [h2.2]; exact List.mem_cons_of_mem _ List.mem_cons_self⟩
  | wait => obtain ⟨_, s, h1, h2, h3⟩ := h; exact ⟨s, h1, by rw [h2.2]; exact List.mem_cons_of_mem _ List.mem_cons_self⟩
  | callFree2 => exact ns h.1
  | free2 => exact ns h.1
  | callFree1 => exact ns h.1
  | free1 => exact ns h.1
  | destroy => exact ns h.1
  | stopWriter => exact ns h.2
  | stopPhase => have := h.2.2.2; cases this
  | done => rcases h.2.2.2 with e | e | e <;> cases e
  | noMem =>
    rcases h with h | ⟨_, s, h1, h2⟩
    · exact ns h
    · exact ⟨s, h1, h2⟩
  | unexpected => obtain ⟨_, _, s, h1, h2⟩ := h; exact ⟨s, h1, h2⟩
  | misuse => exact h.elim

/-- Any change of the pool that keeps the live items and what the init thread is doing. -/
theorem At.pool {p : Prog} {s s' : CState} (h : At c split f len p) (hc : p.cs = some s) (hl : s'.live = s.live)
    (ha : ∀ fill, AllocSt fill (s.th 0) → AllocSt fill (s'.th 0)) (hf : FreeSt (s.th 0) → FreeSt (s'.th 0))
    (hi : s.th 0 = .idle → s'.th 0 = .idle)
    (hsh : FaultSafe c split → s.live = [p.ptr2, p.ptr1] → Shown c f len s p.ptr2 → Shown c f len s' p.ptr2) :
    At c split f len { p with cs := some s' } := by
  obtain ⟨cs, phase, stopI, stopW, p1, p2, ip, wp⟩ := p
  dsimp only at hc hsh
  subst hc
  have rest : ∀ {L : List Nat}, Rest s L → Rest s' L := fun e => ⟨hi e.1, hl.trans e.2⟩
  cases ip with
  | head => cases h.1
  | call1 => obtain ⟨h0, _, e, h1⟩ := h; cases e; exact ⟨h0, _, rfl, rest h1⟩
  | malloc1 => obtain ⟨h0, _, e, h1, h2⟩ := h; cases e; exact ⟨h0, _, rfl, hl.trans h1, ha _ h2⟩
  | publish => obtain ⟨h0, _, e, h1⟩ := h; cases e; exact ⟨h0, _, rfl, rest h1⟩
  | call2 => obtain ⟨h0, _, e, h1⟩ := h; cases e; exact ⟨h0, _, rfl, rest h1⟩
  | malloc2 => obtain ⟨h0, _, e, h1, h2⟩ := h; cases e; exact ⟨h0, _, rfl, hl.trans h1, ha _ h2⟩
  | check i => obtain ⟨h0, _, e, h1, h2⟩ := h; cases e; exact ⟨h0, _, rfl, rest h1, fun hs => hsh hs h1.2 (h2 hs)⟩
  | wait => obtain ⟨h0, _, e, h1, h2⟩ := h; cases e; exact ⟨h0, _, rfl, rest h1, fun hs => hsh hs h1.2 (h2 hs)⟩
  | callFree2 => obtain ⟨h0, _, e, h1⟩ := h; cases e; exact ⟨h0, _, rfl, rest h1⟩
  | free2 => obtain ⟨h0, _, e, h1, h2⟩ := h; cases e; exact ⟨h0, _, rfl, hl.trans h1, hf h2⟩
  | callFree1 => obtain ⟨h0, _, e, h1⟩ := h; cases e; exact ⟨h0, _, rfl, rest h1⟩
  | free1 => obtain ⟨h0, _, e, h1, h2⟩ := h; cases e; exact ⟨h0, _, rfl, hl.trans h1, hf h2⟩
  | destroy => obtain ⟨h0, _, e, h1⟩ := h; cases e; exact ⟨h0, _, rfl, rest h1⟩
  | stopWriter => cases h.1
  | stopPhase => cases h.1
  | done => cases h.1
  | noMem =>
    rcases h with h | ⟨h0, _, e, h1⟩
    · exact Or.inl h
    · cases e; exact Or.inr ⟨h0, _, rfl, by rw [hl]; exact h1⟩
  | unexpected => obtain ⟨h3, h0, _, e, h1⟩ := h; cases e; exact ⟨h3, h0, _, rfl, by rw [hl]; exact h1⟩
  | misuse => exact h.elim

/-- Steps of the writer between its waits: `Open` is what matters, or the writer is told to stop. -/
theorem At.writer {p : Prog} {phase' : Bool} {wp' : WPc} (h : At c split f len p)
    (hs : Still p → Still { p with phase := phase', wp := wp' })
    (ho : Open p → Open { p with phase := phase', wp := wp' })
    (h1 : p.phase = false → p.stopWriter = true → p.wp = .wait → phase' = false ∧ wp' = .wait)
    (h2 : p.phase = true → p.stopWriter = true → (p.wp = .wait ∨ p.wp = .test ∨ p.wp = .done) →
      phase' = true ∧ (wp' = .wait ∨ wp' = .test ∨ wp' = .done)) :
    At c split f len { p with phase := phase', wp := wp' } := by
  obtain ⟨cs, phase, stopI, stopW, p1, p2, ip, wp⟩ := p
  cases ip with
  | head => exact ⟨h.1, hs h.2⟩
  | call1 => exact ⟨hs h.1, h.2⟩
  | malloc1 => exact ⟨hs h.1, h.2⟩
  | publish => exact ⟨hs h.1, h.2⟩
  | call2 => exact ⟨ho h.1, h.2⟩
  | malloc2 => exact ⟨ho h.1, h.2⟩
  | check i => exact ⟨ho h.1, h.2⟩
  | wait => exact ⟨ho h.1, h.2⟩
  | callFree2 => exact ⟨hs h.1, h.2⟩
  | free2 => exact ⟨hs h.1, h.2⟩
  | callFree1 => exact ⟨hs h.1, h.2⟩
  | free1 => exact ⟨hs h.1, h.2⟩
  | destroy => exact ⟨hs h.1, h.2⟩
  | stopWriter => exact ⟨h.1, hs h.2⟩
  | stopPhase =>
    obtain ⟨a, b, d, e⟩ := h
    obtain ⟨x, y⟩ := h1 b d e
    exact ⟨a, x, d, y⟩
  | done =>
    obtain ⟨a, b, d, e⟩ := h
    obtain ⟨x, y⟩ := h2 b d e
    exact ⟨a, x, d, y⟩
  | noMem =>
    rcases h with h | ⟨h0, h3⟩
    · exact Or.inl (hs h)
    · exact Or.inr ⟨ho h0, h3⟩
  | unexpected => exact ⟨h.1, ho h.2.1, h.2.2⟩
  | misuse => exact h.elim

/-- A step of the pool other than the writer's store into it keeps the init value visible. -/
theorem shown_step (hv : Valid c) (hsafe : FaultSafe c split) (hlen : len ≤ c.itemLen) (h : CReach c split s) {lab : Lab}
    (hs : CStep c split s lab s') {q : Nat} (hq : q ∈ s.live) (hlab : ∀ t i o b, lab ≠ .stored t q i o b)
    (hsh : Shown c f len s q) : Shown c f len s' q := by
  intro o ho
  rcases (conc_undisturbed hv hsafe h hs hq).2 0 o hv.ncpu_pos (by omega) with ⟨t, b, e, _⟩ | ⟨_, e⟩
  · exact absurd e (hlab t 0 o b)
  · rw [e]; exact hsh o ho

theorem PInv.step (hv : Valid c) (hlen : len ≤ c.itemLen) {p p' : Prog} (h : PInv c split f len p)
    (hs : PStep c split f len v p p') : PInv c split f len p' := by
  have hloc := h.loc
  cases hs with
  | @create s hi hst hf =>
    unfold At at hloc
    rw [hi] at hloc
    obtain ⟨m0, env, r, m, hwf, henv, hcr, rfl⟩ := hf
    have hr := CReach.create (c := c) (split := split) m0 env r m hwf henv hcr
    refine ⟨fun s e => ?_, fun s e u _ => ?_, fun s e _ => ?_, fun s e u d _ hd => ?_, ?_⟩
    · cases e; exact hr
    · cases e; rfl
    · cases e; rfl
    · cases e; cases hd
    · exact ⟨hloc.2, _, rfl, rfl, rfl⟩
  | createFail hi hst =>
    unfold At at hloc
    rw [hi] at hloc
    exact h.move rfl rfl rfl (Or.inl hloc.2)
  | @call1 s hi hc =>
    unfold At at hloc
    rw [hi] at hloc
    obtain ⟨h0, _, e, h1, h2⟩ := hloc
    cases hc.symm.trans e
    have hstep := CStep.alloc (c := c) (split := split) 0 (.plain 0) h1 (h.pend0 s hc h1) (Nat.zero_le _)
    refine ⟨fun s e => ?_, fun s' e u hu => ?_, fun s' e ht => ?_, fun s' e u d hu hd => ?_, h0, _, rfl, h2, ?_⟩
    · cases e; exact CReach.step (h.reach _ hc) hstep
    · cases e; exact (upd_ne _ hu _).trans (h.others s hc u hu)
    · cases e
      have ht : upd s.th 0 _ 0 = .idle := ht
      rw [upd_self] at ht; cases ht
    · cases e; exact h.pend1 s hc u d hu hd
    · show AllocSt _ (upd s.th 0 _ 0)
      rw [upd_self]; rfl
  | @ret1 s s1 q hi hc hstep =>
    unfold At at hloc
    rw [hi] at hloc
    obtain ⟨h0, _, e, h1, h2⟩ := hloc
    cases hc.symm.trans e
    have hr := CReach.step (h.reach _ hc) hstep
    cases hstep with
    | returned _ _ _ ht hp =>
      refine ⟨fun s e => ?_, fun s' e u hu => ?_, fun s' e _ => ?_, fun s' e u d hu hd => ?_, h0, _, rfl, upd_self s.th 0 .idle, ?_⟩
      · cases e; exact hr
      · cases e; exact (upd_ne _ hu _).trans (h.others s hc u hu)
      · cases e; exact hp
      · cases e
        have hd : s.pend u = some d := hd
        rw [h.quiet (by rw [h0.2.2]; simp) hc hu] at hd; cases hd
      · show q :: s.live = _
        rw [h1]
  | null1 hi hc ht =>
    unfold At at hloc
    rw [hi] at hloc
    exact h.move rfl rfl rfl (Or.inl hloc.1)
  | publish hi =>
    unfold At at hloc
    rw [hi] at hloc
    exact h.move rfl rfl rfl ⟨⟨hloc.1.2.1, Or.inl hloc.1.2.2⟩, hloc.2⟩
  | @call2 s hi hc =>
    unfold At at hloc
    rw [hi] at hloc
    obtain ⟨h0, _, e, h1, h2⟩ := hloc
    cases hc.symm.trans e
    have hstep := CStep.alloc (c := c) (split := split) 0 (.init f len) h1 (h.pend0 s hc h1) hlen
    refine ⟨fun s e => ?_, fun s' e u hu => ?_, fun s' e ht => ?_, fun s' e u d hu hd => ?_, h0, _, rfl, h2, ?_⟩
    · cases e; exact CReach.step (h.reach _ hc) hstep
    · cases e; exact (upd_ne _ hu _).trans (h.others s hc u hu)
    · cases e
      have ht : upd s.th 0 _ 0 = .idle := ht
      rw [upd_self] at ht; cases ht
    · cases e; exact h.pend1 s hc u d hu hd
    · show AllocSt _ (upd s.th 0 _ 0)
      rw [upd_self]; rfl
  | @ret2 s s1 q hi hc hstep =>
    unfold At at hloc
    rw [hi] at hloc
    obtain ⟨h0, _, e, h1, h2⟩ := hloc
    cases hc.symm.trans e
    have hr := CReach.step (h.reach _ hc) hstep
    have hsh : FaultSafe c split → Shown c f len s1 q := fun hsafe o ho =>
      (conc_content hv hsafe (h.reach _ hc) hstep).2.2.2 f len rfl 0 o hv.ncpu_pos ho
    cases hstep with
    | returned _ _ _ ht hp =>
      refine ⟨fun s e => ?_, fun s' e u hu => ?_, fun s' e _ => ?_, fun s' e u d hu hd => ?_, h0, _, rfl, ⟨upd_self s.th 0 .idle, ?_⟩, hsh⟩
      · cases e; exact hr
      · cases e; exact (upd_ne _ hu _).trans (h.others s hc u hu)
      · cases e; exact hp
      · cases e; exact h.pend1 s hc u d hu hd
      · show q :: s.live = _
        rw [h1]
  | null2 hi hc ht =>
    unfold At at hloc
    rw [hi] at hloc
    obtain ⟨h0, s, e, h1, h2⟩ := hloc
    exact h.move rfl rfl rfl (Or.inr ⟨h0, s, e, by rw [h1]; exact List.mem_cons_self⟩)
  | checkOk hi hc hlt he =>
    unfold At at hloc
    rw [hi] at hloc
    exact h.move rfl rfl rfl hloc
  | @checkBad s i hi hc hlt he =>
    unfold At at hloc
    rw [hi] at hloc
    obtain ⟨h0, _, e, h1, h2⟩ := hloc
    cases hc.symm.trans e
    exact h.move rfl rfl rfl ⟨fun hsafe => he (h2 hsafe i hlt), h0, s, hc, by
      rw [h1.2]; exact List.mem_cons_of_mem _ List.mem_cons_self⟩
  | checked hi =>
    unfold At at hloc
    rw [hi] at hloc
    exact h.move rfl rfl rfl hloc
  | waited hi hph =>
    unfold At at hloc
    rw [hi] at hloc
    obtain ⟨h0, s, e, h1, _⟩ := hloc
    refine h.move rfl rfl rfl ⟨⟨hph, h0.1, ?_⟩, s, e, h1⟩
    rcases h0.2 with e | ⟨e, _⟩
    · exact e
    · rw [hph] at e; cases e
  | @callFree2 s s1 hi hc hm hstep =>
    unfold At at hloc
    rw [hi] at hloc
    obtain ⟨h0, _, e, h1⟩ := hloc
    cases hc.symm.trans e
    have hr := CReach.step (h.reach _ hc) hstep
    cases hstep with
    | free _ _ ht hp hl hn =>
      refine ⟨fun s e => ?_, fun s' e u hu => ?_, fun s' e _ => ?_, fun s' e u d hu hd => ?_, h0, _, rfl, ?_, ?_⟩
      · cases e; exact hr
      · cases e; exact (upd_ne _ hu _).trans (h.others s hc u hu)
      · cases e; exact hp
      · cases e; exact h.pend1 s hc u d hu hd
      · show s.live.erase _ = _
        rw [h1.2]; exact List.erase_cons_head ..
      · show FreeSt (upd s.th 0 _ 0)
        rw [upd_self]; trivial
  | @badFree2 s hi hc hm =>
    unfold At at hloc
    rw [hi] at hloc
    obtain ⟨h0, _, e, h1⟩ := hloc
    cases hc.symm.trans e
    refine absurd ⟨by rw [h1.2]; exact List.mem_cons_self, fun u d hd => ?_⟩ hm
    by_cases hu : u = 0
    · subst hu; rw [h.pend0 s hc h1.1] at hd; cases hd
    · rw [h.quiet (by rw [h0.2.2]; simp) hc hu] at hd; cases hd
  | @freed2 s hi hc ht =>
    unfold At at hloc
    rw [hi] at hloc
    obtain ⟨h0, _, e, h1, _⟩ := hloc
    cases hc.symm.trans e
    exact h.move rfl rfl rfl ⟨h0, s, hc, ht, h1⟩
  | @callFree1 s s1 hi hc hm hstep =>
    unfold At at hloc
    rw [hi] at hloc
    obtain ⟨h0, _, e, h1⟩ := hloc
    cases hc.symm.trans e
    have hr := CReach.step (h.reach _ hc) hstep
    cases hstep with
    | free _ _ ht hp hl hn =>
      refine ⟨fun s e => ?_, fun s' e u hu => ?_, fun s' e _ => ?_, fun s' e u d hu hd => ?_, h0, _, rfl, ?_, ?_⟩
      · cases e; exact hr
      · cases e; exact (upd_ne _ hu _).trans (h.others s hc u hu)
      · cases e; exact hp
      · cases e; exact h.pend1 s hc u d hu hd
      · show s.live.erase _ = _
        rw [h1.2]; exact List.erase_cons_head ..
      · show FreeSt (upd s.th 0 _ 0)
        rw [upd_self]; trivial
  | @badFree1 s hi hc hm =>
    unfold At at hloc
    rw [hi] at hloc
    obtain ⟨h0, _, e, h1⟩ := hloc
    cases hc.symm.trans e
    refine absurd ⟨by rw [h1.2]; exact List.mem_cons_self, fun u d hd => ?_⟩ hm
    by_cases hu : u = 0
    · subst hu; rw [h.pend0 s hc h1.1] at hd; cases hd
    · rw [h.quiet (by rw [h0.2.2]; simp) hc hu] at hd; cases hd
  | @freed1 s hi hc ht =>
    unfold At at hloc
    rw [hi] at hloc
    obtain ⟨h0, _, e, h1, _⟩ := hloc
    cases hc.symm.trans e
    exact h.move rfl rfl rfl ⟨h0, s, hc, ht, h1⟩
  | destroy hi hc hm =>
    unfold At at hloc
    rw [hi] at hloc
    exact ⟨fun s e => (by cases e), fun s e => (by cases e), fun s e => (by cases e), fun s e => (by cases e), rfl, hloc.1⟩
  | @badDestroy s hi hc hm =>
    unfold At at hloc
    rw [hi] at hloc
    obtain ⟨h0, _, e, h1⟩ := hloc
    cases hc.symm.trans e
    refine absurd ⟨h1.2, fun t => ?_, fun t => ?_⟩ hm
    · by_cases ht : t = 0
      · subst ht; exact h1.1
      · exact h.others s hc t ht
    · by_cases ht : t = 0
      · subst ht; exact h.pend0 s hc h1.1
      · exact h.quiet (by rw [h0.2.2]; simp) hc ht
  | leave hi hst =>
    unfold At at hloc
    rw [hi] at hloc
    exact h.move rfl rfl rfl hloc
  | stopWriter hi =>
    unfold At at hloc
    rw [hi] at hloc
    exact h.move rfl rfl rfl ⟨hloc.1, hloc.2.1, rfl, hloc.2.2.2⟩
  | stopPhase hi =>
    unfold At at hloc
    rw [hi] at hloc
    exact h.move rfl rfl rfl ⟨hloc.1, rfl, hloc.2.2.1, Or.inl hloc.2.2.2⟩
  | stop =>
    refine h.move rfl rfl rfl ?_
    obtain ⟨cs, phase, stopI, stopW, p1, p2, ip, wp⟩ := p
    cases ip <;> exact hloc
  | begin hw hph =>
    refine h.moveW rfl (by rw [hw]; simp) (At.writer (phase' := p.phase) (wp' := .test) hloc ?_ ?_ ?_ ?_)
    · intro e; have := e.1; rw [hph] at this; cases this
    · intro e; exact ⟨e.1, Or.inr ⟨hph, Or.inl rfl⟩⟩
    · intro e; rw [hph] at e; cases e
    · intro e _ _; exact ⟨e, Or.inr (Or.inl rfl)⟩
  | exit hw hst =>
    refine h.moveW rfl (by rw [hw]; simp) (At.writer (phase' := p.phase) (wp' := .done) hloc ?_ ?_ ?_ ?_)
    · intro e; have := e.2.1; rw [hst] at this; cases this
    · intro e; have := e.1; rw [hst] at this; cases this
    · intro _ _ e; rw [hw] at e; cases e
    · intro e _ _; exact ⟨e, Or.inr (Or.inr rfl)⟩
  | stay hw hst =>
    refine h.moveW rfl (by rw [hw]; simp) (At.writer (phase' := p.phase) (wp' := .store) hloc ?_ ?_ ?_ ?_)
    · intro e; have := e.2.2; rw [hw] at this; cases this
    · intro e
      refine ⟨e.1, Or.inr ⟨?_, Or.inr (Or.inl rfl)⟩⟩
      rcases e.2 with e | ⟨e, _⟩
      · rw [hw] at e; cases e
      · exact e
    · intro _ e; rw [hst] at e; cases e
    · intro _ e; rw [hst] at e; cases e
  | reset hw =>
    refine h.moveW rfl (by rw [hw]; simp) (At.writer (phase' := false) (wp' := .wait) hloc ?_ ?_ ?_ ?_)
    · intro e; exact ⟨rfl, e.2.1, rfl⟩
    · intro e; exact ⟨e.1, Or.inl rfl⟩
    · intro _ _ _; exact ⟨rfl, rfl⟩
    · intro _ _ e; rcases e with e | e | e <;> rw [hw] at e <;> cases e
  | @store s s1 hw hc hm hstep =>
    have hr := CReach.step (h.reach _ hc) hstep
    have hsh : FaultSafe c split → s.live = [p.ptr2, p.ptr1] → Shown c f len s p.ptr2 → Shown c f len s1 p.ptr2 := by
      intro hsafe hl hshown
      refine shown_step hv hsafe hlen (h.reach _ hc) hstep (by rw [hl]; exact List.mem_cons_self) (fun t i o b e => ?_) hshown
      injection e with _ e
      exact ptr_ne hv (h.reach _ hc) hl e
    cases hstep with
    | store _ _ _ _ _ ht hp hl hcpu ho hx =>
      have hat : At c split f len { p with cs := some { s with mem := s.mem.write c.pg (cpuAddr c p.ptr1 0 + 0) v } } :=
        hloc.pool hc rfl (fun _ => id) id id hsh
      refine ⟨fun s e => ?_, fun s' e u hu => ?_, fun s' e ht => ?_, fun s' e u d hu hd => ?_, ?_⟩
      · cases e; exact hr
      · cases e; exact h.others s hc u hu
      · cases e; exact h.pend0 s hc ht
      · cases e
        have := h.pend1 s hc u d hu hd
        rw [this.1] at hd
        have hd : s.pend 1 = some d := hd
        rw [hp] at hd
        cases hd
      · refine At.writer (phase' := p.phase) (wp' := .reset) hat ?_ ?_ ?_ ?_
        · intro e; have e := e.2.2; dsimp only at e; rw [hw] at e; cases e
        · intro e
          refine ⟨e.1, Or.inr ⟨?_, Or.inr (Or.inr rfl)⟩⟩
          rcases e.2 with e | ⟨e, _⟩
          · dsimp only at e; rw [hw] at e; cases e
          · exact e
        · intro _ _ e; dsimp only at e; rw [hw] at e; cases e
        · intro _ _ e; dsimp only at e; rcases e with e | e | e <;> rw [hw] at e <;> cases e
  | @snap s q hw hc hm ht hp hsp hx =>
    have hstep := CStep.snapStore (c := c) (split := split) 1 p.ptr1 0 0 q ht hp hm.1 hm.2.1 hm.2.2 hsp hx
    refine ⟨fun s e => ?_, fun s' e u hu => ?_, fun s' e ht => ?_, fun s' e u d hu hd => ?_, ?_⟩
    · cases e; exact CReach.step (h.reach _ hc) hstep
    · cases e; exact h.others s hc u hu
    · cases e
      exact (upd_ne s.pend (by decide : (0 : Nat) ≠ 1)
        (some ⟨p.ptr1, cpuAddr c p.ptr1 0 + 0, snapOf c.pg s.mem (cpuAddr c p.ptr1 0 + 0)⟩)).trans (h.pend0 s hc ht)
    · cases e
      have hd : upd s.pend 1 _ u = some d := hd
      by_cases e : u = 1
      · subst e; rw [upd_self] at hd; cases hd; exact ⟨rfl, hw, rfl⟩
      · rw [upd_ne _ e] at hd; exact h.pend1 s hc u d hu hd
    · exact hloc.pool hc rfl (fun _ => id) id id fun _ _ => id
  | badStore hw hm =>
    obtain ⟨s, hc, hl⟩ := hloc.store hw
    exact absurd ⟨hl, hv.ncpu_pos, Nat.lt_of_lt_of_le wb_pos hv.item_ge⟩ (hm s hc)
  | @inside s s1 hc hstep hq =>
    have hk := kept_of_quiet hv (h.reach _ hc) (h.others s hc) hstep hq
    refine ⟨fun s e => ?_, fun s' e u hu => ?_, fun s' e ht => ?_, fun s' e u d hu hd => ?_, ?_⟩
    · cases e; exact CReach.step (h.reach _ hc) hstep
    · cases e; exact hk.others u hu
    · cases e; exact hk.pend0 (h.pend0 s hc) ht
    · cases e; exact h.pend1 s hc u d hu (hk.pend1 u d hu hd)
    · refine hloc.pool hc hk.live hk.alloc hk.free hk.idle fun hsafe hl => ?_
      exact shown_step hv hsafe hlen (h.reach _ hc) hstep (by rw [hl]; exact List.mem_cons_self) (fun _ _ _ _ e => by cases e)

theorem pinv_of_reach (hv : Valid c) (hlen : len ≤ c.itemLen) {p : Prog} (h : PReach c split f len v p) :
    PInv c split f len p := by
  induction h with
  | init m1 m2 =>
    exact ⟨fun s e => (by cases e), fun s e => (by cases e), fun s e => (by cases e), fun s e => (by cases e), rfl, rfl, rfl, rfl⟩
  | step _ hs ih => exact ih.step hv hlen hs

end Verif.CowTest
