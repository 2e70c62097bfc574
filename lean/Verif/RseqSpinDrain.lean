import Verif.RseqLockTaken
import Verif.RseqIncDrain

/-!
The threads of the spinlock test (param_test.c:469-510) can always finish their iterations: no lock is lost, and nobody
who has one waits for another.
-/

namespace Verif.Rseq

variable {n : Nat} {T : Nat → Site n} {fld : Fld} {be : Bool} {lock ctr : BitVec 32 → W n} {cpus : List (BitVec 32)}
  {N : Nat} {m0 : Mem n}

/-- `count++` is still to come in this pass of the loop. -/
def Phase.owes : Phase n → Nat
  | .got _ | .loaded _ _ => 1
  | .idle | .stored _ => 0

/-- The increments that a function can still make in the pass of the loop it is in: one if it is in the lock helper. -/
def levelOwes (f : Option (Frame n)) (p : Phase n) : Nat := if f.isSome = true then 1 else p.owes

/-- The same for the functions that signal handlers interrupted. -/
def savedOwes (ph : Nat → Phase n) : List (Option (Frame n)) → Nat
  | [] => 0
  | f :: rest => levelOwes f (ph rest.length) + savedOwes ph rest

/-- The increments that a thread can still make in the passes of the loop it is in. -/
def owes (x : Thread n) (ph : Nat → Phase n) : Nat := levelOwes x.top (ph x.saved.length) + savedOwes ph x.saved

theorem savedOwes_congr {ph ph' : Nat → Phase n} : ∀ (l : List (Option (Frame n))), (∀ d, d < l.length → ph d = ph' d) →
    savedOwes ph l = savedOwes ph' l
  | [], _ => rfl
  | f :: rest, h => by
    show _ + _ = _ + _
    rw [h rest.length (by simp), savedOwes_congr rest fun d hd => h d (by simp; omega)]

/-- A set of states of the spinlock test closed under the steps of the threads. -/
structure SpinClosed (T : Nat → Site n) (fld : Fld) (be : Bool) (lock ctr : BitVec 32 → W n) (cpus : List (BitVec 32))
    (N : Nat) (m0 : Mem n) (R : State n → Loops n → Prop) : Prop where
  reach : ∀ s P, R s P → SpinReach T fld be lock ctr cpus N m0 s P
  step : ∀ s P t lab s', R s P → Step T s t lab s' → lab ≠ .user →
    (∀ f, lab = .invoke f → P.ph t (s.th t).saved.length = .idle ∧
      f.fld = fld ∧ f.cpu ∈ cpus ∧ f.op = .cbneStore (lock f.cpu) 0#_ 1#_) → R s' (P.call s t lab)
  load : ∀ s P t c, R s P → (s.th t).run = true → (s.th t).top = none → P.ph t (s.th t).saved.length = .got c →
    R s (P.at t (s.th t).saved.length (.loaded c (ldw be s.mem (ctr c))))
  store : ∀ s P t c v, R s P → t < N → (s.th t).run = true → (s.th t).top = none →
    P.ph t (s.th t).saved.length = .loaded c v →
    R { s with mem := stw be s.mem (ctr c) (v + 1#_) } ((P.at t (s.th t).saved.length (.stored c)).count t)
  unlock : ∀ s P t c, R s P → (s.th t).run = true → (s.th t).top = none → P.ph t (s.th t).saved.length = .stored c →
    R { s with mem := stw be s.mem (lock c) 0#_ } (P.at t (s.th t).saved.length .idle)

theorem SpinReach.live {s : State n} {P : Loops n} (h : SpinReach T fld be lock ctr cpus N m0 s P) : Live T s := by
  induction h with
  | init => exact live_init _
  | step _ hs _ _ ih => exact ih.step hs
  | load _ _ _ _ ih => exact ih
  | store _ _ _ _ _ ih => exact ⟨ih.top, ih.saved, ih.few⟩
  | unlock _ _ _ _ ih => exact ⟨ih.top, ih.saved, ih.few⟩

/-- `P'` is `P` but for the phase of thread `t` at depth `d`, which is `p`, and `k` more increments of `t`. -/
def Moved (P P' : Loops n) (t d : Nat) (p : Phase n) (k : Nat) : Prop :=
  P'.ph t d = p ∧ (∀ u e, ¬ (u = t ∧ e = d) → P'.ph u e = P.ph u e) ∧ P'.done t = P.done t + k ∧
    ∀ u, u ≠ t → P'.done u = P.done u

theorem Moved.trans {P P' P'' : Loops n} {t d : Nat} {p q : Phase n} {k j : Nat} (h : Moved P P' t d p k)
    (h' : Moved P' P'' t d q j) : Moved P P'' t d q (k + j) :=
  ⟨h'.1, fun u e he => (h'.2.1 u e he).trans (h.2.1 u e he), by rw [h'.2.2.1, h.2.2.1]; omega,
    fun u hu => (h'.2.2.2 u hu).trans (h.2.2.2 u hu)⟩

theorem moved_at (P : Loops n) (t d : Nat) (p : Phase n) : Moved P (P.at t d p) t d p 0 :=
  ⟨(ph_at _ _ _ _ _ _).trans (if_pos ⟨rfl, rfl⟩), fun _ _ h => (ph_at _ _ _ _ _ _).trans (if_neg h), rfl, fun _ _ => rfl⟩

theorem moved_count (P : Loops n) (t d : Nat) (p : Phase n) : Moved P ((P.at t d p).count t) t d p 1 :=
  ⟨(ph_at _ _ _ _ _ _).trans (if_pos ⟨rfl, rfl⟩), fun _ _ h => (ph_at _ _ _ _ _ _).trans (if_neg h), if_pos rfl,
    fun _ h => if_neg h⟩

theorem moved_refl {P : Loops n} {t d : Nat} {p : Phase n} (h : P.ph t d = p) : Moved P P t d p 0 :=
  ⟨h, fun _ _ _ => rfl, rfl, fun _ _ => rfl⟩

variable {R : State n → Loops n → Prop}

/-- A thread outside the helper finishes the pass of the loop. -/
theorem finish_pass (hR : SpinClosed T fld be lock ctr cpus N m0 R) {s : State n} {P : Loops n} (h : R s P) {t : Nat}
    (htN : t < N) (hr : (s.th t).run = true) (ht : (s.th t).top = none) :
    ∃ s' P', R s' P' ∧ s'.th = s.th ∧
      Moved P P' t (s.th t).saved.length .idle (P.ph t (s.th t).saved.length).owes := by
  have last : ∀ (s : State n) (P : Loops n) (c : BitVec 32), R s P → (s.th t).run = true → (s.th t).top = none →
      P.ph t (s.th t).saved.length = .stored c →
      ∃ s' P', R s' P' ∧ s'.th = s.th ∧ Moved P P' t (s.th t).saved.length .idle 0 :=
    fun s P c h hr ht hp => ⟨_, _, hR.unlock s P t c h hr ht hp, rfl, moved_at _ _ _ _⟩
  have mid : ∀ (P : Loops n) (c : BitVec 32) (v : W n), R s P → P.ph t (s.th t).saved.length = .loaded c v →
      ∃ s' P', R s' P' ∧ s'.th = s.th ∧ Moved P P' t (s.th t).saved.length .idle 1 := by
    intro P c v h hp
    have h1 := hR.store s P t c v h htN hr ht hp
    have m1 := moved_count P t (s.th t).saved.length (.stored c)
    obtain ⟨s', P', a1, a2, a3⟩ := last _ _ c h1 hr ht m1.1
    exact ⟨s', P', a1, a2, m1.trans a3⟩
  cases hp : P.ph t (s.th t).saved.length with
  | idle => exact ⟨s, P, h, rfl, moved_refl hp⟩
  | got c =>
    have h1 := hR.load s P t c h hr ht hp
    have m1 := moved_at P t (s.th t).saved.length (.loaded c (ldw be s.mem (ctr c)))
    obtain ⟨s', P', a1, a2, a3⟩ := mid _ c _ h1 m1.1
    exact ⟨s', P', a1, a2, m1.trans a3⟩
  | loaded c v => exact mid P c v h hp
  | stored c => exact last s P c h hr ht hp

/-- A thread that is on a CPU finishes the helper it is in and the pass of the loop. -/
theorem finish_level (hR : SpinClosed T fld be lock ctr cpus N m0 R) {s : State n} {P : Loops n} (h : R s P) {t : Nat}
    (htN : t < N) (hr : (s.th t).run = true) :
    ∃ s' P' x k, R s' P' ∧ s'.th = upd s.th t x ∧ x.run = true ∧ x.top = none ∧ x.saved = (s.th t).saved ∧
      Moved P P' t (s.th t).saved.length .idle k ∧ k ≤ levelOwes (s.th t).top (P.ph t (s.th t).saved.length) := by
  cases ht : (s.th t).top with
  | none =>
    obtain ⟨s', P', a1, a2, a3⟩ := finish_pass hR h htN hr ht
    refine ⟨s', P', s.th t, _, a1, ?_, hr, ht, rfl, a3, Nat.le_refl _⟩
    rw [a2]
    funext u
    by_cases e : u = t
    · subst e; rw [updT_same]
    · rw [updT_other _ _ e]
  | some f =>
    obtain ⟨V, φ, F, hV⟩ := (hR.reach _ _ h).live.top t f ht
    obtain ⟨j, -, r, hj⟩ := F.returns ((s.th t).fv f.fld) _ f.l s.mem hV (Nat.le_refl _)
    obtain ⟨s1, f', cs, b1, b2, b3, -⟩ := solo_rel (T := T) (t := t) (P := fun s => R s P)
      (fun a b ha hs => hR.step _ _ _ _ _ ha hs (by simp) (fun f hf => by simp at hf))
      (fv := (s.th t).fv f.fld) (p := (T f.pid).prog) j
      s f (Rseq.run (T f.pid).prog ((s.th t).fv f.fld) j (f.l, s.mem)).1
      (Rseq.run (T f.pid).prog ((s.th t).fv f.fld) j (f.l, s.mem)).2 h hr ht rfl rfl rfl
    have hs1 : s1.th t = { s.th t with top := some f', cs := cs } := by rw [b2, updT_same]
    have hsv : (s1.th t).saved = (s.th t).saved := by rw [hs1]
    have hst := Step.ret (T := T) (s := s1) (t := t) f' r (by rw [hs1]; exact hr) (by rw [hs1]) (by rw [b3]; exact hj)
    have h2 := hR.step _ _ _ _ _ b1 hst (by simp) (fun f hf => by simp at hf)
    obtain ⟨P2, hP2⟩ : ∃ P2, P2 = P.call s1 t .ret := ⟨_, rfl⟩
    rw [← hP2] at h2
    obtain ⟨p2, hp2, m2⟩ : ∃ p, p.owes ≤ 1 ∧ Moved P P2 t (s.th t).saved.length p 0 := by
      rw [hP2]
      rcases call_cases P (fun _ => none) s1 t .ret with ⟨e, -⟩ | ⟨-, f2, -, -, e, -⟩
      · rw [e]
        refine ⟨_, ?_, moved_refl rfl⟩
        cases P.ph t (s.th t).saved.length <;> simp [Phase.owes]
      · rw [e, hsv]
        exact ⟨_, by simp [Phase.owes], moved_at _ _ _ _⟩
    obtain ⟨s3, x3, e3, y1, y2, y3, y4⟩ : ∃ (s3 : State n) (x3 : Thread n), s3.th = upd s.th t x3 ∧ R s3 P2 ∧ x3.run = true ∧
        x3.top = none ∧ x3.saved = (s.th t).saved := by
      refine ⟨_, { s1.th t with top := none }, ?_, h2, by rw [hs1]; exact hr, rfl, hsv⟩
      simp only [State.set]
      funext u
      by_cases e : u = t
      · subst e; rw [updT_same, updT_same]
      · rw [updT_other _ _ e, updT_other _ _ e, b2, updT_other _ _ e]
    have hx : s3.th t = x3 := by rw [e3, updT_same]
    obtain ⟨s', P', a1, a2, a3⟩ := finish_pass hR y1 htN (by rw [hx]; exact y2) (by rw [hx]; exact y3)
    rw [hx, y4, m2.1] at a3
    refine ⟨s', P', x3, _, a1, a2.trans e3, y2, y3, y4, m2.trans a3, ?_⟩
    show 0 + _ ≤ 1
    omega

/-- A thread that is on a CPU leaves its signal handlers, each with the lock given back. -/
theorem finish_levels (hR : SpinClosed T fld be lock ctr cpus N m0 R) {t : Nat} (htN : t < N) : ∀ (k : Nat) (s : State n)
    (P : Loops n), R s P → (s.th t).run = true → (s.th t).saved.length = k → (∀ d, k < d → P.ph t d = .idle) →
    ∃ s' P' x, R s' P' ∧ s'.th = upd s.th t x ∧ x.run = true ∧ x.top = none ∧ x.saved = [] ∧ (∀ d, P'.ph t d = .idle) ∧
      (∀ u, u ≠ t → ∀ d, P'.ph u d = P.ph u d) ∧ P'.done t ≤ P.done t + owes (s.th t) (P.ph t) ∧
      ∀ u, u ≠ t → P'.done u = P.done u := by
  intro k
  induction k with
  | zero =>
    intro s P h hr hk hd
    obtain ⟨s', P', x, j, a1, a2, a3, a4, a5, a6, a7⟩ := finish_level hR h htN hr
    refine ⟨s', P', x, a1, a2, a3, a4, a5.trans (List.length_eq_zero_iff.1 hk), fun d => ?_, fun u hu d => ?_, ?_, a6.2.2.2⟩
    · by_cases e : d = 0
      · rw [hk] at a6; subst e; exact a6.1
      · rw [a6.2.1 t d (by rw [hk]; exact fun h => e h.2)]; exact hd d (by omega)
    · exact a6.2.1 u d fun h => hu h.1
    · rw [a6.2.2.1]; unfold owes; omega
  | succ k ih =>
    intro s P h hr hk hd
    obtain ⟨s1, P1, x, j, a1, a2, a3, a4, a5, a6, a7⟩ := finish_level hR h htN hr
    have hx : s1.th t = x := by rw [a2, updT_same]
    cases hsv : x.saved with
    | nil => rw [← a5, hsv] at hk; simp at hk
    | cons f rest =>
      have hlen : rest.length = k := by rw [← a5, hsv] at hk; simpa using hk
      have hst := Step.sigret (T := T) (s := s1) (t := t) f rest (by rw [hx]; exact a3) (by rw [hx]; exact a4)
        (by rw [hx]; exact hsv)
      have h2 : R _ P1 := hR.step _ _ _ _ _ a1 hst (by simp) (fun f hf => by simp at hf)
      obtain ⟨s2, x2, e2, h2, y2, y3, y4⟩ : ∃ (s2 : State n) (x2 : Thread n), s2.th = upd s.th t x2 ∧ R s2 P1 ∧ x2.run = true ∧
          x2.top = f ∧ x2.saved = rest := by
        refine ⟨_, { s1.th t with top := f, saved := rest }, ?_, h2, by rw [hx]; exact a3, rfl, rfl⟩
        simp only [State.set]
        funext u
        by_cases e : u = t
        · subst e; rw [updT_same, updT_same]
        · rw [updT_other _ _ e, updT_other _ _ e, a2, updT_other _ _ e]
      have hx2 : s2.th t = x2 := by rw [e2, updT_same]
      obtain ⟨s', P', x', c1, c2, c3, c4, c5, c6, c7, c8, c9⟩ := ih s2 P1 h2 (by rw [hx2]; exact y2)
        (by rw [hx2, y4]; exact hlen) (fun d hkd => by
          by_cases e : d = k + 1
          · rw [hk] at a6; subst e; exact a6.1
          · rw [a6.2.1 t d (by rw [hk]; exact fun h => e h.2)]; exact hd d (by omega))
      refine ⟨s', P', x', c1, ?_, c3, c4, c5, c6, fun u hu d => ?_, ?_, fun u hu => ?_⟩
      · rw [c2, e2]
        funext u
        by_cases e : u = t
        · subst e; rw [updT_same, updT_same]
        · rw [updT_other _ _ e, updT_other _ _ e, updT_other _ _ e]
      · rw [c7 u hu d]; exact a6.2.1 u d fun h => hu h.1
      · have hcong : ∀ d, d < k + 1 → P1.ph t d = P.ph t d := fun d hd => a6.2.1 t d (by rw [hk]; omega)
        have e1 : owes (s2.th t) (P1.ph t) = savedOwes (P.ph t) (s.th t).saved := by
          rw [hx2]
          unfold owes
          rw [y3, y4, ← a5, hsv, hcong rest.length (by omega), savedOwes_congr (ph' := P.ph t) rest fun d hd =>
            hcong d (by omega)]
          rfl
        rw [e1, a6.2.2.1] at c8
        unfold owes
        omega
      · rw [c9 u hu]; exact a6.2.2.2 u hu

/-- What the program of the test adds to the machine: there are `N` threads, and a signal handler gives back the lock before
it returns. -/
structure Tame (N : Nat) (s : State n) (P : Loops n) : Prop where
  few : ∀ u, N ≤ u → Idle (s.th u) ∧ ∀ d, P.ph u d = .idle
  back : ∀ t d, (s.th t).saved.length < d → P.ph t d = .idle

/-- No thread is on a CPU. -/
theorem spin_stop (hR : SpinClosed T fld be lock ctr cpus N m0 R) {s : State n} {P : Loops n} (h : R s P)
    (hT : Tame N s P) : ∀ k, k ≤ N → ∃ s', R s' P ∧ Tame N s' P ∧ (∀ u, u < k → (s'.th u).run = false) ∧
      ∀ u, owes (s'.th u) (P.ph u) = owes (s.th u) (P.ph u) := by
  intro k
  induction k with
  | zero => exact fun _ => ⟨s, h, hT, fun u hu => by omega, fun _ => rfl⟩
  | succ k ih =>
    intro hkN
    obtain ⟨s1, a1, a2, a3, a4⟩ := ih (by omega)
    cases hr : (s1.th k).run with
    | false =>
      refine ⟨s1, a1, a2, fun u hu => ?_, a4⟩
      by_cases e : u = k
      · subst e; exact hr
      · exact a3 u (by omega)
    | true =>
      have hst := Step.preempt (T := T) (s := s1) (t := k) hr
      refine ⟨_, hR.step _ _ _ _ _ a1 hst (by simp) (fun f hf => by simp at hf), ⟨fun u hu => ⟨?_, (a2.few u hu).2⟩,
        fun t d hd => a2.back t d ?_⟩, fun u hu => ?_, fun u => ?_⟩
      · simp only [State.set]
        rw [updT_other _ _ (by omega)]
        exact (a2.few u hu).1
      · simp only [State.set] at hd
        by_cases e : t = k
        · subst e; rw [updT_same] at hd; exact hd
        · rw [updT_other _ _ e] at hd; exact hd
      · simp only [State.set]
        by_cases e : u = k
        · subst e; rw [updT_same]
        · rw [updT_other _ _ e]; exact a3 u (by omega)
      · rw [← a4 u]
        simp only [State.set]
        by_cases e : u = k
        · subst e; rw [updT_same]; rfl
        · rw [updT_other _ _ e]

/-- All threads can leave their helpers and handlers and give back the locks they have. -/
theorem spin_settle (hR : SpinClosed T fld be lock ctr cpus N m0 R) {s : State n} {P : Loops n} (h : R s P)
    (hT : Tame N s P) : ∃ s' P', R s' P' ∧ (∀ u, Idle (s'.th u)) ∧ (∀ u d, P'.ph u d = .idle) ∧
      ∀ u, u < N → P'.done u ≤ P.done u + owes (s.th u) (P.ph u) := by
  obtain ⟨s0, a1, a2, a3, a4⟩ := spin_stop hR h hT N (Nat.le_refl _)
  have hstop : ∀ u, (s0.th u).run = false := fun u => by
    rcases Nat.lt_or_ge u N with h | h
    · exact a3 u h
    · exact (a2.few u h).1.1
  have key : ∀ k, k ≤ N → ∃ s' P', R s' P' ∧ (∀ u, (s'.th u).run = false) ∧
      (∀ u, u < k → Idle (s'.th u) ∧ (∀ d, P'.ph u d = .idle) ∧ P'.done u ≤ P.done u + owes (s.th u) (P.ph u)) ∧
      ∀ u, k ≤ u → s'.th u = s0.th u ∧ (∀ d, P'.ph u d = P.ph u d) ∧ P'.done u = P.done u := by
    intro k
    induction k with
    | zero => exact fun _ => ⟨s0, P, a1, hstop, fun u hu => by omega, fun u _ => ⟨rfl, fun _ => rfl, rfl⟩⟩
    | succ k ih =>
      intro hkN
      obtain ⟨s1, P1, b1, b2, b3, b4⟩ := ih (by omega)
      obtain ⟨b5, b6, b7⟩ := b4 k (Nat.le_refl _)
      have hst := Step.resume (T := T) (s := s1) (t := k) 0#32 0#32 (b2 k) (fun u _ hu => by rw [b2 u] at hu; cases hu)
      have h2 : R _ P1 := hR.step _ _ _ _ _ b1 hst (by simp) (fun f hf => by simp at hf)
      obtain ⟨s2, x2, e2, h2, y1, y2, y3⟩ : ∃ (s2 : State n) (x2 : Thread n), s2.th = upd s1.th k x2 ∧ R s2 P1 ∧ x2.run = true ∧
          x2.saved = (s0.th k).saved ∧ x2.top.isSome = (s0.th k).top.isSome := by
        refine ⟨_, _, rfl, h2, rfl, ?_, ?_⟩
        · show (s1.th k).saved = _
          rw [b5]
        · show (fixTop T (s1.th k)).isSome = _
          rw [fixTop_isSome, b5]
      have hx2 : s2.th k = x2 := by rw [e2, updT_same]
      have hph : P1.ph k = P.ph k := funext b6
      obtain ⟨s3, P3, x3, c1, c2, c3, c4, c5, c6, c7, c8, c9⟩ := finish_levels hR (t := k) hkN _ s2 P1 h2
        (by rw [hx2]; exact y1) rfl (fun d hd => by
          rw [hx2, y2] at hd
          rw [hph]
          exact a2.back k d hd)
      have hx3 : s3.th k = x3 := by rw [c2, updT_same]
      have hst2 := Step.preempt (T := T) (s := s3) (t := k) (by rw [hx3]; exact c3)
      have h4 : R _ P3 := hR.step _ _ _ _ _ c1 hst2 (by simp) (fun f hf => by simp at hf)
      have hth : ∀ u, u ≠ k → (s3.set k { s3.th k with run := false }).th u = s1.th u := fun u e => by
        simp only [State.set]
        rw [updT_other _ _ e, c2, updT_other _ _ e, e2, updT_other _ _ e]
      have hk : Idle ((s3.set k { s3.th k with run := false }).th k) := by
        simp only [State.set, updT_same]
        rw [hx3]
        exact ⟨rfl, c4, c5⟩
      have how : owes (s2.th k) (P1.ph k) = owes (s.th k) (P.ph k) := by
        rw [← a4 k, hx2, hph]
        unfold owes levelOwes
        rw [y2, y3]
      refine ⟨_, P3, h4, fun u => ?_, fun u hu => ?_, fun u hu => ?_⟩
      · by_cases e : u = k
        · subst e; exact hk.1
        · rw [hth u e]; exact b2 u
      · by_cases e : u = k
        · subst e
          refine ⟨hk, c6, ?_⟩
          rw [how, b7] at c8
          exact c8
        · rw [hth u e]
          obtain ⟨d1, d2, d3⟩ := b3 u (by omega)
          exact ⟨d1, fun d => by rw [c7 u e d]; exact d2 d, by rw [c9 u e]; exact d3⟩
      · have e : u ≠ k := by omega
        obtain ⟨d1, d2, d3⟩ := b4 u (by omega)
        exact ⟨by rw [hth u e]; exact d1, fun d => by rw [c7 u e d]; exact d2 d, by rw [c9 u e]; exact d3⟩
  obtain ⟨s', P', b1, b2, b3, b4⟩ := key N (Nat.le_refl _)
  refine ⟨s', P', b1, fun u => ?_, fun u d => ?_, fun u hu => (b3 u hu).2.2⟩
  · rcases Nat.lt_or_ge u N with h | h
    · exact (b3 u h).1
    · obtain ⟨i1, i2⟩ := a2.few u h
      rw [(b4 u h).1]; exact i1
  · rcases Nat.lt_or_ge u N with h | h
    · exact (b3 u h).2.1 d
    · rw [(b4 u h).2.1 d]; exact (a2.few u h).2 d

/-- `j` iterations of a registered thread that runs alone, while all locks are free. -/
theorem spin_calls (hn : 4 ≤ n) (hbe : ∀ p, (T p).prog.be = be) (hA : SpinApart lock ctr cpus)
    (h0 : ∀ c ∈ cpus, ldw be m0 (lock c) = 0#_) (hR : SpinClosed T fld be lock ctr cpus N m0 R)
    (hS : CanCall T fld .cbneStore) {c : BitVec 32} (hc : c ∈ cpus) {t : Nat} (htN : t < N) : ∀ (j : Nat) (s : State n)
    (P : Loops n), R s P → (s.th t).run = true → (s.th t).reg = true → (s.th t).fv fld = c →
    (∀ u, (s.th u).top = none ∧ (s.th u).saved = []) → (∀ u d, P.ph u d = .idle) →
    ∃ s' P' cs, R s' P' ∧ s'.th = upd s.th t { s.th t with cs := cs } ∧ (∀ u d, P'.ph u d = .idle) ∧
      P'.done t = P.done t + j ∧ ∀ u, u ≠ t → P'.done u = P.done u := by
  intro j
  induction j with
  | zero =>
    intro s P h _ _ _ _ hp
    refine ⟨s, P, (s.th t).cs, h, ?_, hp, rfl, fun _ _ => rfl⟩
    funext u
    by_cases e : u = t
    · subst e; rw [updT_same]
    · rw [updT_other _ _ e]
  | succ j ih =>
    intro s P h hr hg hv hq hp
    have hz := spin_free hn hbe hA h0 (hR.reach _ _ h) (fun u => ⟨(hq u).1, fun f hf => by rw [(hq u).2] at hf; cases hf⟩) hc
      (fun u d => by rw [hp u d]; simp [Phase.holds])
    obtain ⟨f0, f1, f2, f3, f4⟩ := hS (.cbneStore (lock c) 0#_ 1#_) c s.mem rfl trivial trivial
    have hlen : (s.th t).saved.length = 0 := by rw [(hq t).2]; rfl
    obtain ⟨s1, cs, b1, b2, -⟩ := alone_frame (T := T) (t := t) (s := s) (f0 := f0)
      (P := fun s1 => R s1 P ∧ (s1.th t).saved.length = 0 ∧ ∀ f, (s1.th t).top = some f → f.cpu = c)
      (Q := fun s1 => R s1 (P.at t 0 (.got c))) hn f1 hr (hq t).1 hg
      (by rw [f4, f3]; exact hv) (r := 0) (m' := stw be s.mem (lock c) 1#_)
      (by rw [f2]; simp only [pseudo]; rw [hbe, if_neg (by exact not_not_intro hz)])
      (fun s' hs => by
        refine ⟨hR.step _ _ _ _ _ h hs (by simp) (fun f hf => ?_), ?_⟩
        · injection hf with hf
          subst hf
          exact ⟨hp _ _, f4, f3 ▸ hc, by rw [f3]; exact f2⟩
        · cases hs with
          | invoke =>
            simp only [State.set, updT_same]
            exact ⟨hlen, fun f hf => by injection hf with hf; subst hf; exact f3⟩)
      (fun s s' h hs => by
        refine ⟨hR.step _ _ _ _ _ h.1 hs (by simp) (fun f hf => by simp at hf), ?_⟩
        cases hs with
        | exec f i ins l' m' hr ht _ _ _ =>
          simp only [updT_same]
          exact ⟨h.2.1, fun g hg => by injection hg with hg; subst hg; exact h.2.2 f ht⟩)
      (fun s s' f h hf hpc hs => by
        have := hR.step _ _ _ _ _ h.1 hs (by simp) (fun f hf => by simp at hf)
        unfold Loops.call at this
        rw [hf] at this
        dsimp only at this
        rw [if_pos hpc, h.2.1, h.2.2 f hf] at this
        exact this)
    have hs1 : s1.th t = { s.th t with cs := cs } := by rw [b2, updT_same]
    have hl1 : (s1.th t).saved.length = 0 := by rw [hs1]; exact hlen
    obtain ⟨s2, P2, c1, c2, c3⟩ := finish_pass hR b1 htN (by rw [hs1]; exact hr) (by rw [hs1]; exact (hq t).1)
    rw [hl1, (moved_at P t 0 (.got c)).1] at c3
    have m2 := (moved_at P t 0 (.got c)).trans c3
    have hp2 : ∀ u d, P2.ph u d = .idle := fun u d => by
      by_cases e : u = t ∧ d = 0
      · rw [e.1, e.2]; exact m2.1
      · rw [m2.2.1 u d e]; exact hp u d
    have hs2 : s2.th t = { s.th t with cs := cs } := by rw [c2]; exact hs1
    obtain ⟨s3, P3, cs', d1, d2, d3, d4, d5⟩ := ih s2 P2 c1 (by rw [hs2]; exact hr) (by rw [hs2]; exact hg)
      (by rw [hs2]; rw [← hv]; cases fld <;> rfl)
      (fun u => by
        rw [c2]
        by_cases e : u = t
        · subst e; rw [hs1]; exact hq u
        · rw [b2, updT_other _ _ e]; exact hq u) hp2
    refine ⟨s3, P3, cs', d1, ?_, d3, ?_, fun u hu => (d5 u hu).trans (m2.2.2.2 u hu)⟩
    · rw [d2, hs2]
      funext u
      by_cases e : u = t
      · subst e; rw [updT_same, updT_same]
      · rw [updT_other _ _ e, updT_other _ _ e, c2, b2, updT_other _ _ e]
    · rw [d4, m2.2.2.1]
      show P.done t + (0 + 1) + j = _
      omega

/-- From every state of the spinlock test in which no thread is beyond its last iteration, the threads can be scheduled so
that each ends having made `reps` iterations, with all locks given back. -/
theorem spin_drains (hn : 4 ≤ n) (hbe : ∀ p, (T p).prog.be = be) (hA : SpinApart lock ctr cpus)
    (h0 : ∀ c ∈ cpus, ldw be m0 (lock c) = 0#_) (hR : SpinClosed T fld be lock ctr cpus N m0 R)
    (hS : CanCall T fld .cbneStore) {c : BitVec 32} (hc : c ∈ cpus) {s : State n} {P : Loops n} (h : R s P)
    (hT : Tame N s P) {reps : Nat} (hd : ∀ t, t < N → P.done t + owes (s.th t) (P.ph t) ≤ reps) :
    ∃ s' P', R s' P' ∧ (∀ t, t < N → P'.done t = reps) ∧ (∀ u, Idle (s'.th u)) ∧ ∀ u d, P'.ph u d = .idle := by
  obtain ⟨s0, P0, a1, a2, a3, a4⟩ := spin_settle hR h hT
  have key : ∀ k, k ≤ N → ∃ s' P', R s' P' ∧ (∀ t, t < k → P'.done t = reps) ∧ (∀ t, t < N → P'.done t ≤ reps) ∧
      (∀ u, Idle (s'.th u)) ∧ ∀ u d, P'.ph u d = .idle := by
    intro k
    induction k with
    | zero => exact fun _ => ⟨s0, P0, a1, fun t ht => by omega, fun t ht => Nat.le_trans (a4 t ht) (hd t ht), a2, a3⟩
    | succ k ih =>
      intro hkN
      obtain ⟨s1, P1, b1, b2, b3, b4, b5⟩ := ih (by omega)
      obtain ⟨s2, x, c1, -, c3, c4, c5, c6, c7, c8, c9⟩ := put_on (T := T) (t := k) (P := fun s => R s P1)
        (fun s s' lab h hs hl => by
          have := hR.step _ _ _ _ _ h hs (by rcases hl with e | e <;> rw [e] <;> simp)
            (fun f hf => by rcases hl with e | e <;> rw [e] at hf <;> simp at hf)
          rcases hl with e | e <;> subst e <;> exact this) b1 b4 c
      have hx : s2.th k = x := by rw [c3, updT_same]
      obtain ⟨s3, P3, cs, d1, d2, d3, d4, d5⟩ := spin_calls hn hbe hA h0 hR hS hc hkN (reps - P1.done k) s2 P1 c1
        (by rw [hx]; exact c4) (by rw [hx]; exact c7) (by rw [hx]; cases fld <;> assumption)
        (fun u => by
          by_cases e : u = k
          · subst e; rw [hx]; exact ⟨c5, c6⟩
          · rw [c3, updT_other _ _ e]; exact (b4 u).2) b5
      have h3 : s3.th k = { x with cs := cs } := by rw [d2, updT_same, hx]
      have hst := Step.preempt (T := T) (s := s3) (t := k) (by rw [h3]; exact c4)
      have e3 : R _ P3 := hR.step _ _ _ _ _ d1 hst (by simp) (fun f hf => by simp at hf)
      have hk := b3 k hkN
      refine ⟨_, P3, e3, fun t ht => ?_, fun t ht => ?_, fun u => ?_, d3⟩
      · by_cases e : t = k
        · subst e; rw [d4]; omega
        · rw [d5 t e]; exact b2 t (by omega)
      · by_cases e : t = k
        · subst e; rw [d4]; omega
        · rw [d5 t e]; exact b3 t ht
      · simp only [State.set]
        by_cases e : u = k
        · subst e; rw [updT_same, h3]; exact ⟨rfl, c5, c6⟩
        · rw [updT_other _ _ e, d2, updT_other _ _ e, c3, updT_other _ _ e]; exact b4 u
  obtain ⟨s', P', b1, b2, -, b4, b5⟩ := key N (Nat.le_refl _)
  exact ⟨s', P', b1, b2, b4, b5⟩

end Verif.Rseq
