import Verif.RseqBufDrain
import Verif.RseqInc

/-!
The threads of the increment test (param_test.c:576-606) can always finish their iterations.
-/

namespace Verif.Rseq

variable {n : Nat} {T : Nat → Site n} {fld : Fld} {ctr : BitVec 32 → W n} {cpus : List (BitVec 32)} {N : Nat}

/-- The number of calls a thread is in, counting those that signal handlers interrupted. -/
def calls (x : Thread n) : Nat := (if x.top.isSome = true then 1 else 0) + x.saved.countP Option.isSome

/-- A set of states of the increment test closed under the steps of the threads. -/
structure IncClosed (T : Nat → Site n) (fld : Fld) (ctr : BitVec 32 → W n) (cpus : List (BitVec 32)) (N : Nat)
    (R : State n → (Nat → Nat) → Prop) : Prop where
  live : ∀ s done, R s done → Live T s
  few : ∀ s done, R s done → ∀ u, N ≤ u → Idle (s.th u)
  step : ∀ s done t lab s', R s done → Step T s t lab s' → t < N → lab ≠ .user →
    (∀ f, lab = .invoke f → f.fld = fld ∧ f.cpu ∈ cpus ∧ f.op = .addStore (ctr f.cpu) 1#_) →
    R s' (finished done s t lab)

theorem IncReach.live {m0 : Mem n} {s : State n} {done : Nat → Nat} (h : IncReach T fld ctr cpus N m0 s done) :
    Live T s ∧ ∀ u, N ≤ u → Idle (s.th u) := by
  induction h with
  | init => exact ⟨live_init _, fun u _ => ⟨rfl, rfl, rfl⟩⟩
  | step _ hs ht _ _ ih =>
    refine ⟨ih.1.step hs, fun u hu => ?_⟩
    rw [hs.other (by omega)]
    exact ih.2 u hu

theorem fixTop_isSome (x : Thread n) : (fixTop T x).isSome = x.top.isSome := by
  unfold fixTop
  cases ht : x.top with
  | none => rfl
  | some f =>
    cases hp : f.l.pc with
    | ret r => simp only [hp]
    | «at» i => simp only [hp]; split <;> rfl

/-- Going on with what it is doing, a thread does not exceed the iterations of its calls. -/
theorem calls_step {s s' : State n} {t : Nat} {lab : Lab n} (hs : Step T s t lab s')
    (hl : lab = .exec ∨ lab = .ret ∨ lab = .sigret ∨ lab = .preempt ∨ lab = .resume) (done : Nat → Nat) (u : Nat) :
    finished done s t lab u + calls (s'.th u) ≤ done u + calls (s.th u) := by
  by_cases e : u = t
  · subst e
    cases hs with
    | exec f i ins l' m' hr ht hp hc he => simp [finished, calls, updT_same, ht]
    | ret f r hr ht hp =>
      simp only [finished, ht, State.set, updT_same, calls]
      split <;> simp <;> omega
    | preempt hr => simp [finished, calls, State.set, updT_same]
    | resume c k hr hd => simp [finished, calls, State.set, updT_same, fixTop_isSome]
    | sigret f rest hr ht hq =>
      simp only [finished, calls, State.set, updT_same, ht, hq, List.countP_cons]
      simp
      omega
    | invoke => simp at hl
    | user => simp at hl
    | signal => simp at hl
    | register => simp at hl
    | unregister => simp at hl
    | clear => simp at hl
  · rw [hs.other (Ne.symm e)]
    have : finished done s t lab u = done u := by
      rcases hl with h | h | h | h | h <;> subst h
      case inr.inl =>
        simp only [finished]
        cases (s.th t).top with
        | none => rfl
        | some f =>
          dsimp only
          split
          · exact if_neg e
          · rfl
      all_goals rfl
    omega

/-- `j` iterations of a registered thread that runs alone. -/
theorem inc_calls (hn : 4 ≤ n) {R : State n → (Nat → Nat) → Prop} (hR : IncClosed T fld ctr cpus N R)
    (hS : CanCall T fld .addStore) {c : BitVec 32} (hc : c ∈ cpus) {t : Nat} (htN : t < N) : ∀ (j : Nat) (s : State n)
    (done : Nat → Nat), R s done → (s.th t).run = true → (s.th t).top = none → (s.th t).reg = true → (s.th t).fv fld = c →
    ∃ s' cs, R s' (fun u => if u = t then done u + j else done u) ∧ s'.th = upd s.th t { s.th t with cs := cs } := by
  intro j
  induction j with
  | zero =>
    intro s done h _ _ _ _
    refine ⟨s, (s.th t).cs, ?_, ?_⟩
    · have : (fun u => if u = t then done u + 0 else done u) = done := by funext u; simp
      rw [this]; exact h
    · funext u
      by_cases e : u = t
      · subst e; rw [updT_same]
      · rw [updT_other _ _ e]
  | succ j ih =>
    intro s done h hr ht hg hv
    obtain ⟨f0, f1, f2, f3, f4⟩ := hS (.addStore (ctr c) 1#_) c s.mem rfl trivial trivial
    obtain ⟨s1, cs, b1, b2, -⟩ := alone_frame (T := T) (t := t) (s := s) (f0 := f0)
      (P := fun s1 => R s1 done) (Q := fun s1 => R s1 (fun u => if u = t then done u + 1 else done u)) hn f1 hr ht hg
      (by rw [f4, f3]; exact hv) (r := 0) (m' := (pseudo (T f0.pid).prog.be f0.op s.mem).2) (by rw [f2]; rfl)
      (fun s' hs => by
        have := hR.step _ _ _ _ _ h hs htN (by simp) (fun f hf => by
          injection hf with hf; subst hf; exact ⟨f4, f3 ▸ hc, by rw [f3]; exact f2⟩)
        simpa only [finished] using this)
      (fun s s' h hs => by
        have := hR.step _ _ _ _ _ h hs htN (by simp) (fun f hf => by simp at hf)
        simpa only [finished] using this)
      (fun s s' f h hf hp hs => by
        have := hR.step _ _ _ _ _ h hs htN (by simp) (fun f hf => by simp at hf)
        simp only [finished, hf, hp, if_true] at this
        exact this)
    have hs1 : s1.th t = { s.th t with cs := cs } := by rw [b2, updT_same]
    obtain ⟨s2, cs', c1, c2⟩ := ih s1 _ b1 (by rw [hs1]; exact hr) (by rw [hs1]; exact ht) (by rw [hs1]; exact hg)
      (by rw [hs1]; rw [← hv]; cases fld <;> rfl)
    refine ⟨s2, cs', ?_, ?_⟩
    · have : (fun u => if u = t then (if u = t then done u + 1 else done u) + j else if u = t then done u + 1 else done u) =
          fun u => if u = t then done u + (j + 1) else done u := by
        funext u
        by_cases e : u = t
        · simp only [e, if_true]; omega
        · simp only [e, if_false]
      rw [← this]; exact c1
    · rw [c2, hs1]
      funext u
      by_cases e : u = t
      · subst e; rw [updT_same, updT_same]
      · rw [updT_other _ _ e, updT_other _ _ e, b2, updT_other _ _ e]

/-- From every state of the increment test in which no thread is beyond its last iteration, the threads can be scheduled
so that each ends having made `reps` iterations. -/
theorem inc_drains (hn : 4 ≤ n) {R : State n → (Nat → Nat) → Prop} (hR : IncClosed T fld ctr cpus N R)
    (hS : CanCall T fld .addStore) {c : BitVec 32} (hc : c ∈ cpus) {reps : Nat} {s : State n} {done : Nat → Nat}
    (h : R s done) (hd : ∀ t, t < N → done t + calls (s.th t) ≤ reps) :
    ∃ s' done', R s' done' ∧ (∀ t, t < N → done' t = reps) ∧ ∀ u, Idle (s'.th u) := by
  obtain ⟨s0, ⟨d0, h0, hd0⟩, -, hid⟩ := settle (M := N) (P := fun s => ∃ done, R s done ∧ ∀ t, t < N → done t + calls (s.th t) ≤ reps)
    (fun s s' t lab htN ⟨done, h, hd⟩ hs hl => by
      refine ⟨_, hR.step _ _ _ _ _ h hs htN ?_ fun f hf => ?_, fun u hu => Nat.le_trans (calls_step hs hl done u) (hd u hu)⟩
      · rcases hl with e | e | e | e | e <;> rw [e] <;> simp
      · rcases hl with e | e | e | e | e <;> rw [e] at hf <;> simp at hf) ⟨done, h, hd⟩ (hR.live _ _ h) (hR.few _ _ h)
  have key : ∀ k, k ≤ N → ∃ s' done', R s' done' ∧ (∀ t, t < k → done' t = reps) ∧ (∀ t, t < N → done' t ≤ reps) ∧
      ∀ u, Idle (s'.th u) := by
    intro k
    induction k with
    | zero => exact fun _ => ⟨s0, d0, h0, fun t ht => by omega, fun t ht => Nat.le_trans (Nat.le_add_right _ _) (hd0 t ht), hid⟩
    | succ k ih =>
      intro hkN
      obtain ⟨s1, d1, a1, a2, a3, a4⟩ := ih (by omega)
      obtain ⟨s2, x, b1, -, b3, b4, b5, b6, b7, b8, b9⟩ := put_on (T := T) (t := k) (P := fun s => R s d1)
        (fun s s' lab h hs hl => by
          have := hR.step _ _ _ _ _ h hs hkN (by rcases hl with e | e <;> rw [e] <;> simp)
            (fun f hf => by rcases hl with e | e <;> rw [e] at hf <;> simp at hf)
          rcases hl with e | e <;> subst e <;> simpa only [finished] using this) a1 a4 c
      have hx : s2.th k = x := by rw [b3, updT_same]
      obtain ⟨s3, cs, c1, c2⟩ := inc_calls hn hR hS hc hkN (reps - d1 k) s2 d1 b1 (by rw [hx]; exact b4) (by rw [hx]; exact b5)
        (by rw [hx]; exact b7) (by rw [hx]; cases fld <;> assumption)
      have h3 : s3.th k = { x with cs := cs } := by rw [c2, updT_same, hx]
      have hst := Step.preempt (T := T) (s := s3) (t := k) (by rw [h3]; exact b4)
      have d3 := hR.step _ _ _ _ _ c1 hst hkN (by simp) (fun f hf => by simp at hf)
      simp only [finished] at d3
      have hk := a3 k hkN
      refine ⟨_, _, d3, fun t ht => ?_, fun t ht => ?_, fun u => ?_⟩
      · by_cases e : t = k
        · subst e; rw [if_pos rfl]; omega
        · rw [if_neg e]; exact a2 t (by omega)
      · by_cases e : t = k
        · subst e; rw [if_pos rfl]; omega
        · rw [if_neg e]; exact a3 t ht
      · simp only [State.set]
        by_cases e : u = k
        · subst e; rw [updT_same, h3]; exact ⟨rfl, b5, b6⟩
        · rw [updT_other _ _ e, c2, updT_other _ _ e, b3, updT_other _ _ e]; exact a4 u
  obtain ⟨s', d', a1, a2, -, a4⟩ := key N (Nat.le_refl _)
  exact ⟨s', d', a1, a2, a4⟩

end Verif.Rseq
