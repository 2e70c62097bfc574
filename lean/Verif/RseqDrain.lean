import Verif.RseqBoundProps
import Verif.RseqSolo

/-!
Schedules that let every thread finish what it is doing.  From any reachable state the threads can be run one after the
other until none of them is inside a helper or a signal handler.
-/

namespace Verif.Rseq

variable {n : Nat} {T : Nat → Site n}

/-- The call ends if the thread runs alone. -/
def Ends (T : Nat → Site n) (f : Frame n) : Prop := ∃ V φ, Fueled (T f.pid).prog V φ ∧ V f.l

/-- The thread is not on a CPU and in no helper and no handler. -/
def Idle (x : Thread n) : Prop := x.run = false ∧ x.top = none ∧ x.saved = []

/-- All calls in progress can end, and only finitely many threads have started. -/
structure Live (T : Nat → Site n) (s : State n) : Prop where
  top : ∀ t f, (s.th t).top = some f → Ends T f
  saved : ∀ t f, some f ∈ (s.th t).saved → Ends T f
  few : ∃ M, ∀ u, M ≤ u → Idle (s.th u)

theorem Live.upd {s s' : State n} (h : Live T s) {t : Nat} {x : Thread n} (e : s'.th = Rseq.upd s.th t x)
    (h1 : ∀ f, x.top = some f → Ends T f) (h2 : ∀ f, some f ∈ x.saved → Ends T f) : Live T s' := by
  refine ⟨fun u f hf => ?_, fun u f hf => ?_, ?_⟩
  · rw [e] at hf
    by_cases hu : u = t
    · subst hu; rw [updT_same] at hf; exact h1 f hf
    · rw [updT_other _ _ hu] at hf; exact h.top u f hf
  · rw [e] at hf
    by_cases hu : u = t
    · subst hu; rw [updT_same] at hf; exact h2 f hf
    · rw [updT_other _ _ hu] at hf; exact h.saved u f hf
  · obtain ⟨M, hM⟩ := h.few
    refine ⟨M + t + 1, fun u hu => ?_⟩
    rw [e, updT_other _ _ (by omega)]
    exact hM u (by omega)

theorem ends_fix {x : Thread n} (h : ∀ f, x.top = some f → Ends T f) {f : Frame n} (hf : fixTop T x = some f) :
    Ends T f := by
  unfold fixTop at hf
  cases ht : x.top with
  | none => rw [ht] at hf; cases hf
  | some g =>
    rw [ht] at hf
    obtain ⟨V, φ, F, hV⟩ := h g ht
    cases hp : g.l.pc with
    | ret r => simp only [hp] at hf; injection hf with hf; subst hf; exact ⟨V, φ, F, hV⟩
    | «at» i =>
      simp only [hp] at hf
      split at hf
      · rename_i hc
        injection hf with hf; subst hf
        exact ⟨V, φ, F, (F.abort _ i hV hp hc.2.2.2).1⟩
      · injection hf with hf; subst hf; exact ⟨V, φ, F, hV⟩

theorem Live.step {s s' : State n} {t : Nat} {lab : Lab n} (h : Live T s) (hs : Step T s t lab s') : Live T s' := by
  have hsv := h.saved t
  have htp := h.top t
  cases hs with
  | invoke f hr ht hf hu =>
    refine h.upd rfl (fun g hg => ?_) hsv
    injection hg with hg
    subst hg
    obtain ⟨V, φ, F, hV, -⟩ := plain_bounded f _ hf
    exact ⟨V, φ, F, hV⟩
  | exec f i ins l' m' hr ht hp hc he =>
    refine h.upd rfl (fun g hg => ?_) hsv
    injection hg with hg
    subst hg
    obtain ⟨V, φ, F, hV⟩ := htp f ht
    refine ⟨V, φ, F, ?_⟩
    have := (F.exec ((s.th t).fv f.fld) i ins f.l s.mem hV hp hc).1
    rw [he] at this
    exact this
  | ret f r hr ht hp => exact h.upd rfl (fun g hg => by cases hg) hsv
  | user m' hr ht => exact ⟨h.top, h.saved, h.few⟩
  | preempt hr => exact h.upd rfl htp hsv
  | resume c k hr hd => exact h.upd rfl (fun g hg => ends_fix htp hg) hsv
  | signal hr =>
    refine h.upd rfl (fun g hg => by cases hg) (fun g hg => ?_)
    rcases List.mem_cons.1 hg with e | e
    · exact ends_fix htp e.symm
    · exact hsv g e
  | sigret f rest hr ht hq =>
    refine h.upd rfl (fun g hg => hsv g ?_) (fun g hg => hsv g ?_)
    · rw [hq]; exact hg ▸ .head _
    · rw [hq]; exact .tail _ hg
  | register hr ht hq hn => exact h.upd rfl htp hsv
  | unregister hr ht hq hn => exact h.upd rfl htp hsv
  | clear hr ht => exact h.upd rfl htp hsv

theorem live_init (m : Mem n) : Live T { mem := m, th := fun _ => thread0 } :=
  ⟨fun t f h => by simp [thread0] at h, fun t f h => by simp [thread0] at h, 0, fun u _ => ⟨rfl, rfl, rfl⟩⟩

theorem AnyReach.live {m0 : Mem n} {s : State n} (h : AnyReach T m0 s) : Live T s := by
  induction h with
  | init => exact live_init _
  | step _ hs ih => exact ih.step hs

/-! ### Running a thread until it is outside of helpers and handlers -/

/-- The set `P` of states is closed under the steps that let one of `M` threads go on with what it is doing. -/
def Closed (T : Nat → Site n) (M : Nat) (P : State n → Prop) : Prop :=
  ∀ s s' t lab, t < M → P s → Step T s t lab s' → lab = .exec ∨ lab = .ret ∨ lab = .sigret ∨ lab = .preempt ∨ lab = .resume →
    P s'

theorem finish_top {P : State n → Prop} {M : Nat} (hP : Closed T M P) {t : Nat} (htM : t < M) {s : State n} (h : P s) (hl : Live T s)
    (hr : (s.th t).run = true) : ∃ s' x, P s' ∧ Live T s' ∧ s'.th = upd s.th t x ∧ x.run = true ∧ x.top = none ∧
      x.saved = (s.th t).saved := by
  cases ht : (s.th t).top with
  | none =>
    refine ⟨s, s.th t, h, hl, ?_, hr, ht, rfl⟩
    funext u
    by_cases e : u = t
    · subst e; rw [updT_same]
    · rw [updT_other _ _ e]
  | some f =>
    obtain ⟨V, φ, F, hV⟩ := hl.top t f ht
    obtain ⟨j, -, r, hj⟩ := F.returns ((s.th t).fv f.fld) _ f.l s.mem hV (Nat.le_refl _)
    obtain ⟨s1, f', cs, ⟨b1, bl⟩, b2, b3, -⟩ := solo_rel (T := T) (t := t) (P := fun s => P s ∧ Live T s)
      (fun a b ha hs => ⟨hP _ _ _ _ htM ha.1 hs (.inl rfl), ha.2.step hs⟩) (fv := (s.th t).fv f.fld) (p := (T f.pid).prog) j
      s f (Rseq.run (T f.pid).prog ((s.th t).fv f.fld) j (f.l, s.mem)).1
      (Rseq.run (T f.pid).prog ((s.th t).fv f.fld) j (f.l, s.mem)).2 ⟨h, hl⟩ hr ht rfl rfl rfl
    have hs1 : s1.th t = { s.th t with top := some f', cs := cs } := by rw [b2, updT_same]
    have hst := Step.ret (T := T) (s := s1) (t := t) f' r (by rw [hs1]; exact hr) (by rw [hs1]) (by rw [b3]; exact hj)
    refine ⟨_, { s1.th t with top := none }, hP _ _ _ _ htM b1 hst (.inr (.inl rfl)), bl.step hst, ?_, by rw [hs1]; exact hr, rfl,
      by rw [hs1]⟩
    simp only [State.set]
    funext u
    by_cases e : u = t
    · subst e; rw [updT_same, updT_same]
    · rw [updT_other _ _ e, updT_other _ _ e, b2, updT_other _ _ e]

theorem finish_all {P : State n → Prop} {M : Nat} (hP : Closed T M P) {t : Nat} (htM : t < M) : ∀ (k : Nat) (s : State n), P s → Live T s →
    (s.th t).run = true → (s.th t).saved.length = k → ∃ s' x, P s' ∧ Live T s' ∧ s'.th = upd s.th t x ∧ x.run = true ∧
      x.top = none ∧ x.saved = [] := by
  intro k
  induction k with
  | zero =>
    intro s h hl hr hk
    obtain ⟨s', x, a1, a2, a3, a4, a5, a6⟩ := finish_top hP htM h hl hr
    exact ⟨s', x, a1, a2, a3, a4, a5, a6.trans (List.length_eq_zero_iff.1 hk)⟩
  | succ k ih =>
    intro s h hl hr hk
    obtain ⟨s1, x, a1, a2, a3, a4, a5, a6⟩ := finish_top hP htM h hl hr
    have hx : s1.th t = x := by rw [a3, updT_same]
    cases hsv : x.saved with
    | nil => rw [← a6, hsv] at hk; simp at hk
    | cons f rest =>
      have hst := Step.sigret (T := T) (s := s1) (t := t) f rest (by rw [hx]; exact a4) (by rw [hx]; exact a5)
        (by rw [hx]; exact hsv)
      obtain ⟨s', y, c1, c2, c3, c4⟩ := ih _ (hP _ _ _ _ htM a1 hst (.inr (.inr (.inl rfl)))) (a2.step hst)
        (by simp only [State.set, updT_same]; rw [hx]; exact a4)
        (by
          simp only [State.set, updT_same]
          rw [← a6, hsv] at hk
          simpa using hk)
      refine ⟨s', y, c1, c2, ?_, c4⟩
      rw [c3]
      simp only [State.set]
      funext u
      by_cases e : u = t
      · subst e; rw [updT_same, updT_same]
      · rw [updT_other _ _ e, updT_other _ _ e, updT_other _ _ e, a3, updT_other _ _ e]

/-- No thread is on a CPU. -/
theorem stop_all {P : State n → Prop} {M : Nat} (hP : Closed T M P) {s : State n} (h : P s) (hl : Live T s)
    (hM : ∀ u, M ≤ u → Idle (s.th u)) : ∀ k, k ≤ M → ∃ s', P s' ∧ Live T s' ∧ (∀ u, u < k → (s'.th u).run = false) ∧
      ∀ u, M ≤ u → Idle (s'.th u) := by
  intro k
  induction k with
  | zero => exact fun _ => ⟨s, h, hl, fun u hu => by omega, hM⟩
  | succ k ih =>
    intro hkM
    obtain ⟨s1, a1, a2, a3, a4⟩ := ih (by omega)
    cases hr : (s1.th k).run with
    | false =>
      refine ⟨s1, a1, a2, fun u hu => ?_, a4⟩
      by_cases e : u = k
      · subst e; exact hr
      · exact a3 u (by omega)
    | true =>
      have hst := Step.preempt (T := T) (s := s1) (t := k) hr
      refine ⟨_, hP _ _ _ _ hkM a1 hst (by simp), a2.step hst, fun u hu => ?_, fun u hu => ?_⟩
      · simp only [State.set]
        by_cases e : u = k
        · subst e; rw [updT_same]
        · rw [updT_other _ _ e]; exact a3 u (by omega)
      · simp only [State.set]
        by_cases e : u = k
        · subst e; have := (a4 u hu).1; rw [hr] at this; cases this
        · rw [updT_other _ _ e]; exact a4 u hu

/-- From every state of a set that is closed under the steps of threads going on with what they are doing, a state of the set can
be reached in which every thread is idle. -/
theorem settle {P : State n → Prop} {M : Nat} (hP : Closed T M P) {s : State n} (h : P s) (hl : Live T s)
    (hM : ∀ u, M ≤ u → Idle (s.th u)) : ∃ s', P s' ∧ Live T s' ∧ ∀ u, Idle (s'.th u) := by
  obtain ⟨s0, a1, a2, a3, a4⟩ := stop_all hP h hl hM M (Nat.le_refl _)
  have key : ∀ k, k ≤ M → ∃ s', P s' ∧ Live T s' ∧ (∀ u, (s'.th u).run = false) ∧ (∀ u, u < k → Idle (s'.th u)) ∧
      ∀ u, M ≤ u → Idle (s'.th u) := by
    intro k
    induction k with
    | zero =>
      refine fun _ => ⟨s0, a1, a2, fun u => ?_, fun u hu => by omega, a4⟩
      rcases Nat.lt_or_ge u M with h | h
      · exact a3 u h
      · exact (a4 u h).1
    | succ k ih =>
      intro hkM
      obtain ⟨s1, b1, b2, b3, b4, b5⟩ := ih (by omega)
      have hst := Step.resume (T := T) (s := s1) (t := k) 0#32 0#32 (b3 k) (fun u _ hu => by rw [b3 u] at hu; cases hu)
      obtain ⟨s2, x, c1, c2, c3, c4, c5, c6⟩ := finish_all hP (t := k) hkM _ _ (hP _ _ _ _ hkM b1 hst (by simp)) (b2.step hst)
        (by simp only [State.set, updT_same]) rfl
      have hx : s2.th k = x := by rw [c3, updT_same]
      have hst2 := Step.preempt (T := T) (s := s2) (t := k) (by rw [hx]; exact c4)
      have hth : ∀ u, u ≠ k → (s2.set k { s2.th k with run := false }).th u = s1.th u := fun u e => by
        simp only [State.set] at c3 ⊢
        rw [updT_other _ _ e, c3, updT_other _ _ e, updT_other _ _ e]
      have hk : Idle ((s2.set k { s2.th k with run := false }).th k) := by
        simp only [State.set, updT_same]
        rw [hx]
        exact ⟨rfl, c5, c6⟩
      refine ⟨_, hP _ _ _ _ hkM c1 hst2 (by simp), c2.step hst2, fun u => ?_, fun u hu => ?_, fun u hu => ?_⟩
      · by_cases e : u = k
        · subst e; exact hk.1
        · rw [hth u e]; exact b3 u
      · by_cases e : u = k
        · subst e; exact hk
        · rw [hth u e]; exact b4 u (by omega)
      · by_cases e : u = k
        · subst e; exact hk
        · rw [hth u e]; exact b5 u hu
  obtain ⟨s', b1, b2, b3, b4, b5⟩ := key M (Nat.le_refl _)
  refine ⟨s', b1, b2, fun u => ?_⟩
  rcases Nat.lt_or_ge u M with h | h
  · exact b4 u h
  · exact b5 u h

/-- A thread gets the CPU `c` and registers if it has not; the others are not on a CPU. -/
theorem put_on {P : State n → Prop} {t : Nat} (hP : ∀ s s' lab, P s → Step T s t lab s' → lab = .resume ∨ lab = .register → P s')
    {s : State n} (h : P s) (hid : ∀ u, Idle (s.th u)) (c : BitVec 32) :
    ∃ s' x, P s' ∧ s'.mem = s.mem ∧ s'.th = upd s.th t x ∧ x.run = true ∧ x.top = none ∧ x.saved = [] ∧ x.reg = true ∧
      x.cpuId = c ∧ x.mmCid = c := by
  obtain ⟨i1, i2, i3⟩ := hid t
  have hst := Step.resume (T := T) (s := s) (t := t) c c i1 (fun u _ hu => by rw [(hid u).1] at hu; cases hu)
  have h1 := hP _ _ _ h hst (.inl rfl)
  have hfix : fixTop T (s.th t) = none := by unfold fixTop; rw [i2]
  cases hr : (s.th t).reg with
  | true => exact ⟨_, _, h1, rfl, rfl, rfl, hfix, i3, hr, if_pos hr, if_pos hr⟩
  | false =>
    obtain ⟨s1, y, e1, hs1, y1, y2, y3, y4, y5, y6⟩ : ∃ (s1 : State n) (y : Thread n), P s1 ∧ s1 = s.set t y ∧ y.run = true ∧
        y.top = none ∧ y.saved = [] ∧ y.reg = false ∧ y.kcpu = c ∧ y.kcid = c :=
      ⟨_, _, h1, rfl, rfl, hfix, i3, hr, rfl, rfl⟩
    have hth : s1.th t = y := by rw [hs1]; simp only [State.set]; rw [updT_same]
    have hst2 := Step.register (T := T) (s := s1) (t := t) (by rw [hth]; exact y1) (by rw [hth]; exact y2)
      (by rw [hth]; intro f hf; rw [y3] at hf; cases hf) (by rw [hth]; exact y4)
    refine ⟨_, { s1.th t with reg := true, cpuId := (s1.th t).kcpu, mmCid := (s1.th t).kcid }, hP _ _ _ e1 hst2 (.inr rfl),
      by rw [hs1]; rfl, ?_, by rw [hth]; exact y1, by rw [hth]; exact y2, by rw [hth]; exact y3, rfl, by rw [hth]; exact y5,
      by rw [hth]; exact y6⟩
    simp only [State.set]
    funext u
    by_cases e : u = t
    · subst e; rw [updT_same, updT_same]
    · rw [updT_other _ _ e, updT_other _ _ e, hs1]; simp only [State.set]; rw [updT_other _ _ e]

/-- A registered thread that finds the CPU it expects makes a call and is left alone. -/
theorem alone_frame (hn : 4 ≤ n) {P Q : State n → Prop} {t : Nat} {s : State n} {f0 : Frame n}
    (hst : Starts T f0 s.mem) (hr : (s.th t).run = true) (htop : (s.th t).top = none) (hreg : (s.th t).reg = true)
    (hfv : (s.th t).fv f0.fld = f0.cpu) {r : Int} {m' : Mem n} (hres : (r, m') = pseudo (T f0.pid).prog.be f0.op s.mem)
    (h0 : ∀ s', Step T s t (.invoke f0) s' → P s')
    (hP : ∀ s s', P s → Step T s t .exec s' → P s')
    (h1 : ∀ s s' f, P s → (s.th t).top = some f → f.l.pc = .ret r → Step T s t .ret s' → Q s') :
    ∃ s' cs, Q s' ∧ s'.th = upd s.th t { s.th t with cs := cs } ∧ s'.mem = m' := by
  have himp := helpers_implement_pseudocode hn _ (T f0.pid).rel (T f0.pid).be _ (T f0.pid).csa f0.op _
    (by rw [← hst.kind]; exact (T f0.pid).ok) hst.ok f0.cpu ((s.th t).fv f0.fld) _ s.mem hst.setup
  have hret := himp.1 hfv
  obtain ⟨j, hj1, hj2, -⟩ := hret
  have hb : Step T s t (.invoke f0) (s.set t { s.th t with top := some f0 }) :=
    .invoke _ hr htop hst (by intro h; rw [hreg] at h; simp at h)
  obtain ⟨s1, f', cs, b1, b2, b3, b4, b5, b6, b7, b8⟩ := solo_rel (T := T) (t := t) hP
    (fv := (s.th t).fv f0.fld) (p := (T f0.pid).prog) j
    (s.set t { s.th t with top := some f0 }) f0
    (Rseq.run (T f0.pid).prog ((s.th t).fv f0.fld) j (f0.l0, s.mem)).1
    (Rseq.run (T f0.pid).prog ((s.th t).fv f0.fld) j (f0.l0, s.mem)).2
    (h0 _ hb) (by simp [State.set, Rseq.upd, hr]) (by simp [State.set, Rseq.upd]) rfl
    (by simp only [State.set, updT_same]; cases f0.fld <;> rfl) (by rw [hst.l]; rfl)
  have hs1 : s1.th t = { s.th t with top := some f', cs := cs } := by
    rw [b2]; simp only [State.set, updT_same]
  have hpc : f'.l.pc = .ret r := by
    rw [b3]; exact hj1.trans (congrArg _ (congrArg Prod.fst hres).symm)
  have hst' := Step.ret (T := T) (s := s1) (t := t) f' r (by rw [hs1]; exact hr) (by rw [hs1]) hpc
  refine ⟨_, cs, h1 _ _ f' b1 (by rw [hs1]) hpc hst', ?_, ?_⟩
  · simp only [State.set]
    rw [hs1]
    funext u
    by_cases e : u = t
    · subst e; rw [updT_same, updT_same, ← htop]
    · rw [updT_other _ _ e, updT_other _ _ e, b2, updT_other _ _ e]
      simp only [State.set]; rw [updT_other _ _ e]
  · show s1.mem = m'
    rw [b8, hj2]; exact (congrArg Prod.snd hres).symm

end Verif.Rseq
