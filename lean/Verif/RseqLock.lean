import Verif.RseqClient
/-
Per-CPU locks: `rseq_this_cpu_lock` and `rseq_percpu_unlock`, tests/basic_percpu_ops_test.c:82-113 (the same
code is in tests/param_test.c).
-/

namespace Verif.Rseq

variable {n : Nat}

/-- Who holds the lock of each CPU: a thread and how many signal handlers deep it acquired the lock. -/
abbrev Owners := BitVec 32 → Option (Nat × Nat)

def setOwner (own : Owners) (c : BitVec 32) (o : Option (Nat × Nat)) : Owners :=
  fun c' => if c' = c then o else own c'

/-- A lock call that returns 0 makes its caller the owner. -/
def acquire (own : Owners) (s : State n) (t : Nat) (lab : Lab n) : Owners :=
  match lab, (s.th t).top with
  | .ret, some f => if f.l.pc = .ret 0 then setOwner own f.cpu (some (t, (s.th t).saved.length)) else own
  | _, _ => own

/-- Executions of any number of threads that use the locks as the two functions do.
* `rseq_this_cpu_lock` calls `rseq_load_cbne_store__ptr(&lock->c[cpu].v, 0, 1, cpu)` and owns the lock when
  that returns 0 (otherwise it tries again, possibly elsewhere);
* `rseq_percpu_unlock(lock, cpu)` is called by the owner, on whatever CPU it is now, and stores 0 with a
  single store.
Other code may do anything but store to the lock words. -/
inductive LReach (T : Nat → Site n) (fld : Fld) (be : Bool) (lock : BitVec 32 → W n) (cpus : List (BitVec 32))
    (m0 : Mem n) : State n → Owners → Prop
  | init : LReach T fld be lock cpus m0 { mem := m0, th := fun _ => thread0 } (fun _ => none)
  | step {s s' : State n} {own : Owners} {t : Nat} {lab : Lab n} (h : LReach T fld be lock cpus m0 s own)
      (hs : Step T s t lab s')
      (hi : ∀ f, lab = .invoke f → f.fld = fld ∧ f.cpu ∈ cpus ∧ f.op = .cbneStore (lock f.cpu) 0#_ 1#_)
      (hu : lab = .user → ∀ c ∈ cpus, ∀ a, InWord (lock c) a → s'.mem a = s.mem a) :
      LReach T fld be lock cpus m0 s' (acquire own s t lab)
  | unlock {s : State n} {own : Owners} {t : Nat} (c : BitVec 32) (h : LReach T fld be lock cpus m0 s own)
      (hc : c ∈ cpus) (ho : own c = some (t, (s.th t).saved.length))
      (hs : Step T s t .user { s with mem := stw be s.mem (lock c) 0#_ }) :
      LReach T fld be lock cpus m0 { s with mem := stw be s.mem (lock c) 0#_ } (setOwner own c none)

/-- A call for CPU `c` that has executed its final store and is about to return 0. -/
def Pend (s : State n) (c : BitVec 32) (t d : Nat) : Prop :=
  ∃ f, frameAt (s.th t) d = some f ∧ f.commits = 1 ∧ f.cpu = c

def IsLock (fld : Fld) (lock : BitVec 32 → W n) (cpus : List (BitVec 32)) (_ : Nat) (f : Frame n) : Prop :=
  f.fld = fld ∧ f.cpu ∈ cpus ∧ f.op = .cbneStore (lock f.cpu) 0#_ 1#_

theorem isLock_args {fld : Fld} {lock : BitVec 32 → W n} {cpus : List (BitVec 32)} :
    ArgsOnly (IsLock fld lock cpus) := by
  intro t f g _ h2 h3 h4 h
  unfold IsLock at h ⊢
  rw [← h2, ← h3, ← h4]
  exact h

/-- The invariant. -/
structure LInv (T : Nat → Site n) (fld : Fld) (be : Bool) (lock : BitVec 32 → W n) (cpus : List (BitVec 32))
    (m0 : Mem n) (s : State n) (own : Owners) : Prop where
  reach : PReach T m0 s
  frames : AllFrames (IsLock fld lock cpus) s
  foot : FootIn T (fun _ f a => InWord (lock f.cpu) a) s
  val : ∀ c ∈ cpus, ldw be s.mem (lock c) = 0#_ ∨ ldw be s.mem (lock c) = 1#_
  own : ∀ c ∈ cpus, own c ≠ none → ldw be s.mem (lock c) = 1#_ ∧ ∀ t d, ¬ Pend s c t d
  pend : ∀ c ∈ cpus, ∀ t d, Pend s c t d →
    ldw be s.mem (lock c) = 1#_ ∧ ∀ t' d', Pend s c t' d' → t' = t ∧ d' = d

variable {T : Nat → Site n} {fld : Fld} {be : Bool} {lock : BitVec 32 → W n} {cpus : List (BitVec 32)}
  {m0 : Mem n}

theorem one_ne_zero_w (hn : 4 ≤ n) : (1#(8 * n)) ≠ 0#(8 * n) := by
  intro h
  have := congrArg BitVec.toNat h
  have h1 : 1 < 2 ^ (8 * n) := Nat.one_lt_two_pow (by omega)
  simp [Nat.mod_eq_of_lt h1] at this

theorem acquire_cases (own : Owners) (s : State n) (t : Nat) (lab : Lab n) :
    acquire own s t lab = own ∨ (lab = .ret ∧ ∃ f, (s.th t).top = some f ∧ f.l.pc = .ret 0 ∧
      acquire own s t lab = setOwner own f.cpu (some (t, (s.th t).saved.length))) := by
  unfold acquire
  split
  · next f hf =>
    split
    · next hp => exact .inr ⟨rfl, f, hf, hp, rfl⟩
    · exact .inl rfl
  · exact .inl rfl

/-- Calls about to return 0, before and after a step. -/
theorem pend_step {s s' : State n} {u : Nat} {lab : Lab n} (hs : Step T s u lab s') {c : BitVec 32}
    {t d : Nat} (h : Pend s' c t d) :
    (Pend s c t d ∧ ¬ (t = u ∧ d = (s.th u).saved.length ∧ lab = .ret)) ∨
    (t = u ∧ d = (s.th u).saved.length ∧ ∃ f i, (s.th u).top = some f ∧ f.l.pc = .at i ∧
      i + 1 = (T f.pid).prog.commit ∧ f.cpu = c) := by
  obtain ⟨g, hg, hgc, hgcpu⟩ := h
  by_cases e : t = u
  · subst e
    rcases frameAt_step hs d g hg with ⟨hl, hd⟩ | ⟨f, hf, -, -, q3, -, q5, q6⟩
    · subst hl
      cases hs with
      | invoke _ hr ht hf hu => rw [hf.commits] at hgc; simp at hgc
    · rcases q5 with q5 | ⟨i, h1, h2, h3, h4, -⟩
      · refine .inl ⟨⟨f, hf, by rw [← q5]; exact hgc, by rw [← q3]; exact hgcpu⟩, ?_⟩
        rintro ⟨-, hd, hl⟩
        subst hl
        cases hs with
        | ret f' r hr ht hp =>
          rw [frameAt_top hd, ht] at hf
          injection hf with hf
          subst hf
          exact q6 ⟨hd, r, rfl, hp⟩
      · exact .inr ⟨rfl, h2, f, i, h1, h3, h4, by rw [← q3]; exact hgcpu⟩
  · refine .inl ⟨⟨g, ?_, hgc, hgcpu⟩, fun h => e h.1⟩
    rw [← hs.other (fun e' => e e'.symm)]; exact hg

/-- The invariant holds in every state. -/
theorem LReach.inv (hn : 4 ≤ n) (hbe : ∀ p, (T p).prog.be = be)
    (hd : ∀ c ∈ cpus, ∀ c' ∈ cpus, ∀ a, InWord (lock c) a → InWord (lock c') a → c = c')
    (h0 : ∀ c ∈ cpus, ldw be m0 (lock c) = 0#_) {s : State n} {own : Owners}
    (h : LReach T fld be lock cpus m0 s own) : LInv T fld be lock cpus m0 s own := by
  have h10 := one_ne_zero_w hn
  induction h with
  | init =>
    refine ⟨.init, AllFrames.init _, ?_, fun c hc => .inl (h0 c hc), fun c _ h => absurd rfl h, ?_⟩
    · intro t f ht; simp [thread0] at ht
    · rintro c - t d ⟨f, hf, -⟩
      rcases frameAt_any hf with h | h <;> simp [thread0] at h
  | @step s s' own t lab h hs hi hu ih =>
    have hI := ih.reach.inv hn
    have hpol : Polite T s t s' := by
      intro u g hut hru hg hzg
      left
      intro a ha
      apply Classical.byContradiction
      intro hne
      have hOn := body_on hn hI hru hg hzg
      have hga := ih.foot u g hg hru hOn.reg hzg a ha
      obtain ⟨g1, g2, g3⟩ := (ih.frames u).1 g hg
      rcases step_changes hn hI hs a (fun e => hne e.symm) with hl | ⟨f, hf, hrf, hzf, hof, -⟩
      · exact hne (hu hl g.cpu g2 a hga).symm
      · obtain ⟨f1, f2, f3⟩ := (ih.frames t).1 f hf
        rw [f3] at hof
        have := hd f.cpu f2 g.cpu g2 a hof hga
        exact hut (body_exclusive hn hI hrf hru hf hg hzf hzg (f1.trans g1.symm) this).symm
    have hreach := ih.reach.step hs hpol
    have hframes := ih.frames.step isLock_args hs (fun f hf => hi f hf)
    have hfoot : FootIn T (fun _ f a => InWord (lock f.cpu) a) s' := by
      refine FootIn.step hn hI ih.foot hs ?_ ?_
      · intro t f g a _ _ h3 _ h; rw [← h3]; exact h
      · intro f hf _ a ha
        obtain ⟨-, -, f3⟩ := (ih.frames t).1 f hf
        rw [f3] at ha; exact ha
    -- either the step is the final store of a call, or no lock word changes and no call becomes pending
    have key : (∃ f i, (s.th t).top = some f ∧ f.l.pc = .at i ∧ i + 1 = (T f.pid).prog.commit ∧
          lab = .exec ∧ pseudo be f.op s.mem = (0, s'.mem)) ∨
        ((∀ c ∈ cpus, ldw be s'.mem (lock c) = ldw be s.mem (lock c)) ∧
          ∀ f i, (s.th t).top = some f → f.l.pc = .at i → i + 1 = (T f.pid).prog.commit →
            lab ≠ .exec) := by
      cases hs with
      | exec f i ins l' m' hr ht hp hc he =>
        rcases (body_access hn hI hr ht hp hc he).2.2.2 with ⟨h1, h2⟩ | ⟨h1, h2⟩
        · rw [hbe] at h2; exact .inl ⟨f, i, ht, hp, h1, rfl, h2⟩
        · right
          obtain ⟨-, -, f3⟩ := (ih.frames t).1 f ht
          rw [f3] at h2
          have : m' = s.mem := by
            funext a
            exact Classical.byContradiction fun h => h2 a h
          refine ⟨fun c _ => by dsimp only; rw [this], ?_⟩
          intro f' i' ht' hp' hcm
          rw [ht] at ht'; injection ht' with ht'; subst ht'
          rw [hp] at hp'; injection hp' with hp'; subst hp'
          exact absurd hcm h1
      | user m' hr ht =>
        right
        refine ⟨fun c hc => ldw_agree fun x hx => hu rfl c hc x hx, fun f i h => ?_⟩
        rw [ht] at h; simp at h
      | _ => exact .inr ⟨fun _ _ => rfl, fun _ _ _ _ _ h => by simp at h⟩
    rcases key with ⟨f, i, ht, hp, hcm, hlab, hps⟩ | ⟨hw, hnc⟩
    · subst hlab
      obtain ⟨f1, f2, f3⟩ := (ih.frames t).1 f ht
      rw [f3] at hps
      have hz : ldw be s.mem (lock f.cpu) = 0#_ := by
        apply Classical.byContradiction
        intro hne
        simp only [pseudo] at hps
        rw [if_pos hne] at hps
        simp at hps
      have hmem : s'.mem = stw be s.mem (lock f.cpu) 1#_ := by
        simp only [pseudo] at hps
        rw [if_neg (by simp [hz])] at hps
        injection hps with _ h; exact h.symm
      have hnone : own f.cpu = none := by
        apply Classical.byContradiction
        intro ho
        exact h10 ((ih.own f.cpu f2 ho).1.symm.trans hz)
      have hnp : ∀ t d, ¬ Pend s f.cpu t d := fun t d hp =>
        h10 ((ih.pend f.cpu f2 t d hp).1.symm.trans hz)
      have hself : ldw be s'.mem (lock f.cpu) = 1#_ := by rw [hmem, ldw_stw_same]
      have hoth : ∀ c ∈ cpus, c ≠ f.cpu → ldw be s'.mem (lock c) = ldw be s.mem (lock c) := by
        intro c hc hne
        rw [hmem]
        exact ldw_stw_ne be s.mem _ _ _ fun x hx hx' => hne (hd c hc f.cpu f2 x hx hx')
      have hpend : ∀ c t' d', Pend s' c t' d' →
          Pend s c t' d' ∨ (c = f.cpu ∧ t' = t ∧ d' = (s.th t).saved.length) := by
        intro c t' d' hp'
        rcases pend_step hs hp' with h | ⟨e1, e2, f', i', h1, -, -, h4⟩
        · exact .inl h.1
        · rw [ht] at h1; injection h1 with h1; subst h1
          exact .inr ⟨h4.symm, e1, e2⟩
      refine ⟨hreach, hframes, hfoot, ?_, ?_, ?_⟩
      · intro c hc
        by_cases e : c = f.cpu
        · subst e; exact .inr hself
        · rw [hoth c hc e]; exact ih.val c hc
      · intro c hc ho
        by_cases e : c = f.cpu
        · subst e; exact absurd hnone ho
        · rw [hoth c hc e]
          refine ⟨(ih.own c hc ho).1, fun t' d' hp' => ?_⟩
          rcases hpend c t' d' hp' with h | h
          · exact (ih.own c hc ho).2 t' d' h
          · exact e h.1
      · intro c hc t1 d1 hp1
        by_cases e : c = f.cpu
        · subst e
          refine ⟨hself, fun t2 d2 hp2 => ?_⟩
          rcases hpend _ t1 d1 hp1 with h | ⟨-, rfl, rfl⟩
          · exact absurd h (hnp _ _)
          · rcases hpend _ t2 d2 hp2 with h | ⟨-, h⟩
            · exact absurd h (hnp _ _)
            · exact h
        · rw [hoth c hc e]
          have h1 : Pend s c t1 d1 := (hpend c t1 d1 hp1).resolve_right fun h => e h.1
          refine ⟨(ih.pend c hc t1 d1 h1).1, fun t2 d2 hp2 => ?_⟩
          exact (ih.pend c hc t1 d1 h1).2 t2 d2 ((hpend c t2 d2 hp2).resolve_right fun h => e h.1)
    · have hpend : ∀ c t' d', Pend s' c t' d' →
          Pend s c t' d' ∧ ¬ (t' = t ∧ d' = (s.th t).saved.length ∧ lab = .ret) := by
        intro c t' d' hp'
        rcases pend_step hs hp' with h | ⟨e1, e2, f', i', h1, h2, h3, -⟩
        · exact h
        · exfalso
          obtain ⟨g, hg, hgc, -⟩ := hp'
          subst e1 e2
          rcases frameAt_step hs _ g hg with ⟨hl, -⟩ | ⟨f, hf, -, -, -, -, q5, -⟩
          · subst hl
            cases hs with
            | invoke _ hr ht hf hu => rw [hf.commits] at hgc; simp at hgc
          · have hft : f = f' := by
              rw [frameAt_top rfl, h1] at hf; injection hf with hf; exact hf.symm
            subst hft
            -- the frame is before its final store, so it has not committed
            have hz : zone (T f.pid).prog f.l.pc = .body := by
              rw [h2]
              have Z := (T f.pid).facts
              have := Z.sc; have := Z.cc; have := Z.ca; have := Z.an; have := Z.nl
              rcases zone_at_cases Z (i := i') with h'|h'|h'|h'|h'|h'|h' <;>
                first | exact h'.1 | omega
            have hc0 := (((hI.th t').top f h1).rng (.inr hz)).commits
            rcases q5 with q5 | ⟨i, -⟩
            · rw [q5, hc0] at hgc; simp at hgc
            · have hlab : lab = .exec ∨ g.commits = f.commits := by
                cases hs with
                | exec => exact .inl rfl
                | invoke _ _ ht _ _ => rw [h1] at ht; simp at ht
                | ret _ _ _ ht hp => rw [h1] at ht; injection ht with ht; subst ht; rw [h2] at hp; simp at hp
                | user _ _ ht => rw [h1] at ht; simp at ht
                | preempt hr =>
                  simp only [State.set, updT_same] at hg
                  rw [frameAt_top (by rfl)] at hg
                  dsimp only at hg
                  rw [h1] at hg; injection hg with hg; subst hg; exact .inr rfl
                | resume c k hr hd =>
                  simp only [State.set, updT_same] at hg
                  rw [frameAt_top (by rfl)] at hg
                  obtain ⟨f'', hf'', -, -, -, -, h5⟩ := fixTop_keep hg
                  rw [h1] at hf''; injection hf'' with hf''; subst hf''; exact .inr h5
                | signal hr =>
                  simp only [State.set, updT_same] at hg
                  rw [frameAt_list] at hg
                  dsimp only at hg
                  rw [join_append_none, List.reverse_cons] at hg
                  have hg := (frameAt_list { s.th t' with top := fixTop T (s.th t') } _).trans hg
                  rw [frameAt_top (by rfl)] at hg
                  obtain ⟨f'', hf'', -, -, -, -, h5⟩ := fixTop_keep hg
                  rw [h1] at hf''; injection hf'' with hf''; subst hf''; exact .inr h5
                | sigret _ _ _ ht _ => rw [h1] at ht; simp at ht
                | register _ ht => rw [h1] at ht; simp at ht
                | unregister _ ht => rw [h1] at ht; simp at ht
                | clear _ ht => rw [h1] at ht; simp at ht
              rcases hlab with hlab | hlab
              · exact hnc f i' h1 h2 h3 hlab
              · rw [hlab, hc0] at hgc; simp at hgc
      have hown : ∀ c ∈ cpus, acquire own s t lab c ≠ none →
          own c ≠ none ∨ (lab = .ret ∧ Pend s c t (s.th t).saved.length) := by
        intro c hc ho
        rcases acquire_cases own s t lab with e | ⟨hl, f, hf, hp, e⟩
        · rw [e] at ho; exact .inl ho
        · rw [e] at ho
          unfold setOwner at ho
          split at ho
          · next e =>
            subst e
            refine .inr ⟨hl, f, by rw [frameAt_top rfl]; exact hf, ?_, rfl⟩
            exact (((hI.th t).top f hf).post (.inr (by rw [hp]; rfl))).2
          · exact .inl ho
      refine ⟨hreach, hframes, hfoot, ?_, ?_, ?_⟩
      · intro c hc; rw [hw c hc]; exact ih.val c hc
      · intro c hc ho
        rw [hw c hc]
        rcases hown c hc ho with ho | ⟨hl, hp⟩
        · exact ⟨(ih.own c hc ho).1, fun t' d' hp' => (ih.own c hc ho).2 t' d' (hpend c t' d' hp').1⟩
        · refine ⟨(ih.pend c hc _ _ hp).1, fun t' d' hp' => ?_⟩
          obtain ⟨h1, h2⟩ := hpend c t' d' hp'
          obtain ⟨e1, e2⟩ := (ih.pend c hc _ _ hp).2 t' d' h1
          exact h2 ⟨e1, e2, hl⟩
      · intro c hc t1 d1 hp1
        rw [hw c hc]
        have h1 := (hpend c t1 d1 hp1).1
        exact ⟨(ih.pend c hc t1 d1 h1).1, fun t2 d2 hp2 => (ih.pend c hc t1 d1 h1).2 t2 d2 (hpend c t2 d2 hp2).1⟩
  | @unlock s own t c h hc ho hs ih =>
    have hI := ih.reach.inv hn
    have hone := ih.own c hc (by rw [ho]; simp)
    have hpol : Polite T s t { s with mem := stw be s.mem (lock c) 0#_ } := by
      intro u g hut hru hg hzg
      obtain ⟨g1, g2, g3⟩ := (ih.frames u).1 g hg
      have hOn := body_on hn hI hru hg hzg
      by_cases e : g.cpu = c
      · rcases cbneStore_quiet hn hI hru hg hzg g3 (by rw [hbe, e, hone.1]; exact h10) with hq | hq
        · exact .inl fun a ha => absurd ha (hq a)
        · exact .inr hq
      · left
        intro a ha
        have hga := ih.foot u g hg hru hOn.reg hzg a ha
        exact (stw_other be s.mem _ _ _ fun hx => e (hd g.cpu g2 c hc a hga hx)).symm
    have hoth : ∀ c' ∈ cpus, c' ≠ c →
        ldw be (stw be s.mem (lock c) 0#_) (lock c') = ldw be s.mem (lock c') := by
      intro c' hc' hne
      exact ldw_stw_ne be s.mem _ _ _ fun x hx hx' => hne (hd c' hc' c hc x hx hx')
    refine ⟨ih.reach.step hs hpol, ih.frames, ih.foot, ?_, ?_, ?_⟩
    · intro c' hc'
      by_cases e : c' = c
      · subst e; left; exact ldw_stw_same be s.mem _ _
      · rw [show ({ s with mem := stw be s.mem (lock c) 0#_ } : State n).mem =
          stw be s.mem (lock c) 0#_ from rfl, hoth c' hc' e]; exact ih.val c' hc'
    · intro c' hc' ho'
      unfold setOwner at ho'
      split at ho'
      · exact absurd rfl ho'
      · next e =>
        rw [show ({ s with mem := stw be s.mem (lock c) 0#_ } : State n).mem =
          stw be s.mem (lock c) 0#_ from rfl, hoth c' hc' e]; exact ih.own c' hc' ho'
    · intro c' hc' t1 d1 hp1
      by_cases e : c' = c
      · subst e; exact absurd hp1 (hone.2 t1 d1)
      · rw [show ({ s with mem := stw be s.mem (lock c) 0#_ } : State n).mem =
          stw be s.mem (lock c) 0#_ from rfl, hoth c' hc' e]; exact ih.pend c' hc' t1 d1 hp1

/-- **C40: mutual exclusion.**  Whenever a lock call is about to return 0, nobody owns the lock of that CPU,
and no other lock call for that CPU is about to return 0: the lock is never handed to two owners, wherever
the previous owner has migrated in the meantime. -/
theorem lock_exclusive (hn : 4 ≤ n) (hbe : ∀ p, (T p).prog.be = be)
    (hd : ∀ c ∈ cpus, ∀ c' ∈ cpus, ∀ a, InWord (lock c) a → InWord (lock c') a → c = c')
    (h0 : ∀ c ∈ cpus, ldw be m0 (lock c) = 0#_) {s : State n} {own : Owners}
    (h : LReach T fld be lock cpus m0 s own) {t d : Nat} {f : Frame n}
    (hf : frameAt (s.th t) d = some f) (hr : f.l.pc = .ret 0) :
    own f.cpu = none ∧ ∀ u e g, frameAt (s.th u) e = some g → g.l.pc = .ret 0 → g.cpu = f.cpu →
      u = t ∧ e = d := by
  have hL := h.inv hn hbe hd h0
  have hI := hL.reach.inv hn
  have hpend : ∀ t d f, frameAt (s.th t) d = some f → f.l.pc = .ret 0 →
      f.cpu ∈ cpus ∧ Pend s f.cpu t d := by
    intro t d f hf hr
    rcases frameAt_any hf with h | h
    · exact ⟨((hL.frames t).1 f h).2.1, f, hf, (((hI.th t).top f h).post (.inr (by rw [hr]; rfl))).2, rfl⟩
    · exact ⟨((hL.frames t).2 f h).2.1, f, hf, (((hI.th t).saved f h).post (.inr (by rw [hr]; rfl))).2, rfl⟩
  obtain ⟨hc, hp⟩ := hpend t d f hf hr
  refine ⟨?_, fun u e g hg hgr hgc => ?_⟩
  · apply Classical.byContradiction
    intro ho
    exact (hL.own f.cpu hc ho).2 t d hp
  · have := (hpend u e g hg hgr).2
    rw [hgc] at this
    exact (hL.pend f.cpu hc t d hp).2 u e this

/-- **C40**: the assertion of `rseq_percpu_unlock` (line 106) never fails: while a lock is owned its word is
1.  And while the word is 0 nobody owns the lock. -/
theorem unlock_assertion (hn : 4 ≤ n) (hbe : ∀ p, (T p).prog.be = be)
    (hd : ∀ c ∈ cpus, ∀ c' ∈ cpus, ∀ a, InWord (lock c) a → InWord (lock c') a → c = c')
    (h0 : ∀ c ∈ cpus, ldw be m0 (lock c) = 0#_) {s : State n} {own : Owners}
    (h : LReach T fld be lock cpus m0 s own) {c : BitVec 32} (hc : c ∈ cpus) :
    (own c ≠ none → ldw be s.mem (lock c) = 1#_) ∧ (ldw be s.mem (lock c) = 0#_ → own c = none) := by
  have hL := h.inv hn hbe hd h0
  refine ⟨fun ho => (hL.own c hc ho).1, fun hz => ?_⟩
  apply Classical.byContradiction
  intro ho
  exact one_ne_zero_w hn ((hL.own c hc ho).1.symm.trans hz)

end Verif.Rseq
