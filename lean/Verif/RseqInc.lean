import Verif.RseqSpinProps
/-
`test_percpu_inc` of tests/param_test.c:577-683 as a program: threads that increment the counter of the CPU they
are on with `rseq_load_add_store__ptr`, and repeat the call until it returns 0.
-/

namespace Verif.Rseq

variable {n : Nat}

/-- `do { ... ret = rseq_load_add_store__ptr(...); } while (rseq_unlikely(ret));` (param_test.c:590-596): an
iteration of a thread is over when the call returns 0. -/
def finished (done : Nat → Nat) (s : State n) (t : Nat) (lab : Lab n) : Nat → Nat :=
  match lab, (s.th t).top with
  | .ret, some f => if f.l.pc = .ret 0 then fun u => if u = t then done u + 1 else done u else done
  | _, _ => done

/-- Executions of `N` threads of the test from memory `m0`, with the number of iterations each thread has finished:
the machine with the helpers, preemption, migration, signals (whose handlers may increment, too). -/
inductive IncReach (T : Nat → Site n) (fld : Fld) (ctr : BitVec 32 → W n) (cpus : List (BitVec 32))
    (N : Nat) (m0 : Mem n) : State n → (Nat → Nat) → Prop
  | init : IncReach T fld ctr cpus N m0 { mem := m0, th := fun _ => thread0 } fun _ => 0
  | step {s s' : State n} {done : Nat → Nat} {t : Nat} {lab : Lab n} (h : IncReach T fld ctr cpus N m0 s done)
      (hs : Step T s t lab s') (ht : t < N)
      (hi : ∀ f, lab = .invoke f → f.fld = fld ∧ f.cpu ∈ cpus ∧ f.op = .addStore (ctr f.cpu) 1#_)
      (hu : lab = .user → ∀ c ∈ cpus, ∀ a, InWord (ctr c) a → s'.mem a = s.mem a) :
      IncReach T fld ctr cpus N m0 s' (finished done s t lab)

/-- A call that has executed its final store and has not returned. -/
def pendN : Option (Frame n) → Nat
  | some f => if f.commits = 1 then 1 else 0
  | none => 0

/-- The number of such calls of a thread. -/
def pends (x : Thread n) : Nat := nsum pendN (x.top :: x.saved)

variable {T : Nat → Site n} {fld : Fld} {ctr : BitVec 32 → W n} {cpus : List (BitVec 32)} {N : Nat}
  {m0 : Mem n} {be : Bool}

theorem nsum_cons {α : Type} (f : α → Nat) (x : α) (l : List α) : nsum f (x :: l) = f x + nsum f l := by simp [nsum]

theorem nsum_range_upd {f g : Nat → Nat} {t : Nat} (ht : t < N) (h : ∀ u, u ≠ t → f u = g u) :
    nsum f (List.range N) + g t = nsum g (List.range N) + f t := by
  have key : ∀ l : List Nat, l.Nodup → t ∈ l → nsum f l + g t = nsum g l + f t := by
    intro l
    induction l with
    | nil => intro _ h; cases h
    | cons x l ih =>
      intro hn hm
      obtain ⟨hx, hl⟩ := List.nodup_cons.1 hn
      rw [nsum_cons, nsum_cons]
      rcases List.mem_cons.1 hm with rfl | hm
      · rw [nsum_congr (g := g) fun y hy => h y fun e => hx (e ▸ hy)]; omega
      · have := ih hl hm
        rw [h x fun e => hx (e ▸ hm)]; omega
  exact key _ List.nodup_range (List.mem_range.2 ht)

theorem pendN_fix {x : Thread n} : pendN (fixTop T x) = pendN x.top := by
  unfold fixTop
  cases x.top with
  | none => rfl
  | some f =>
    dsimp only
    split
    · rfl
    · split <;> rfl

/-- The frames of such an execution increment the counter of the CPU they name by one. -/
def IsOne (fld : Fld) (ctr : BitVec 32 → W n) (cpus : List (BitVec 32)) (_ : Nat) (f : Frame n) : Prop :=
  f.fld = fld ∧ f.cpu ∈ cpus ∧ f.op = .addStore (ctr f.cpu) 1#_

theorem isOne_args : ArgsOnly (IsOne fld ctr cpus) := by
  intro t f g _ h2 h3 h4 h
  unfold IsOne at h ⊢
  rw [← h2, ← h3, ← h4]
  exact h

theorem finished_ne {done : Nat → Nat} {s : State n} {t u : Nat} {lab : Lab n} (h : u ≠ t) :
    finished done s t lab u = done u := by
  unfold finished
  cases lab <;> try rfl
  cases (s.th t).top with
  | none => rfl
  | some f =>
    dsimp only
    by_cases e : f.l.pc = .ret 0
    · rw [if_pos e, if_neg h]
    · rw [if_neg e]

theorem finished_other {done : Nat → Nat} {s : State n} {t : Nat} {lab : Lab n} (h : lab ≠ .ret) :
    finished done s t lab = done := by
  unfold finished
  cases lab <;> first | rfl | exact absurd rfl h

/-- What holds at every moment: each counter has been incremented `inc` times, and these add up to the iterations
finished and the calls about to return. -/
theorem IncReach.inv (hn : 4 ≤ n) (hbe : ∀ p, (T p).prog.be = be) (hnd : cpus.Nodup)
    (hd : ∀ c ∈ cpus, ∀ c' ∈ cpus, ∀ a, InWord (ctr c) a → InWord (ctr c') a → c = c')
    {s : State n} {done : Nat → Nat} (h : IncReach T fld ctr cpus N m0 s done) :
    OReach T (ctrAreas fld ctr cpus hd) m0 s ∧ AllFrames (IsOne fld ctr cpus) s ∧
    ∃ inc : BitVec 32 → Nat,
      (∀ c ∈ cpus, ldw be s.mem (ctr c) = ldw be m0 (ctr c) + BitVec.ofNat _ (inc c)) ∧
      nsum inc cpus = nsum (fun t => done t + pends (s.th t)) (List.range N) := by
  induction h with
  | init =>
    refine ⟨.init, AllFrames.init _, fun _ => 0, fun c _ => by simp, ?_⟩
    have hz : ∀ {α : Type} (l : List α), nsum (fun _ => 0) l = 0 := fun l => by
      rw [nsum, List.map_const', List.sum_replicate_nat, Nat.mul_zero]
    rw [hz]
    exact ((nsum_congr fun t _ => show 0 + pends (thread0 : Thread n) = 0 from rfl).trans (hz _)).symm
  | @step s s' done t lab h hs ht hi hu ih =>
    obtain ⟨i1, i2, inc, i3, i4⟩ := ih
    have hI := (i1.reach hn).inv hn
    refine ⟨i1.step hs (fun f hf => IsInc.fits hd (t := t)
        ⟨(hi f hf).1, (hi f hf).2.1, _, (hi f hf).2.2⟩) ?_, i2.step isOne_args hs (fun f hf => hi f hf), ?_⟩
    · intro hl a ha
      refine ⟨?_, fun _ _ h => h, fun h => h⟩
      rintro fl c ⟨-, hc, hw⟩
      exact ha (hu hl c hc a hw)
    · have oth : ∀ u, u ≠ t → pends (s'.th u) = pends (s.th u) := by
        intro u hut; rw [hs.other (fun e => hut e.symm)]
      have othd : ∀ u, u ≠ t → finished done s t lab u = done u := fun u hut => finished_ne hut
      have hsum := nsum_range_upd (f := fun u => finished done s t lab u + pends (s'.th u))
        (g := fun u => done u + pends (s.th u)) ht
        (fun u hut => by
          show finished done s t lab u + pends (s'.th u) = done u + pends (s.th u)
          rw [oth u hut, othd u hut])
      have same : (∀ c ∈ cpus, ldw be s'.mem (ctr c) = ldw be s.mem (ctr c)) →
          finished done s t lab t + pends (s'.th t) = done t + pends (s.th t) →
          ∃ inc : BitVec 32 → Nat,
            (∀ c ∈ cpus, ldw be s'.mem (ctr c) = ldw be m0 (ctr c) + BitVec.ofNat _ (inc c)) ∧
            nsum inc cpus = nsum (fun u => finished done s t lab u + pends (s'.th u)) (List.range N) := by
        intro h1 h2
        refine ⟨inc, fun c hc => (h1 c hc).trans (i3 c hc), ?_⟩
        omega
      have same' : s'.mem = s.mem → (lab ≠ .ret) → pends (s'.th t) = pends (s.th t) →
          ∃ inc : BitVec 32 → Nat,
            (∀ c ∈ cpus, ldw be s'.mem (ctr c) = ldw be m0 (ctr c) + BitVec.ofNat _ (inc c)) ∧
            nsum inc cpus = nsum (fun u => finished done s t lab u + pends (s'.th u)) (List.range N) := by
        intro h1 h2 h3
        refine same (fun c _ => by rw [h1]) ?_
        rw [h3]
        rw [finished_other h2]
      cases hs with
      | invoke f hr htop hf hu' =>
        refine same' rfl (by simp) ?_
        simp only [State.set, updT_same, pends, nsum_cons, htop, pendN, hf.commits]
        simp
      | exec f i ins l' m' hr htop hp hc he =>
        have hinc := (i2 t).1 f htop
        obtain ⟨j1, j2, j3⟩ := hinc
        have hacc := body_access hn hI hr htop hp hc he
        rcases hacc.2.2.2 with ⟨hcm, hps⟩ | ⟨hcm, hps⟩
        · -- the final store
          have hz : zone (T f.pid).prog (.at i) = .body := by
            have Z := (T f.pid).facts
            have := Z.sc; have := Z.cc; have := Z.ca; have := Z.an; have := Z.nl
            rcases zone_at_cases Z (i := i) with h'|h'|h'|h'|h'|h'|h' <;>
              first | exact h'.1 | omega
          have hc0 := (((hI.th t).top f htop).rng (.inr (by rw [hp]; exact hz))).commits
          have hmem : m' = stw be s.mem (ctr f.cpu) (ldw be s.mem (ctr f.cpu) + 1#_) := by
            have := congrArg Prod.snd hps
            rw [hbe, j3] at this
            exact this.symm
          have hp1 : pends ({ s.th t with
            top := some { f with
              l := l'
              foot := fun x => touched ins f.l x ∨ f.foot x
              last := if memFree ins = true then f.last else m'
              commits := if i + 1 = (T f.pid).prog.commit then f.commits + 1 else f.commits
              ep := if isCs ins = true then (s.th t).ev else f.ep }
            cs := if isCs ins = true then some f.pid else (s.th t).cs } : Thread n) =
              pends (s.th t) + 1 := by
            simp only [pends, nsum_cons, htop, pendN, if_pos hcm, hc0]
            simp
            omega
          have hfin : finished done s t Lab.exec t = done t := rfl
          refine ⟨fun c => if c = f.cpu then inc c + 1 else inc c, fun c hc' => ?_, ?_⟩
          · dsimp only
            rw [hmem]
            by_cases e : c = f.cpu
            · subst e
              rw [if_pos rfl, ldw_stw_same, i3 _ hc', BitVec.ofNat_add, BitVec.add_assoc]
            · rw [if_neg e, ldw_stw_ne be s.mem _ _ _ fun x hx hx' => e (hd c hc' f.cpu j2 x hx hx'), i3 c hc']
          · rw [nsum_one (f := fun c => if c = f.cpu then inc c + 1 else inc c) (g := inc) hnd j2
              (fun x hx => if_neg hx) (if_pos rfl)]
            dsimp only at hsum ⊢
            rw [updT_same, hp1, hfin] at hsum
            omega
        · have hmem : m' = s.mem := by
            funext a
            apply Classical.byContradiction
            intro ha
            have := hps a ha
            rw [j3] at this
            exact this
          refine same' hmem (by simp) ?_
          dsimp only
          rw [updT_same]
          simp only [pends, nsum_cons, htop, pendN, if_neg hcm]
      | ret f r hr htop hp =>
        have hI' := (hI.th t).top f htop
        have hdn := hI'.done r (by rw [hp]; rfl)
        refine same (fun c _ => rfl) ?_
        have hp1 : pends (s.th t) = pendN (some f) + pends ({ s.th t with top := none } : Thread n) := by
          simp only [pends, nsum_cons, htop]
          simp [pendN]
        simp only [State.set, updT_same]
        rw [hp1]
        unfold finished
        rw [htop]
        dsimp only
        by_cases hr0 : f.l.pc = .ret 0
        · rw [if_pos hr0, if_pos rfl]
          have hcm := (hI'.post (.inr (by rw [hr0]; rfl))).2
          simp only [pendN, if_pos hcm]
          omega
        · rw [if_neg hr0]
          have hcm : f.commits = 0 := by
            rcases hdn with rfl | rfl | rfl
            · exact absurd hp hr0
            · exact (hI'.neq (.inr (by rw [hp]; rfl))).2.1
            · exact hI'.abt (.inr (by rw [hp]; rfl))
          simp only [pendN, hcm]
          simp
      | user m' hr htop =>
        refine same (fun c hc => ldw_agree fun x hx => hu rfl c hc x hx) rfl
      | preempt hr => exact same' rfl (by simp) (by simp only [State.set, updT_same]; rfl)
      | resume c k hr hd' =>
        refine same' rfl (by simp) ?_
        simp only [State.set, updT_same, pends, nsum_cons, pendN_fix]
      | signal hr =>
        refine same' rfl (by simp) ?_
        simp only [State.set, updT_same, pends, nsum_cons, pendN_fix]
        simp [pendN]
      | sigret f rest hr htop hs' =>
        refine same' rfl (by simp) ?_
        simp only [State.set, updT_same, pends, nsum_cons, htop, hs']
        simp [pendN]
      | register => exact same' rfl (by simp) (by simp only [State.set, updT_same]; rfl)
      | unregister => exact same' rfl (by simp) (by simp only [State.set, updT_same]; rfl)
      | clear => exact same' rfl (by simp) (by simp only [State.set, updT_same]; rfl)

end Verif.Rseq
