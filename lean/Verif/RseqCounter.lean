import Verif.RseqOwn
import Verif.RseqWord
/-
Per-CPU counters: `rseq_load_add_store` retried until it returns 0, `tests/param_test.c:577-596`,
`tests/basic_percpu_ops_test.c:131-146`.
-/

namespace Verif.Rseq

variable {n : Nat}

/-- Sum of a function over a list, modulo the word size. -/
def lsum {α : Type} (f : α → W n) : List α → W n
  | [] => 0#(8 * n)
  | a :: r => f a + lsum f r

/-- Sum over the threads `0 .. N-1`. -/
def tsum (f : Nat → W n) : Nat → W n
  | 0 => 0#(8 * n)
  | k + 1 => tsum f k + f k

/-- The amount of a call. -/
def Op.count : Op n → W n
  | .addStore _ k => k
  | _ => 0#(8 * n)

/-- The amount of a call that has executed its final store but has not returned yet. -/
def pendF : Option (Frame n) → W n
  | some f => if f.commits = 1 then f.op.count else 0#(8 * n)
  | none => 0#(8 * n)

/-- The amounts of all such calls of a thread (interrupted ones included). -/
def pend (x : Thread n) : W n := lsum pendF (x.top :: x.saved)

/-- Executions of any number of threads `t < N` that only use the counters through the helper.  `R` is the
sum of the amounts of all calls that have returned 0.  Threads may do anything else: run other code, be
interrupted, register and unregister; signal handlers may use the counters, too. -/
inductive CReach (T : Nat → Site n) (fld : Fld) (ctr : BitVec 32 → W n) (cpus : List (BitVec 32))
    (N : Nat) (m0 : Mem n) : State n → W n → Prop
  | init : CReach T fld ctr cpus N m0 { mem := m0, th := fun _ => thread0 } 0#(8 * n)
  | step {s s' : State n} {R : W n} {t : Nat} {lab : Lab n} (h : CReach T fld ctr cpus N m0 s R)
      (hs : Step T s t lab s') (ht : t < N)
      (hi : ∀ f, lab = .invoke f → f.fld = fld ∧ f.cpu ∈ cpus ∧ ∃ k, f.op = .addStore (ctr f.cpu) k)
      (hu : lab = .user → ∀ c ∈ cpus, ∀ a, InWord (ctr c) a → s'.mem a = s.mem a) :
      CReach T fld ctr cpus N m0 s'
        (match lab, (s.th t).top with
          | .ret, some f => if f.l.pc = .ret 0 then R + f.op.count else R
          | _, _ => R)

/-- The division of memory of the counters. -/
def ctrAreas (fld : Fld) (ctr : BitVec 32 → W n) (cpus : List (BitVec 32))
    (hd : ∀ c ∈ cpus, ∀ c' ∈ cpus, ∀ a, InWord (ctr c) a → InWord (ctr c') a → c = c') : Areas n where
  cpu fl c a := fl = fld ∧ c ∈ cpus ∧ InWord (ctr c) a
  priv _ _ := False
  ro _ := False
  cpu_cpu fl c fl' c' a h h' := ⟨h.1.trans h'.1.symm, hd c h.2.1 c' h'.2.1 a h.2.2 h'.2.2⟩
  cpu_priv _ _ _ _ _ h := h
  priv_priv _ _ _ h := h.elim
  ro_cpu _ _ _ h := h.elim
  ro_priv _ _ h := h.elim

theorem tsum_upd (f g : Nat → W n) (t : Nat) (h : ∀ u, u ≠ t → f u = g u) : ∀ N, t < N →
    tsum f N + g t = tsum g N + f t := by
  intro N
  induction N with
  | zero => intro h; omega
  | succ N ih =>
    intro hlt
    rw [tsum, tsum]
    by_cases e : t = N
    · subst e
      have : ∀ k, k ≤ t → tsum f k = tsum g k := by
        intro k
        induction k with
        | zero => intro _; rfl
        | succ k ih => intro hk; rw [tsum, tsum, ih (by omega), h k (by omega)]
      rw [this t (Nat.le_refl t)]
      grind
    · have := ih (by omega)
      rw [h N (fun e' => e e'.symm)]
      grind

theorem lsum_one {α : Type} [DecidableEq α] (f g : α → W n) (c : α) (k : W n) : ∀ l : List α, l.Nodup →
    c ∈ l → (∀ a ∈ l, a ≠ c → g a = f a) → g c = f c + k → lsum g l = lsum f l + k := by
  intro l
  induction l with
  | nil => intro _ h; simp at h
  | cons a r ih =>
    intro hnd hc h1 h2
    obtain ⟨hna, hnr⟩ := List.nodup_cons.1 hnd
    rw [lsum, lsum]
    by_cases e : a = c
    · subst e
      have : lsum g r = lsum f r := by
        have : ∀ r : List α, a ∉ r → (∀ b ∈ r, b ≠ a → g b = f b) → lsum g r = lsum f r := by
          intro r
          induction r with
          | nil => intro _ _; rfl
          | cons b r ih =>
            intro hn hb
            rw [lsum, lsum, ih (fun h => hn (List.mem_cons_of_mem _ h))
              (fun b hb' => hb b (List.mem_cons_of_mem _ hb')),
              hb b (List.mem_cons_self ..) (fun e => hn (by rw [e]; exact List.mem_cons_self ..))]
        exact this r hna fun b hb => h1 b (List.mem_cons_of_mem _ hb)
      rw [this, h2]
      grind
    · have hcr : c ∈ r := by
        rcases List.mem_cons.1 hc with h | h
        · exact absurd h.symm e
        · exact h
      rw [ih hnr hcr (fun b hb => h1 b (List.mem_cons_of_mem _ hb)) h2,
        h1 a (List.mem_cons_self ..) e]
      grind

theorem lsum_congr {α : Type} (f g : α → W n) : ∀ l : List α, (∀ a ∈ l, g a = f a) → lsum g l = lsum f l := by
  intro l
  induction l with
  | nil => intro _; rfl
  | cons a r ih =>
    intro h
    rw [lsum, lsum, h a (List.mem_cons_self ..), ih fun b hb => h b (List.mem_cons_of_mem _ hb)]

variable {T : Nat → Site n} {fld : Fld} {ctr : BitVec 32 → W n} {cpus : List (BitVec 32)} {N : Nat}
  {m0 : Mem n} {be : Bool}

theorem pendF_fix {x : Thread n} : pendF (fixTop T x) = pendF x.top := by
  unfold fixTop
  cases x.top with
  | none => rfl
  | some f =>
    dsimp only
    split
    · rfl
    · split <;> rfl

/-- The frames of such an execution are increments of the counter of the CPU they name. -/
def IsInc (fld : Fld) (ctr : BitVec 32 → W n) (cpus : List (BitVec 32)) (_ : Nat) (f : Frame n) : Prop :=
  f.fld = fld ∧ f.cpu ∈ cpus ∧ ∃ k, f.op = .addStore (ctr f.cpu) k

theorem isInc_args : ArgsOnly (IsInc fld ctr cpus) := by
  intro t f g _ h2 h3 h4 h
  unfold IsInc at h ⊢
  rw [← h2, ← h3, ← h4]
  exact h

theorem IsInc.fits (hd : ∀ c ∈ cpus, ∀ c' ∈ cpus, ∀ a, InWord (ctr c) a → InWord (ctr c') a → c = c')
    {b : Bool} {t : Nat} {f : Frame n} (h : IsInc fld ctr cpus t f) :
    Fits (ctrAreas fld ctr cpus hd) b t f := by
  obtain ⟨h1, h2, k, h3⟩ := h
  refine ⟨?_, fun a _ h => h, fun m a _ h => h⟩
  intro m a ha
  rw [h3] at ha
  exact .inl ⟨h1, h2, ha⟩

/-- **C38: per-CPU counters lose no update.**  At every moment of every execution the sum of the counters is
their initial sum plus the amounts of all calls that returned 0 plus those of the calls that have executed
their final store and are about to return. -/
theorem counters_exact (hn : 4 ≤ n) (hbe : ∀ p, (T p).prog.be = be) (hnd : cpus.Nodup)
    (hd : ∀ c ∈ cpus, ∀ c' ∈ cpus, ∀ a, InWord (ctr c) a → InWord (ctr c') a → c = c')
    {s : State n} {R : W n} (h : CReach T fld ctr cpus N m0 s R) :
    OReach T (ctrAreas fld ctr cpus hd) m0 s ∧ AllFrames (IsInc fld ctr cpus) s ∧
    lsum (fun c => ldw be s.mem (ctr c)) cpus =
      lsum (fun c => ldw be m0 (ctr c)) cpus + R + tsum (fun t => pend (s.th t)) N := by
  induction h with
  | init =>
    refine ⟨.init, AllFrames.init _, ?_⟩
    have : ∀ N, tsum (fun _ => pend (thread0 : Thread n)) N = 0#(8 * n) := by
      intro N
      induction N with
      | zero => rfl
      | succ N ih => rw [tsum, ih]; simp [pend, lsum, pendF, thread0]
    rw [this]; simp
  | @step s s' R t lab h hs ht hi hu ih =>
    obtain ⟨i1, i2, i3⟩ := ih
    have hI := (i1.reach hn).inv hn
    refine ⟨i1.step hs (fun f hf => IsInc.fits hd (t := t) (hi f hf)) ?_,
      i2.step isInc_args hs (fun f hf => hi f hf), ?_⟩
    · intro hl a ha
      refine ⟨?_, fun _ _ h => h, fun h => h⟩
      rintro fl c ⟨-, hc, hw⟩
      exact ha (hu hl c hc a hw)
    · -- the sums
      have oth : ∀ u, u ≠ t → pend (s'.th u) = pend (s.th u) := by
        intro u hut; rw [hs.other (fun e => hut e.symm)]
      have ht1 := tsum_upd (fun u => pend (s'.th u)) (fun u => pend (s.th u)) t oth N ht
      have same : s'.mem = s.mem → pend (s'.th t) = pend (s.th t) →
          lsum (fun c => ldw be s'.mem (ctr c)) cpus =
          lsum (fun c => ldw be m0 (ctr c)) cpus + R + tsum (fun t => pend (s'.th t)) N := by
        intro h1 h2
        rw [h1, i3]
        rw [h2] at ht1
        grind
      cases hs with
      | invoke f hr htop hf hu' =>
        refine same rfl ?_
        simp only [State.set, updT_same, pend, lsum, htop, pendF, hf.commits]
        simp
      | exec f i ins l' m' hr htop hp hc he =>
        have hinc := (i2 t).1 f htop
        obtain ⟨j1, j2, k, j3⟩ := hinc
        have hacc := body_access hn hI hr htop hp hc he
        rcases hacc.2.2.2 with ⟨hcm, hps⟩ | ⟨hcm, hps⟩
        · -- the final store
          have hz : zone (T f.pid).prog (.at i) = .body := by
            have Z := (T f.pid).facts
            have := Z.sc; have := Z.cc; have := Z.ca; have := Z.an; have := Z.nl
            rcases zone_at_cases Z (i := i) with h'|h'|h'|h'|h'|h'|h' <;>
              first | exact h'.1 | omega
          have hc0 := (((hI.th t).top f htop).rng (.inr (by rw [hp]; exact hz))).commits
          have hmem : m' = stw be s.mem (ctr f.cpu) (ldw be s.mem (ctr f.cpu) + k) := by
            have := congrArg Prod.snd hps
            rw [hbe, j3] at this
            exact this.symm
          have hsum : lsum (fun c => ldw be m' (ctr c)) cpus =
              lsum (fun c => ldw be s.mem (ctr c)) cpus + k := by
            refine lsum_one _ _ f.cpu k cpus hnd j2 ?_ ?_
            · intro c hc' hne
              rw [hmem]
              refine ldw_stw_ne be s.mem _ _ _ fun x hx hx' => hne (hd c hc' f.cpu j2 x hx hx')
            · rw [hmem, ldw_stw_same]
          have hp1 : pend ({ s.th t with
            top := some { f with
              l := l'
              foot := fun x => touched ins f.l x ∨ f.foot x
              last := if memFree ins = true then f.last else m'
              commits := if i + 1 = (T f.pid).prog.commit then f.commits + 1 else f.commits
              ep := if isCs ins = true then (s.th t).ev else f.ep }
            cs := if isCs ins = true then some f.pid else (s.th t).cs } : Thread n) =
              pend (s.th t) + k := by
            simp only [pend, lsum, htop, pendF, if_pos hcm, hc0, j3, Op.count]
            simp
            grind
          dsimp only at ht1 ⊢
          rw [updT_same, hp1] at ht1
          rw [hsum, i3]
          grind
        · have hmem : m' = s.mem := by
            funext a
            apply Classical.byContradiction
            intro ha
            have := hps a ha
            rw [j3] at this
            exact this
          refine same hmem ?_
          dsimp only
          rw [updT_same]
          simp only [pend, lsum, htop, pendF, if_neg hcm]
      | ret f r hr htop hp =>
        have hI' := (hI.th t).top f htop
        have hdn := hI'.done r (by rw [hp]; rfl)
        simp only [htop]
        have hp1 : pend (s.th t) = pendF (some f) +
            pend ({ s.th t with top := none } : Thread n) := by
          simp only [pend, lsum, htop]
          simp [pendF]
        simp only [State.set, updT_same] at ht1 ⊢
        rw [hp1] at ht1
        by_cases hr0 : f.l.pc = .ret 0
        · rw [if_pos hr0]
          have hcm := (hI'.post (.inr (by rw [hr0]; rfl))).2
          simp only [pendF, if_pos hcm] at ht1
          rw [i3]
          grind
        · rw [if_neg hr0]
          have hcm : f.commits = 0 := by
            rcases hdn with rfl | rfl | rfl
            · exact absurd hp hr0
            · exact (hI'.neq (.inr (by rw [hp]; rfl))).2.1
            · exact hI'.abt (.inr (by rw [hp]; rfl))
          simp only [pendF, hcm] at ht1
          rw [i3]
          simp at ht1
          grind
      | user m' hr htop =>
        dsimp only
        have : lsum (fun c => ldw be m' (ctr c)) cpus = lsum (fun c => ldw be s.mem (ctr c)) cpus := by
          refine lsum_congr _ _ cpus fun c hc => ldw_agree fun x hx => hu rfl c hc x hx
        rw [this, i3]
      | preempt hr => exact same rfl (by simp only [State.set, updT_same]; rfl)
      | resume c k hr hd' =>
        refine same rfl ?_
        simp only [State.set, updT_same, pend, lsum, pendF_fix]
      | signal hr =>
        refine same rfl ?_
        simp only [State.set, updT_same, pend, lsum, pendF_fix]
        simp [pendF]
      | sigret f rest hr htop hs' =>
        refine same rfl ?_
        simp only [State.set, updT_same, pend, lsum, htop, hs']
        simp [pendF]
      | register => exact same rfl (by simp only [State.set, updT_same]; rfl)
      | unregister => exact same rfl (by simp only [State.set, updT_same]; rfl)
      | clear => exact same rfl (by simp only [State.set, updT_same]; rfl)

/-- **C38**, when no call is between its final store and its return (for example when all threads have
finished): the sum of the counters is the initial sum plus the amounts of the calls that returned 0. -/
theorem counters_final (hn : 4 ≤ n) (hbe : ∀ p, (T p).prog.be = be) (hnd : cpus.Nodup)
    (hd : ∀ c ∈ cpus, ∀ c' ∈ cpus, ∀ a, InWord (ctr c) a → InWord (ctr c') a → c = c')
    {s : State n} {R : W n} (h : CReach T fld ctr cpus N m0 s R)
    (hq : ∀ t, t < N → (s.th t).top = none ∧ (s.th t).saved = []) :
    lsum (fun c => ldw be s.mem (ctr c)) cpus = lsum (fun c => ldw be m0 (ctr c)) cpus + R := by
  rw [(counters_exact hn hbe hnd hd h).2.2]
  have : ∀ k, k ≤ N → tsum (fun t => pend (s.th t)) k = 0#(8 * n) := by
    intro k
    induction k with
    | zero => intro _; rfl
    | succ k ih =>
      intro hk
      rw [tsum, ih (by omega)]
      obtain ⟨h1, h2⟩ := hq k (by omega)
      simp [pend, h1, h2, lsum, pendF]
  rw [this N (Nat.le_refl N)]
  simp

end Verif.Rseq
