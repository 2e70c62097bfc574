import Verif.RseqLock
import Verif.RseqCounter
/-
`test_percpu_spinlock` of tests/basic_percpu_ops_test.c:81-171 as a program: threads that increment per-CPU
counters with plain C code under the per-CPU lock.
-/

namespace Verif.Rseq

variable {n : Nat}

/-- Where a thread is in the loop body (basic_percpu_ops_test.c:125-127):
`cpu = rseq_this_cpu_lock(&data->lock); data->c[cpu].count++; rseq_percpu_unlock(&data->lock, cpu);` -/
inductive Phase (n : Nat)
  /-- in `rseq_this_cpu_lock`, or before it -/
  | idle
  /-- the lock of `c` is taken -/
  | got (c : BitVec 32)
  /-- `count` of `c` has been loaded, and was `v` -/
  | loaded (c : BitVec 32) (v : W n)
  /-- `count` of `c` has been stored -/
  | stored (c : BitVec 32)

/-- The CPU whose lock the thread believes it holds. -/
def Phase.holds : Phase n → Option (BitVec 32)
  | .idle => none
  | .got c | .loaded c _ | .stored c => some c

/-- Where each thread is, for each depth of signal handlers; how often each thread has executed `count++`. -/
structure Loops (n : Nat) where
  ph : Nat → Nat → Phase n
  done : Nat → Nat

def Loops.at (P : Loops n) (t d : Nat) (p : Phase n) : Loops n :=
  { P with ph := fun u e => if u = t ∧ e = d then p else P.ph u e }

def Loops.count (P : Loops n) (t : Nat) : Loops n :=
  { P with done := fun u => if u = t then P.done u + 1 else P.done u }

/-- `rseq_this_cpu_lock` returns when the helper returns 0, otherwise it tries again. -/
def Loops.call (P : Loops n) (s : State n) (t : Nat) (lab : Lab n) : Loops n :=
  match lab, (s.th t).top with
  | .ret, some f => if f.l.pc = .ret 0 then P.at t (s.th t).saved.length (.got f.cpu) else P
  | _, _ => P

/-- Executions of `N` threads of the test, from memory `m0`: the machine with the helpers, preemption,
migration, signals (whose handlers may also run the loop); the load, the increment and the store of `count++`
are separate steps; `rseq_percpu_unlock` stores 0. -/
inductive SpinReach (T : Nat → Site n) (fld : Fld) (be : Bool) (lock ctr : BitVec 32 → W n)
    (cpus : List (BitVec 32)) (N : Nat) (m0 : Mem n) : State n → Loops n → Prop
  | init : SpinReach T fld be lock ctr cpus N m0 { mem := m0, th := fun _ => thread0 }
      { ph := fun _ _ => .idle, done := fun _ => 0 }
  | step {s s' : State n} {P : Loops n} {t : Nat} {lab : Lab n}
      (h : SpinReach T fld be lock ctr cpus N m0 s P) (hs : Step T s t lab s')
      (hi : ∀ f, lab = .invoke f → P.ph t (s.th t).saved.length = .idle ∧
        f.fld = fld ∧ f.cpu ∈ cpus ∧ f.op = .cbneStore (lock f.cpu) 0#_ 1#_)
      (hu : lab = .user → ∀ c ∈ cpus, ∀ a, InWord (lock c) a ∨ InWord (ctr c) a → s'.mem a = s.mem a) :
      SpinReach T fld be lock ctr cpus N m0 s' (P.call s t lab)
  | load {s : State n} {P : Loops n} {t : Nat} {c : BitVec 32}
      (h : SpinReach T fld be lock ctr cpus N m0 s P) (hr : (s.th t).run = true) (ht : (s.th t).top = none)
      (hp : P.ph t (s.th t).saved.length = .got c) :
      SpinReach T fld be lock ctr cpus N m0 s
        (P.at t (s.th t).saved.length (.loaded c (ldw be s.mem (ctr c))))
  | store {s : State n} {P : Loops n} {t : Nat} {c : BitVec 32} {v : W n}
      (h : SpinReach T fld be lock ctr cpus N m0 s P) (htN : t < N) (hr : (s.th t).run = true)
      (ht : (s.th t).top = none) (hp : P.ph t (s.th t).saved.length = .loaded c v) :
      SpinReach T fld be lock ctr cpus N m0 { s with mem := stw be s.mem (ctr c) (v + 1#_) }
        ((P.at t (s.th t).saved.length (.stored c)).count t)
  | unlock {s : State n} {P : Loops n} {t : Nat} {c : BitVec 32}
      (h : SpinReach T fld be lock ctr cpus N m0 s P) (hr : (s.th t).run = true) (ht : (s.th t).top = none)
      (hp : P.ph t (s.th t).saved.length = .stored c) :
      SpinReach T fld be lock ctr cpus N m0 { s with mem := stw be s.mem (lock c) 0#_ }
        (P.at t (s.th t).saved.length .idle)

/-- The words of the locks and of the counters are apart. -/
structure SpinApart (lock ctr : BitVec 32 → W n) (cpus : List (BitVec 32)) : Prop where
  nodup : cpus.Nodup
  lock_lock : ∀ c ∈ cpus, ∀ c' ∈ cpus, ∀ a, InWord (lock c) a → InWord (lock c') a → c = c'
  ctr_ctr : ∀ c ∈ cpus, ∀ c' ∈ cpus, ∀ a, InWord (ctr c) a → InWord (ctr c') a → c = c'
  lock_ctr : ∀ c ∈ cpus, ∀ c' ∈ cpus, ∀ a, InWord (lock c) a → ¬ InWord (ctr c') a

variable {T : Nat → Site n} {fld : Fld} {be : Bool} {lock ctr : BitVec 32 → W n} {cpus : List (BitVec 32)}
  {N : Nat} {m0 : Mem n}

/-- The sum of `f` over the list `l`. -/
def nsum {α : Type} (f : α → Nat) (l : List α) : Nat := (l.map f).sum

theorem nsum_congr {α : Type} {f g : α → Nat} {l : List α} (h : ∀ x ∈ l, f x = g x) : nsum f l = nsum g l := by
  unfold nsum
  rw [List.map_congr_left h]

theorem nsum_one {α : Type} {f g : α → Nat} {l : List α} {c : α} (hn : l.Nodup) (hc : c ∈ l)
    (h : ∀ x, x ≠ c → f x = g x) (h1 : f c = g c + 1) : nsum f l = nsum g l + 1 := by
  induction l with
  | nil => cases hc
  | cons x l ih =>
    obtain ⟨hx, hl⟩ := List.nodup_cons.1 hn
    have e : ∀ k : α → Nat, nsum k (x :: l) = k x + nsum k l := fun k => by simp [nsum]
    rw [e, e]
    rcases List.mem_cons.1 hc with rfl | hc
    · rw [h1, nsum_congr (g := g) fun y hy => h y (fun e => hx (e ▸ hy))]; omega
    · rw [ih hl hc, h x (fun e => hx (e ▸ hc))]; omega

theorem le_nsum {α : Type} {f : α → Nat} {l : List α} {c : α} (hc : c ∈ l) : f c ≤ nsum f l := by
  induction l with
  | nil => cases hc
  | cons x l ih =>
    have e : nsum f (x :: l) = f x + nsum f l := by simp [nsum]
    rw [e]
    rcases List.mem_cons.1 hc with rfl | hc
    · omega
    · have := ih hc; omega

theorem call_cases (P : Loops n) (own : Owners) (s : State n) (t : Nat) (lab : Lab n) :
    (P.call s t lab = P ∧ acquire own s t lab = own) ∨
    (lab = .ret ∧ ∃ f, (s.th t).top = some f ∧ f.l.pc = .ret 0 ∧
      P.call s t lab = P.at t (s.th t).saved.length (.got f.cpu) ∧
      acquire own s t lab = setOwner own f.cpu (some (t, (s.th t).saved.length))) := by
  unfold acquire Loops.call
  cases lab with
  | ret =>
    cases hf : (s.th t).top with
    | none => exact .inl ⟨rfl, rfl⟩
    | some f =>
      by_cases hp : f.l.pc = .ret 0
      · refine .inr ⟨rfl, f, rfl, hp, ?_, ?_⟩
        · show (if _ then _ else _) = _
          rw [if_pos hp]
        · show (if _ then _ else _) = _
          rw [if_pos hp]
      · refine .inl ⟨?_, ?_⟩
        · show (if _ then _ else _) = _
          rw [if_neg hp]
        · show (if _ then _ else _) = _
          rw [if_neg hp]
  | _ => exact .inl ⟨rfl, rfl⟩

structure SpinInv (T : Nat → Site n) (fld : Fld) (be : Bool) (lock ctr : BitVec 32 → W n)
    (cpus : List (BitVec 32)) (N : Nat) (m0 : Mem n) (s : State n) (P : Loops n) (own : Owners) : Prop where
  reach : LReach T fld be lock cpus m0 s own
  frames : ∀ t d f, frameAt (s.th t) d = some f → P.ph t d = .idle
  owns : ∀ t d c, (P.ph t d).holds = some c ↔ own c = some (t, d)
  cpu : ∀ t d c, (P.ph t d).holds = some c → c ∈ cpus
  loaded : ∀ t d c v, P.ph t d = .loaded c v → ldw be s.mem (ctr c) = v
  counts : ∃ inc : BitVec 32 → Nat,
    (∀ c ∈ cpus, ldw be s.mem (ctr c) = ldw be m0 (ctr c) + BitVec.ofNat _ (inc c)) ∧
    nsum inc cpus = nsum P.done (List.range N)

theorem ph_at (P : Loops n) (t d u e : Nat) (p : Phase n) :
    (P.at t d p).ph u e = if u = t ∧ e = d then p else P.ph u e := rfl

/-- A change of phase that keeps the lock. -/
theorem owns_at {P : Loops n} {own : Owners} (h : ∀ t d c, (P.ph t d).holds = some c ↔ own c = some (t, d))
    {t d : Nat} {p : Phase n} (hp : p.holds = (P.ph t d).holds) :
    ∀ u e c, ((P.at t d p).ph u e).holds = some c ↔ own c = some (u, e) := by
  intro u e c
  rw [ph_at, ← h u e c]
  split
  · next h' => rw [h'.1, h'.2, hp]
  · rfl

theorem frames_at {s : State n} {P : Loops n} (h : ∀ t d f, frameAt (s.th t) d = some f → P.ph t d = .idle)
    {t : Nat} (ht : (s.th t).top = none) (p : Phase n) :
    ∀ u d f, frameAt (s.th u) d = some f → (P.at t (s.th t).saved.length p).ph u d = .idle := by
  intro u d f hf
  rw [ph_at]
  split
  · next h' =>
    rw [h'.1, frameAt_top h'.2, ht] at hf
    cases hf
  · exact h u d f hf

theorem SpinReach.inv (hn : 4 ≤ n) (hbe : ∀ p, (T p).prog.be = be) (hA : SpinApart lock ctr cpus)
    (h0 : ∀ c ∈ cpus, ldw be m0 (lock c) = 0#_) {s : State n} {P : Loops n}
    (h : SpinReach T fld be lock ctr cpus N m0 s P) :
    ∃ own, SpinInv T fld be lock ctr cpus N m0 s P own := by
  induction h with
  | init =>
    refine ⟨fun _ => none, .init, fun _ _ _ _ => rfl, fun t d c => ?_, ?_, ?_, ?_⟩
    · simp [Phase.holds]
    · intro t d c h; simp [Phase.holds] at h
    · intro t d c v h; cases h
    · refine ⟨fun _ => 0, fun c _ => by simp, ?_⟩
      simp [nsum, List.map_const', List.sum_replicate_nat]
  | @step s s' P t lab h hs hi hu ih =>
    obtain ⟨own, I⟩ := ih
    have hI := (I.reach.inv hn hbe hA.lock_lock h0)
    have hL := LReach.step I.reach hs (fun f hf => (hi f hf).2) (fun hl c hc a ha => hu hl c hc a (.inl ha))
    -- counters do not change
    have hctr : ∀ c ∈ cpus, ldw be s'.mem (ctr c) = ldw be s.mem (ctr c) := by
      intro c hc
      refine ldw_agree fun a ha => ?_
      apply Classical.byContradiction
      intro hne
      rcases step_changes hn (hI.reach.inv hn) hs a hne with hl | ⟨f, hf, -, -, hof, -⟩
      · exact hne (hu hl c hc a (.inr ha))
      · obtain ⟨-, f2, f3⟩ := (hI.frames t).1 f hf
        rw [f3] at hof
        exact hA.lock_ctr _ f2 _ hc a hof ha
    have hsum : ∃ inc : BitVec 32 → Nat,
        (∀ c ∈ cpus, ldw be s'.mem (ctr c) = ldw be m0 (ctr c) + BitVec.ofNat _ (inc c)) ∧
        nsum inc cpus = nsum P.done (List.range N) := by
      obtain ⟨inc, h1, h2⟩ := I.counts
      exact ⟨inc, fun c hc => by rw [hctr c hc, h1 c hc], h2⟩
    have hframes : ∀ u d f, frameAt (s'.th u) d = some f → P.ph u d = .idle := by
      intro u d f hf
      by_cases e : u = t
      · subst e
        rcases frameAt_step hs d f hf with ⟨hl, hd⟩ | ⟨g, hg, -⟩
        · rw [hd]; exact (hi f hl).1
        · exact I.frames u d g hg
      · rw [hs.other (fun e' => e e'.symm)] at hf
        exact I.frames u d f hf
    refine ⟨acquire own s t lab, ?_⟩
    rcases call_cases P own s t lab with ⟨e1, e2⟩ | ⟨hl, f, hf, hp, e1, e2⟩
    · rw [e2] at hL
      rw [e1, e2]
      exact ⟨hL, hframes, I.owns, I.cpu, fun t d c v h => by
        rw [hctr c (I.cpu t d c (by rw [h]; rfl))]; exact I.loaded t d c v h, hsum⟩
    · rw [e2] at hL
      rw [e1, e2]
      have hft : frameAt (s.th t) (s.th t).saved.length = some f := by rw [frameAt_top rfl]; exact hf
      have hidle := I.frames t _ f hft
      obtain ⟨hnone, -⟩ := lock_exclusive hn hbe hA.lock_lock h0 I.reach hft hp
      have hcpu := ((hI.frames t).1 f hf).2.1
      refine ⟨hL, ?_, ?_, ?_, ?_, hsum⟩
      · intro u d g hg
        rw [ph_at]
        split
        · next h' =>
          subst hl
          rw [h'.1] at hg
          cases hs with
          | ret f' r hr ht hp' =>
            have : (s.set t { s.th t with top := none } : State n).th t = { s.th t with top := none } := by
              simp [State.set, upd]
            rw [this, h'.2] at hg
            rw [frameAt_top (x := { s.th t with top := none }) rfl] at hg
            cases hg
        · exact hframes u d g hg
      · intro u d c
        rw [ph_at]
        unfold setOwner
        by_cases e : u = t ∧ d = (s.th t).saved.length
        · obtain ⟨rfl, rfl⟩ := e
          rw [if_pos ⟨rfl, rfl⟩]
          by_cases ec : c = f.cpu
          · subst ec; simp [Phase.holds]
          · rw [if_neg ec]
            constructor
            · intro h; exact absurd (Option.some.inj h).symm ec
            · intro h
              rw [← I.owns, hidle] at h; cases h
        · rw [if_neg e, I.owns]
          by_cases ec : c = f.cpu
          · subst ec
            rw [if_pos rfl, hnone]
            constructor
            · intro h; cases h
            · intro h
              injection h with h
              injection h with h1 h2
              exact absurd ⟨h1.symm, h2.symm⟩ e
          · rw [if_neg ec]
      · intro u d c
        rw [ph_at]
        split
        · intro h; injection h with h; rw [← h]; exact hcpu
        · exact I.cpu u d c
      · intro u d c v
        rw [ph_at]
        split
        · intro h; cases h
        · intro h
          rw [hctr c (I.cpu u d c (by rw [h]; rfl))]; exact I.loaded u d c v h
  | @load s P t c h hr ht hp ih =>
    obtain ⟨own, I⟩ := ih
    refine ⟨own, I.reach, frames_at I.frames ht _, owns_at I.owns (by rw [hp]; rfl), ?_, ?_, I.counts⟩
    · intro u d c'
      rw [ph_at]
      split
      · intro h; injection h with h; subst h
        exact I.cpu t _ _ (by rw [hp]; rfl)
      · exact I.cpu u d c'
    · intro u d c' v
      rw [ph_at]
      split
      · intro h; injection h with h1 h2; rw [← h1, ← h2]
      · exact I.loaded u d c' v
  | @store s P t c v h htN hr ht hp ih =>
    obtain ⟨own, I⟩ := ih
    have hc : c ∈ cpus := I.cpu t _ c (by rw [hp]; rfl)
    have hlock : ∀ c' ∈ cpus, ∀ a, InWord (lock c') a →
        (stw be s.mem (ctr c) (v + 1#_)) a = s.mem a := fun c' hc' a ha =>
      stw_other be s.mem _ _ _ (hA.lock_ctr c' hc' c hc a ha)
    have hL := LReach.step (t := t) I.reach (Step.user (stw be s.mem (ctr c) (v + 1#_)) hr ht)
      (fun f hf => by cases hf) (fun _ => hlock)
    have hoth : ∀ c' ∈ cpus, c' ≠ c → ldw be (stw be s.mem (ctr c) (v + 1#_)) (ctr c') = ldw be s.mem (ctr c') := by
      intro c' hc' hne
      exact ldw_stw_ne be s.mem _ _ _ fun x hx hx' => hne (hA.ctr_ctr c' hc' c hc x hx hx')
    have howns := owns_at (t := t) (d := (s.th t).saved.length) (p := .stored c) I.owns (by rw [hp]; rfl)
    refine ⟨own, hL, frames_at I.frames ht _, howns, ?_, ?_, ?_⟩
    · intro u d c'
      show ((P.at t _ (.stored c)).ph u d).holds = some c' → _
      rw [ph_at]
      split
      · intro h; injection h with h; subst h; exact hc
      · exact I.cpu u d c'
    · intro u d c' v'
      show (P.at t _ (.stored c)).ph u d = _ → _
      intro h
      have hne : c' ≠ c := by
        rintro rfl
        have k1 := (howns u d c').1 (by rw [h]; rfl)
        have k2 := (howns t (s.th t).saved.length c').1 (by rw [ph_at, if_pos ⟨rfl, rfl⟩]; rfl)
        rw [k1] at k2
        injection k2 with k2
        injection k2 with k2 k3
        subst k2 k3
        rw [ph_at, if_pos ⟨rfl, rfl⟩] at h
        cases h
      rw [ph_at] at h
      split at h
      · cases h
      · show ldw be (stw be s.mem (ctr c) (v + 1#_)) (ctr c') = v'
        rw [hoth c' (I.cpu u d c' (by rw [h]; rfl)) hne]
        exact I.loaded u d c' v' h
    · obtain ⟨inc, h1, h2⟩ := I.counts
      refine ⟨fun c' => if c' = c then inc c' + 1 else inc c', ?_, ?_⟩
      · intro c' hc'
        show ldw be (stw be s.mem (ctr c) (v + 1#_)) (ctr c') =
          ldw be m0 (ctr c') + BitVec.ofNat _ (if c' = c then inc c' + 1 else inc c')
        by_cases e : c' = c
        · subst e
          rw [if_pos rfl, ldw_stw_same, ← I.loaded t _ c' v hp, h1 c' hc', BitVec.add_assoc, ← BitVec.ofNat_add]
        · rw [if_neg e, hoth c' hc' e, h1 c' hc']
      · show _ = nsum (fun u => if u = t then P.done u + 1 else P.done u) (List.range N)
        rw [nsum_one (f := fun c' => if c' = c then inc c' + 1 else inc c') (g := inc) (c := c) hA.nodup hc
            (fun x hx => if_neg hx) (if_pos rfl),
          nsum_one (f := fun u => if u = t then P.done u + 1 else P.done u) (g := P.done) (c := t)
            List.nodup_range (List.mem_range.2 htN) (fun x hx => if_neg hx) (if_pos rfl), h2]
  | @unlock s P t c h hr ht hp ih =>
    obtain ⟨own, I⟩ := ih
    have hh : (P.ph t (s.th t).saved.length).holds = some c := by rw [hp]; rfl
    have hc : c ∈ cpus := I.cpu t _ c hh
    have hL := LReach.unlock (t := t) c I.reach hc ((I.owns t _ c).1 hh) (Step.user _ hr ht)
    have hctr : ∀ c' ∈ cpus, ldw be (stw be s.mem (lock c) 0#_) (ctr c') = ldw be s.mem (ctr c') := by
      intro c' hc'
      exact ldw_stw_ne be s.mem _ _ _ fun x hx hx' => hA.lock_ctr c hc c' hc' x hx' hx
    refine ⟨setOwner own c none, hL, frames_at I.frames ht _, ?_, ?_, ?_, ?_⟩
    · intro u d c'
      rw [ph_at]
      unfold setOwner
      by_cases e : u = t ∧ d = (s.th t).saved.length
      · obtain ⟨rfl, rfl⟩ := e
        rw [if_pos ⟨rfl, rfl⟩]
        constructor
        · intro h; cases h
        · split
          · intro h; cases h
          · next ec =>
            intro h
            rw [← I.owns, hh] at h
            injection h with h; exact absurd h.symm ec
      · rw [if_neg e, I.owns]
        by_cases ec : c' = c
        · subst ec
          rw [if_pos rfl]
          constructor
          · intro h
            rw [(I.owns t _ c').1 hh] at h
            injection h with h
            injection h with h1 h2
            exact absurd ⟨h1.symm, h2.symm⟩ e
          · intro h; cases h
        · rw [if_neg ec]
    · intro u d c'
      rw [ph_at]
      split
      · intro h; cases h
      · exact I.cpu u d c'
    · intro u d c' v'
      rw [ph_at]
      split
      · intro h; cases h
      · intro h
        show ldw be (stw be s.mem (lock c) 0#_) (ctr c') = v'
        rw [hctr c' (I.cpu u d c' (by rw [h]; rfl))]
        exact I.loaded u d c' v' h
    · obtain ⟨inc, h1, h2⟩ := I.counts
      exact ⟨inc, fun c' hc' => (hctr c' hc').trans (h1 c' hc'), h2⟩

end Verif.Rseq
