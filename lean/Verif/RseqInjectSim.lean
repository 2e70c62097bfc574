import Verif.RseqInjectLocal
/-
Executions of injected programs correspond to executions without the loops.
-/

namespace Verif.Rseq

variable {n : Nat} {J : Nat → Inj} {ps : Nat → List (Nat × Nat)} {P : Nat → Prog n}
  (D : ∀ i, InjDead (J i) (ps i) (P i)) {T : Nat → Site n}

/-- The injected programs. -/
def injP (J : Nat → Inj) (ps : Nat → List (Nat × Nat)) (P : Nat → Prog n) (i : Nat) : Prog n :=
  (J i).prog (ps i) (P i)

/-- Corresponding helpers in execution: only the local state differs. -/
inductive FRel : Option (Frame n) → Option (Frame n) → Prop
  | none : FRel .none .none
  | some (f : Frame n) (l' : LSt n) (h : LRel (D f.pid) f.l l') : FRel (.some f) (.some { f with l := l' })

/-- Interrupted helpers. -/
inductive SRel : List (Option (Frame n)) → List (Option (Frame n)) → Prop
  | nil : SRel [] []
  | cons {a b : Option (Frame n)} {as bs : List (Option (Frame n))} (h : FRel D a b) (hs : SRel as bs) :
      SRel (a :: as) (b :: bs)

/-- Threads. -/
structure ThRel (x y : Thread n) : Prop where
  top : FRel D x.top y.top
  saved : SRel D x.saved y.saved
  cs : y.cs = x.cs
  reg : y.reg = x.reg
  run : y.run = x.run
  kcpu : y.kcpu = x.kcpu
  kcid : y.kcid = x.kcid
  cpuId : y.cpuId = x.cpuId
  mmCid : y.mmCid = x.mmCid
  ev : y.ev = x.ev

/-- States. -/
structure StRel (s s' : State n) : Prop where
  mem : s'.mem = s.mem
  th : ∀ t, ThRel D (s.th t) (s'.th t)

variable {D}

section
variable {x y : Thread n} (h : ThRel D x y)
include h
theorem ThRel.fv (fl : Fld) : y.fv fl = x.fv fl := by
  cases fl
  · exact h.cpuId
  · exact h.mmCid
theorem ThRel.kv (fl : Fld) : y.kv fl = x.kv fl := by
  cases fl
  · exact h.kcpu
  · exact h.kcid
theorem ThRel.none (ht : y.top = none) : x.top = none := by
  have := h.top
  rw [ht] at this
  cases hx : x.top with
  | none => rfl
  | some f => rw [hx] at this; cases this
end

theorem SRel.length {a b : List (Option (Frame n))} (h : SRel D a b) : b.length = a.length := by
  induction h with
  | nil => rfl
  | cons _ _ ih => simp [ih]

theorem SRel.none {a b : List (Option (Frame n))} (h : SRel D a b) (hb : ∀ f ∈ b, f = none) :
    ∀ f ∈ a, f = none := by
  induction h with
  | nil => exact hb
  | @cons a b as bs h _ ih =>
    intro f hf
    rcases List.mem_cons.1 hf with rfl | hf
    · have := hb b (by simp)
      subst this
      cases h; rfl
    · exact ih (fun f hf => hb f (List.mem_cons_of_mem _ hf)) f hf

/-- The kernel's rule. -/
theorem ThRel.fix {x y : Thread n} (h : ThRel D x y) :
    FRel D (tfixTop P x) (tfixTop (injP J ps P) y) := by
  have ht := h.top
  have hreg := h.reg
  have hcs := h.cs
  unfold tfixTop
  generalize x.top = a at ht
  generalize y.top = b at ht
  cases ht with
  | none => exact .none
  | some f l' hl =>
    cases hpc : f.l.pc with
    | ret r =>
      have hl' := (hl.ret r).1 hpc
      dsimp only
      rw [hpc, hl']
      exact .some f l' hl
    | «at» i =>
      obtain ⟨k, hk, hl'⟩ := hl.pos i hpc
      dsimp only
      rw [hpc, hl']
      dsimp only
      have h1 : (injP J ps P f.pid).start ≤ newAt ((J f.pid).w (ps f.pid)) i + k ↔ (P f.pid).start ≤ i := by
        have := newAt_lt_iff ((J f.pid).w (ps f.pid)) hk (j := (P f.pid).start)
        show newAt ((J f.pid).w (ps f.pid)) (P f.pid).start ≤ _ ↔ _
        omega
      have h2 : newAt ((J f.pid).w (ps f.pid)) i + k < (injP J ps P f.pid).commit ↔ i < (P f.pid).commit :=
        newAt_lt_iff _ hk
      have hiff : (y.reg = true ∧ y.cs = some f.pid ∧
          (injP J ps P f.pid).start ≤ newAt ((J f.pid).w (ps f.pid)) i + k ∧
          newAt ((J f.pid).w (ps f.pid)) i + k < (injP J ps P f.pid).commit) ↔
          (x.reg = true ∧ x.cs = some f.pid ∧ (P f.pid).start ≤ i ∧ i < (P f.pid).commit) := by
        rw [hreg, hcs, h1, h2]
      by_cases hc : x.reg = true ∧ x.cs = some f.pid ∧ (P f.pid).start ≤ i ∧ i < (P f.pid).commit
      · rw [if_pos hc, if_pos (hiff.2 hc)]
        exact FRel.some (D := D) { f with l := { f.l with pc := .at (P f.pid).abort } } _ hl.toAbort
      · rw [if_neg hc, if_neg fun h => hc (hiff.1 h)]
        exact .some f l' hl

theorem updT {s : Nat → Thread n} {t : Nat} {x : Thread n} : upd s t x t = x := by simp [upd]

/-- Other threads are not disturbed. -/
theorem StRel.polite {s s' s1 s1' : State n} {t : Nat} (h : StRel D s s')
    (hp : TPolite (injP J ps P) s' t s1') (hm : s1'.mem = s1.mem) : TPolite P s t s1 := by
  intro u f hu hr hf hz
  have hx := h.th u
  have ht := hx.top
  rw [hf] at ht
  cases hg : (s'.th u).top with
  | none => rw [hg] at ht; cases ht
  | some g =>
    rw [hg] at ht
    cases ht with
    | some f l' hl =>
      have := hp u _ hu (by rw [hx.run]; exact hr) hg (by
        dsimp only; rw [← hz]; exact hl.zone)
      rcases this with h1 | h1
      · left; intro a ha
        rw [← h.mem, ← hm]; exact h1 a ha
      · exact .inr (LRel.quiet h1 hl)

/-- States that differ in one thread. -/
theorem StRel.set {s s' : State n} {t : Nat} {x y : Thread n} {m : Mem n} (h : StRel D s s')
    (hx : ThRel D x y) : StRel D { mem := m, th := upd s.th t x } { mem := m, th := upd s'.th t y } := by
  refine ⟨rfl, fun u => ?_⟩
  by_cases e : u = t
  · subst e; simpa [upd] using hx
  · simpa [upd, e] using h.th u

/-- **Every step with the loops** is an instruction of a loop or a step without them. -/
theorem inj_step {s s' s1' : State n} {t : Nat} {lab : Lab n} (hR : StRel D s s')
    (hs : TStep T (injP J ps P) s' t lab s1') (hp : TPolite (injP J ps P) s' t s1') :
    (lab = .exec ∧ s1'.mem = s'.mem ∧ StRel D s s1') ∨
    ∃ s1, TStep T P s t lab s1 ∧ TPolite P s t s1 ∧ StRel D s1 s1' := by
  obtain ⟨m, th⟩ := s
  obtain ⟨m0, th'⟩ := s'
  obtain rfl : m0 = m := hR.mem
  have hx := hR.th t
  dsimp only at hx
  have one : ∀ {lab : Lab n} {x y : Thread n}, TPolite (injP J ps P) ⟨m0, th'⟩ t ⟨m0, upd th' t y⟩ →
      TStep T P ⟨m0, th⟩ t lab ⟨m0, upd th t x⟩ → ThRel D x y →
      ∃ s1, TStep T P ⟨m0, th⟩ t lab s1 ∧ TPolite P ⟨m0, th⟩ t s1 ∧ StRel D s1 ⟨m0, upd th' t y⟩ :=
    fun h1 h2 h3 => ⟨_, h2, hR.polite h1 rfl, hR.set h3⟩
  cases hs with
  | invoke f hr ht hf hu =>
    right
    dsimp only at hr ht hu
    refine one hp (TStep.invoke f (by dsimp only; rw [← hx.run]; exact hr) (hx.none ht) hf ?_)
      ⟨?_, hx.saved, hx.cs, hx.reg, hx.run, hx.kcpu, hx.kcid, hx.cpuId, hx.mmCid, hx.ev⟩
    · dsimp only; intro h; rw [← hx.fv]; exact hu (by rw [hx.reg]; exact h)
    · exact .some f f.l (LRel.start _ (by rw [hf.l]; exact hf.setup.pc))
  | exec g j ins' l' m' hr ht hp' hc he =>
    dsimp only at hr ht he
    have htop := hx.top
    cases hf0 : (th t).top with
    | none => rw [hf0, ht] at htop; cases htop
    | some f =>
      rw [hf0, ht] at htop
      cases htop with
      | some f l1' hl =>
        dsimp only at hp' hc he
        rw [hx.fv] at he
        unfold injP at hc he
        rcases hl.exec hp' hc ((th t).fv f.fld) m0 with ⟨a1, a2, a3, a4, a5, a6⟩ | ⟨i, ins, b1, b2, b3, b4, b5, b6, b7⟩
        · left
          rw [he] at a5 a6
          dsimp only at a5 a6
          subst a5
          refine ⟨rfl, rfl, rfl, fun u => ?_⟩
          by_cases e : u = t
          · subst e
            dsimp only
            rw [updT]
            have hcs0 : ¬ isCs ins' = true := by rw [a3]; simp
            have hcm0 : ¬ j + 1 = (injP J ps P f.pid).commit := a4
            refine ⟨?_, hx.saved, by dsimp only; rw [if_neg hcs0]; exact hx.cs, hx.reg, hx.run, hx.kcpu, hx.kcid, hx.cpuId, hx.mmCid, hx.ev⟩
            · dsimp only
              rw [hf0]
              have hfoot : (fun x => touched ins' l1' x ∨ f.foot x) = f.foot := by
                funext x; exact propext ⟨fun h => h.resolve_left (memFree_touched a1 l1' x), .inr⟩
              rw [hfoot, if_pos a1, if_neg hcm0, if_neg hcs0]
              exact .some f l' a6
          · have := hR.th u
            simpa [upd, e] using this
        · right
          obtain ⟨l1, m1, he1⟩ : ∃ l1 m1, exec (P f.pid) ((th t).fv f.fld) i ins f.l m0 = (l1, m1) := ⟨_, _, rfl⟩
          rw [he, he1] at b5 b7
          dsimp only at b5 b7
          subst b5
          refine ⟨_, TStep.exec f i ins l1 m' (by dsimp only; rw [← hx.run]; exact hr) hf0 b1 b2 he1,
            hR.polite hp rfl, ?_⟩
          dsimp only
          refine StRel.set (s := ⟨m0, th⟩) (s' := ⟨m0, th'⟩) hR ⟨?_, hx.saved, by dsimp only; rw [b3, isCs_move, hx.cs], hx.reg, hx.run, hx.kcpu, hx.kcid, hx.cpuId, hx.mmCid, hx.ev⟩
          · dsimp only
            have hfoot : (fun x => touched ins' l1' x ∨ f.foot x) = (fun x => touched ins f.l x ∨ f.foot x) := by
              funext x; rw [propext (b6 x)]
            have hcm : (j + 1 = (injP J ps P f.pid).commit) = (i + 1 = (P f.pid).commit) := propext b4
            rw [hfoot, hx.ev, b3, isCs_move, memFree_move]
            simp only [hcm]
            exact FRel.some (D := D) { f with
              l := l1
              foot := fun x => touched ins f.l x ∨ f.foot x
              last := if memFree ins = true then f.last else m'
              commits := if i + 1 = (P f.pid).commit then f.commits + 1 else f.commits
              ep := if isCs ins = true then (th t).ev else f.ep } l' b7
  | ret g r hr ht hp' =>
    right
    dsimp only at hr ht
    have htop := hx.top
    cases hf0 : (th t).top with
    | none => rw [hf0, ht] at htop; cases htop
    | some f =>
      rw [hf0, ht] at htop
      cases htop with
      | some f l1' hl =>
        refine one hp (TStep.ret f r (by dsimp only; rw [← hx.run]; exact hr) hf0 ((hl.ret r).2 hp'))
          ⟨.none, hx.saved, hx.cs, hx.reg, hx.run, hx.kcpu, hx.kcid, hx.cpuId, hx.mmCid, hx.ev⟩
  | user m' hr ht =>
    right
    dsimp only at hr ht
    exact ⟨_, TStep.user m' (by dsimp only; rw [← hx.run]; exact hr) (hx.none ht),
      hR.polite hp rfl, rfl, hR.th⟩
  | preempt hr =>
    right
    dsimp only at hr
    refine one hp (TStep.preempt (by dsimp only; rw [← hx.run]; exact hr))
      ⟨hx.top, hx.saved, hx.cs, hx.reg, rfl, hx.kcpu, hx.kcid, hx.cpuId, hx.mmCid, hx.ev⟩
  | resume c k hr hd =>
    right
    dsimp only at hr hd
    refine one hp (TStep.resume c k (by dsimp only; rw [← hx.run]; exact hr) ?_) ⟨hx.fix, hx.saved, ?_, hx.reg, rfl, rfl, rfl, ?_, ?_, ?_⟩
    · intro u hu hru
      have h := hR.th u
      dsimp only at h hru ⊢
      have := hd u hu (by rw [h.run]; exact hru)
      rw [h.kcpu, h.kcid] at this
      exact this
    · dsimp only [fixCs]; rw [hx.reg, hx.cs]
    · dsimp only; rw [hx.reg, hx.cpuId]
    · dsimp only; rw [hx.reg, hx.mmCid]
    · dsimp only; rw [hx.ev]
  | signal hr =>
    right
    dsimp only at hr
    refine one hp (TStep.signal (by dsimp only; rw [← hx.run]; exact hr)) ⟨.none, .cons hx.fix hx.saved, by dsimp only [fixCs]; rw [hx.reg, hx.cs], hx.reg, hx.run, hx.kcpu, hx.kcid, hx.cpuId, hx.mmCid, by dsimp only; rw [hx.ev]⟩
  | sigret g rest hr ht hs' =>
    right
    dsimp only at hr ht hs'
    have hsv := hx.saved
    rw [hs'] at hsv
    cases hfs : (th t).saved with
    | nil => rw [hfs] at hsv; cases hsv
    | cons f fs =>
      rw [hfs] at hsv
      cases hsv with
      | cons h1 h2 =>
        refine one hp (TStep.sigret f fs (by dsimp only; rw [← hx.run]; exact hr) (hx.none ht) hfs)
          ⟨h1, h2, hx.cs, hx.reg, hx.run, hx.kcpu, hx.kcid, hx.cpuId, hx.mmCid, hx.ev⟩
  | register hr ht hs' hn' =>
    right
    dsimp only at hr ht hs' hn'
    refine one hp (TStep.register (by dsimp only; rw [← hx.run]; exact hr) (hx.none ht)
      (hx.saved.none hs') (by dsimp only; rw [← hx.reg]; exact hn')) ⟨hx.top, hx.saved, hx.cs, rfl, hx.run, hx.kcpu, hx.kcid, hx.kcpu, hx.kcid, hx.ev⟩
  | unregister hr ht hs' hn' =>
    right
    dsimp only at hr ht hs' hn'
    refine one hp (TStep.unregister (by dsimp only; rw [← hx.run]; exact hr) (hx.none ht)
      (hx.saved.none hs') (by dsimp only; rw [← hx.reg]; exact hn')) ⟨hx.top, hx.saved, hx.cs, rfl, hx.run, hx.kcpu, hx.kcid, rfl, rfl, hx.ev⟩
  | clear hr ht =>
    right
    dsimp only at hr ht
    refine one hp (TStep.clear (by dsimp only; rw [← hx.run]; exact hr) (hx.none ht)) ⟨hx.top, hx.saved, rfl, hx.reg, hx.run, hx.kcpu, hx.kcid, hx.cpuId, hx.mmCid, hx.ev⟩

end Verif.Rseq
