import Verif.RseqConcEx
/-
Uninterrupted calls by a thread that runs alone, for building example executions of client programs.
-/

namespace Verif.Rseq

variable {n : Nat} {T : Nat → Site n}

theorem solo_rel {P : State n → Prop} {t : Nat} {fv : BitVec 32} {p : Prog n}
    (hP : ∀ s s', P s → Step T s t .exec s' → P s') : ∀ (k : Nat) (s : State n) (f : Frame n) (l' : LSt n)
    (m' : Mem n), P s → (s.th t).run = true → (s.th t).top = some f → (T f.pid).prog = p →
    (s.th t).fv f.fld = fv → run p fv k (f.l, s.mem) = (l', m') →
    ∃ s' f' cs, P s' ∧ s'.th = upd s.th t { s.th t with top := some f', cs := cs } ∧ f'.l = l' ∧
      f'.pid = f.pid ∧ f'.fld = f.fld ∧ f'.cpu = f.cpu ∧ f'.op = f.op ∧ s'.mem = m' := by
  intro k
  induction k with
  | zero =>
    intro s f l' m' hc hr ht hp hfv h
    simp only [run, Prod.mk.injEq] at h
    refine ⟨s, f, (s.th t).cs, hc, ?_, h.1, rfl, rfl, rfl, rfl, h.2⟩
    funext u
    by_cases e : u = t
    · subst e; rw [updT_same, ← ht]
    · rw [updT_other _ _ e]
  | succ k ih =>
    intro s f l' m' hc hr ht hp hfv h
    rw [run] at h
    have stay : step p fv (f.l, s.mem) = (f.l, s.mem) → ∃ s' f' cs, P s' ∧
        s'.th = upd s.th t { s.th t with top := some f', cs := cs } ∧ f'.l = l' ∧
        f'.pid = f.pid ∧ f'.fld = f.fld ∧ f'.cpu = f.cpu ∧ f'.op = f.op ∧ s'.mem = m' := by
      intro hs
      rw [hs] at h
      exact ih s f l' m' hc hr ht hp hfv h
    cases hpc : f.l.pc with
    | ret r => exact stay (by simp [step, hpc])
    | «at» i =>
      cases hcd : p.code[i]? with
      | none => exact stay (by simp [step, hpc, hcd])
      | some ins =>
        have hs : step p fv (f.l, s.mem) = exec p fv i ins f.l s.mem := by simp [step, hpc, hcd]
        rw [hs] at h
        obtain ⟨l1, m1, he⟩ : ∃ l1 m1, exec p fv i ins f.l s.mem = (l1, m1) := ⟨_, _, rfl⟩
        rw [he] at h
        have hstep := Step.exec (T := T) (s := s) (t := t) f i ins l1 m1 hr ht hpc
          (by rw [hp]; exact hcd) (by rw [hp, hfv]; exact he)
        obtain ⟨s', f', cs, a1, a2, a3, a4, a5, a6, a7, a8⟩ := ih _
          { f with
              l := l1
              foot := fun x => touched ins f.l x ∨ f.foot x
              last := if memFree ins = true then f.last else m1
              commits := if i + 1 = (T f.pid).prog.commit then f.commits + 1 else f.commits
              ep := if isCs ins = true then (s.th t).ev else f.ep } l' m' (hP _ _ hc hstep)
          (by dsimp only; rw [updT_same]; exact hr)
          (by dsimp only; rw [updT_same])
          hp (by dsimp only; rw [updT_same]; rw [← hfv]; cases f.fld <;> rfl) h
        refine ⟨s', f', cs, a1, ?_, a3, a4, a5, a6, a7, a8⟩
        rw [a2]
        dsimp only
        rw [updT_same]
        funext u
        by_cases e : u = t
        · subst e; rw [updT_same, updT_same]
        · rw [updT_other _ _ e, updT_other _ _ e, updT_other _ _ e]

/-- A registered running thread executes one call without being interrupted. -/
theorem alone_call (hn : 4 ≤ n) {P Q : State n → Prop} {t : Nat} {s : State n} (pid : Nat) (fld : Fld)
    (cpu : BitVec 32) (op : Op n) (hk : (T pid).kind = op.kind) (hal : (T pid).al = exAl)
    (hok : CallOK (T pid).arch (T pid).al op) (ht : Tidy op)
    (hr : (s.th t).run = true) (htop : (s.th t).top = none) (hreg : (s.th t).reg = true)
    (r : Int) (m' : Mem n)
    (hres : (r, m') = if (s.th t).fv fld = cpu then pseudo (T pid).prog.be op s.mem else (-1, s.mem))
    (h0 : ∀ s', Step T s t (.invoke (frame0 pid fld cpu op s.mem)) s' → P s')
    (hP : ∀ s s', P s → Step T s t .exec s' → P s')
    (h1 : ∀ s s' f, P s → (s.th t).top = some f → f.l.pc = .ret r → f.op = op → f.fld = fld → f.cpu = cpu →
      f.pid = pid → Step T s t .ret s' → Q s') :
    ∃ s' cs, Q s' ∧ s'.th = upd s.th t { s.th t with cs := cs } ∧ s'.mem = m' := by
  have hset : Setup (clobbers (T pid).arch op.kind) (signExt (T pid).arch) (T pid).al op cpu
      (entry exInv op cpu) := by rw [hal]; exact entry_setup hn (T pid).arch op cpu
  have himp := helpers_implement_pseudocode hn _ (T pid).rel (T pid).be _ (T pid).csa op _
    (by rw [← hk]; exact (T pid).ok) hok cpu ((s.th t).fv fld) _ s.mem hset
  have hret : Returns (T pid).prog ((s.th t).fv fld)
      (clobbers (T pid).arch op.kind) (entry exInv op cpu) s.mem r m' := by
    by_cases h : (s.th t).fv fld = cpu
    · rw [if_pos h] at hres
      have := himp.1 h
      rw [← hres] at this; exact this
    · rw [if_neg h] at hres
      have := himp.2 h
      injection hres with e1 e2
      subst e1 e2; exact this
  obtain ⟨j, hj1, hj2, -⟩ := hret
  have hb : Step T s t (.invoke (frame0 pid fld cpu op s.mem))
      (s.set t { s.th t with top := some (frame0 pid fld cpu op s.mem) }) := by
    refine .invoke _ hr htop ⟨rfl, rfl, rfl, rfl, hk, hset, hok, ht⟩ ?_
    intro h; rw [hreg] at h; simp at h
  obtain ⟨s1, f', cs, b1, b2, b3, b4, b5, b6, b7, b8⟩ := solo_rel (T := T) (t := t) hP
    (fv := (s.th t).fv fld) (p := (T pid).prog) j
    (s.set t { s.th t with top := some (frame0 pid fld cpu op s.mem) }) (frame0 pid fld cpu op s.mem)
    (Rseq.run (T pid).prog ((s.th t).fv fld) j (entry exInv op cpu, s.mem)).1
    (Rseq.run (T pid).prog ((s.th t).fv fld) j (entry exInv op cpu, s.mem)).2
    (h0 _ hb) (by simp [State.set, upd, hr]) (by simp [State.set, upd]) rfl
    (by simp only [State.set, updT_same, frame0]; cases fld <;> rfl) rfl
  have hs1 : s1.th t = { s.th t with top := some f', cs := cs } := by
    rw [b2]; simp only [State.set, updT_same]
  have hst := Step.ret (T := T) (s := s1) (t := t) f' r (by rw [hs1]; exact hr) (by rw [hs1])
    (by rw [b3]; exact hj1)
  refine ⟨_, cs, h1 _ _ f' b1 (by rw [hs1]) (by rw [b3]; exact hj1) b7 b5 b6 b4 hst, ?_, ?_⟩
  · simp only [State.set]
    rw [hs1]
    funext u
    by_cases e : u = t
    · subst e; rw [updT_same, updT_same, ← htop]
    · rw [updT_other _ _ e, updT_other _ _ e, b2, updT_other _ _ e]
      simp only [State.set]; rw [updT_other _ _ e]
  · show s1.mem = m'
    rw [b8]; exact hj2

end Verif.Rseq
