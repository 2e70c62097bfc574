import Verif.RseqUnload
import Verif.RseqRaceProps
/-
C83: after `rseq_prepare_unload()` a library with critical sections can be unloaded.
-/

namespace Verif.Rseq

variable {n : Nat} {T : Nat → Site n} {m0 : Mem n} {g0 : Nat → Prop}

/-- **C83.** If every library is unloaded only when each thread that executed a critical section of it has called
`rseq_prepare_unload()` since, and none is inside it, then no thread ever has a descriptor that is not mapped in its
`rseq_cs`, so the kernel reads none; and no thread is inside code that is not mapped, nor will return to it after a
signal handler. -/
theorem unload_safe {u : UState n} (h : UReach T m0 g0 u) (t : Nat) :
    (∀ i, (u.s.th t).cs = some i → ¬ u.gone i) ∧
    (∀ f, (u.s.th t).top = some f ∨ some f ∈ (u.s.th t).saved → ¬ u.gone f.pid) := by
  refine ⟨h.mapped t, fun f hf => ?_⟩
  rcases hf with hf | hf
  · exact h.frames t _ f (by rw [frameAt_top rfl]; exact hf)
  · obtain ⟨d, hd, he⟩ := List.getElem_of_mem (List.mem_reverse.2 hf)
    refine h.frames t d f ?_
    rw [List.length_reverse] at hd
    rw [frameAt_saved (Nat.ne_of_lt hd), List.getElem?_eq_getElem (by simpa using hd), he]
    rfl

/-- The other guarantees are unaffected: what a program does with unloading is an execution without it. -/
theorem unload_conservative {u : UState n} (h : UReach T m0 g0 u) : AnyReach T m0 u.s := by
  induction h with
  | init => exact .init
  | step _ hs ih =>
    cases hs with
    | run hs _ => exact ih.step hs
    | unload => exact ih
    | load => exact ih

/-! ### The obligation can be met, and is needed -/

/-- Thread 0 inside a helper, with nothing else going on. -/
structure Lone (T : Nat → Site n) (m0 : Mem n) (f : Frame n) (s : State n) : Prop where
  reach : AnyReach T m0 s
  run : (s.th 0).run = true
  reg : (s.th 0).reg = true
  saved : (s.th 0).saved = []
  top : (s.th 0).top = some f
  others : ∀ t, t ≠ 0 → s.th t = thread0

theorem Lone.exec {f : Frame n} {s : State n} (h : Lone T m0 f s) {i : Nat} {ins : Instr}
    (hp : f.l.pc = .at i) (hc : (T f.pid).prog.code[i]? = some ins) :
    ∃ g s', Lone T m0 g s' ∧ g.pid = f.pid ∧ g.fld = f.fld ∧ (s'.th 0).fv = (s.th 0).fv ∧
      (g.l, s'.mem) = Rseq.exec (T f.pid).prog ((s.th 0).fv f.fld) i ins f.l s.mem ∧
      (s'.th 0).cs = if isCs ins = true then some f.pid else (s.th 0).cs := by
  obtain ⟨l', m', he⟩ : ∃ l' m', Rseq.exec (T f.pid).prog ((s.th 0).fv f.fld) i ins f.l s.mem = (l', m') :=
    ⟨_, _, rfl⟩
  have hs := Step.exec (T := T) (t := 0) f i ins l' m' h.run h.top hp hc he
  rw [he]
  refine ⟨{ f with
      l := l'
      foot := fun x => touched ins f.l x ∨ f.foot x
      last := if memFree ins = true then f.last else m'
      commits := if i + 1 = (T f.pid).prog.commit then f.commits + 1 else f.commits
      ep := if isCs ins = true then (s.th 0).ev else f.ep }, _,
    ⟨h.reach.step hs, ?_, ?_, ?_, ?_, fun t ht => (hs.other (Ne.symm ht)).trans (h.others t ht)⟩,
    rfl, rfl, ?_, rfl, ?_⟩ <;> dsimp only <;> rw [updT_same]
  · exact h.run
  · exact h.reg
  · exact h.saved
  · funext fl; cases fl <;> rfl

theorem Lone.solo {fv : BitVec 32} : ∀ (k : Nat) (f : Frame n) (s : State n), Lone T m0 f s →
    (s.th 0).fv f.fld = fv → (s.th 0).cs = some f.pid → ∀ l' m',
    Rseq.run (T f.pid).prog fv k (f.l, s.mem) = (l', m') →
    ∃ g s', Lone T m0 g s' ∧ g.l = l' ∧ (s'.th 0).cs = some f.pid := by
  intro k
  induction k with
  | zero =>
    intro f s h hf hc l' m' hr
    simp only [Rseq.run, Prod.mk.injEq] at hr
    exact ⟨f, s, h, hr.1, hc⟩
  | succ k ih =>
    intro f s h hf hc l' m' hr
    simp only [Rseq.run, step] at hr
    cases hp : f.l.pc with
    | ret r =>
      simp only [hp] at hr
      exact ih f s h hf hc l' m' hr
    | «at» i =>
      simp only [hp] at hr
      cases hi : (T f.pid).prog.code[i]? with
      | none =>
        simp only [hi] at hr
        exact ih f s h hf hc l' m' hr
      | some ins =>
        simp only [hi] at hr
        obtain ⟨g, s', q, e1, e2, e3, e4, e5⟩ := h.exec hp hi
        rw [hf] at e4
        rw [← e4, ← e1] at hr
        have := ih g s' q (by rw [e3, e2]; exact hf) (by rw [e5, e1, hc]; split <;> rfl) l' m' hr
        rwa [e1] at this

set_option maxRecDepth 2000 in
/-- The state after a helper has returned 0 to thread 0: the thread is registered and outside, and its `rseq_cs`
still names the descriptor (it is cleared lazily). -/
theorem ex_lazy : ∃ s : State 8, AnyReach (fun _ => exSite) exMem s ∧ (s.th 0).reg = true ∧
    (s.th 0).run = true ∧ (∀ t, (s.th t).top = none ∧ (s.th t).saved = []) ∧ (s.th 0).cs = some 0 ∧
    ∀ t, t ≠ 0 → (s.th t).ev = 0 := by
  have hset := entry_setup (n := 8) (by decide) .aarch64 exOp 3#32
  have hb : Step (fun _ => exSite) (st1 exMem true 3#32 1#32) 0
      (.invoke (frame0 0 .cpuId 3#32 exOp exMem))
      ((st1 exMem true 3#32 1#32).set 0 { (st1 exMem true 3#32 1#32 : State 8).th 0 with
        top := some (frame0 0 .cpuId 3#32 exOp exMem) }) := by
    refine .invoke _ ?_ ?_ ?_ ?_
    · simp [st1, upd, th1]
    · simp [st1, upd, th1, thread0]
    · exact ⟨rfl, rfl, rfl, rfl, rfl, hset, exOp_ok _, exOp_tidy⟩
    · intro h; simp [st1, upd, th1] at h
  have hq : Lone (fun _ => exSite) exMem (frame0 0 .cpuId 3#32 exOp exMem) _ :=
    ⟨(st1_reach exMem true 3#32 1#32).any.step hb, by simp [State.set, upd, st1, th1],
      by simp [State.set, upd, st1, th1], by simp [State.set, upd, st1, th1, thread0], by simp [State.set, upd],
      by intro t ht; simp [State.set, upd, st1, ht]⟩
  obtain ⟨g, s1, q1, e1, e2, e3, e4, e5⟩ := hq.exec (i := 0) rfl rfl
  rw [if_pos (by rfl)] at e5
  have hr : run exSite.prog 3#32 20 (g.l, s1.mem) =
      run exSite.prog 3#32 21 ((frame0 0 .cpuId 3#32 exOp exMem).l, exMem) := by
    rw [e4]; rfl
  obtain ⟨f2, s2, q2, h1, h2⟩ := Lone.solo (fv := 3#32) 20 g s1 q1
    (by rw [e3, e2]; simp [State.set, upd, st1, th1, Thread.fv, frame0]) (by rw [e5, e1]) _ _ rfl
  have hp : f2.l.pc = .ret 0 := by
    rw [h1]
    show (run exSite.prog 3#32 20 (g.l, s1.mem)).1.pc = .ret 0
    rw [hr]; decide
  have hs := Step.ret (T := fun _ => exSite) (t := 0) f2 0 q2.run q2.top hp
  refine ⟨_, q2.reach.step hs, ?_, ?_, ?_, ?_, ?_⟩
  · simp [State.set, upd, q2.reg]
  · simp [State.set, upd, q2.run]
  · intro t
    by_cases ht : t = 0
    · subst ht; simp [State.set, upd, q2.saved]
    · rw [hs.other (Ne.symm ht), q2.others t ht]; exact ⟨rfl, rfl⟩
  · simp only [State.set, updT_same, h2, e1]; rfl
  · intro t ht; rw [hs.other (Ne.symm ht), q2.others t ht]; rfl

/-- **The obligation is needed.** A state in which no thread is inside any helper, but unloading the library makes
the kernel read a descriptor that is not mapped when it next interrupts thread 0. -/
theorem unload_needs_prepare : ∃ u : UState 8, UReach (fun _ => exSite) exMem (fun _ => False) u ∧
    (∀ t, Outside (u.s.th t) (· = 0)) ∧ (u.s.th 0).reg = true ∧ (u.s.th 0).run = true ∧
    (u.s.th 0).cs = some 0 := by
  obtain ⟨s, h1, h2, h3, h4, h5, h6⟩ := ex_lazy
  obtain ⟨hist, hu⟩ := h1.unloaded
  refine ⟨_, hu, fun t d f hf => ?_, h2, h3, h5⟩
  rcases frameAt_any hf with h | h
  · rw [(h4 t).1] at h; cases h
  · rw [(h4 t).2] at h; cases h

/-- **The obligation can be met**: there, thread 0 calls `rseq_prepare_unload()` and the library is unloaded. -/
theorem ex_unload : ∃ u : UState 8, UReach (fun _ => exSite) exMem (fun _ => False) u ∧ u.gone 0 := by
  obtain ⟨s, h1, h2, h3, h4, h5, h6⟩ := ex_lazy
  have hs := Step.clear (T := fun _ => exSite) (t := 0) h3 (h4 0).1
  obtain ⟨hist, hu⟩ := h1.unloaded
  have hu' := hu.step (.run hs fun _ _ h => h)
  refine ⟨_, hu'.step (.unload (· = 0) ?_ ?_), .inr rfl⟩
  · intro t d f hf
    by_cases ht : t = 0
    · subst ht
      rcases frameAt_any hf with h | h
      · simp [State.set, upd, (h4 0).1] at h
      · simp [State.set, upd, (h4 0).2] at h
    · dsimp only at hf
      rw [hs.other (Ne.symm ht)] at hf
      rcases frameAt_any hf with h | h
      · rw [(h4 t).1] at h; cases h
      · rw [(h4 t).2] at h; cases h
  · intro t
    by_cases ht : t = 0
    · subst ht; exact .inl ⟨[], _, _, rfl, rfl, rfl, by simp⟩
    · refine .inr fun e he hr => ?_
      have := hu'.idle t (by dsimp only; rw [hs.other (Ne.symm ht)]; exact h6 t ht)
      exact this.2 e he hr.1 hr.2.1

end Verif.Rseq
