import Verif.RseqCause
/-
C86: a call returns -1 only for a cause, and a retry loop makes progress.
-/

namespace Verif.Rseq

variable {n : Nat} {T : Nat → Site n} {m0 : Mem n} {t d : Nat} {f0 : Frame n} {sb s0 s1 : State n}
  {es : List (Ev n)} {r : Int}

/-- **C86.** A call returns -1 exactly if the kernel aborted it, between the start of its section and its commit,
because the thread was scheduled or got a signal there, or its comparison of the CPU number failed while the thread
was not on the requested CPU. -/
theorem abort_iff_cause (hn : 4 ≤ n) (h : RaceCall T m0 t d f0 sb s0 es s1 r) :
    r = -1 ↔ ∃ e ∈ es, KernelAbort T t d e ∨ CpuMismatch T t d f0.fld f0.cpu e := by
  obtain ⟨h1, h2, h3, -, -⟩ := invoke_frame h.begin_
  have hz : zone (T f0.pid).prog f0.l.pc = .pre := by
    rw [h3.l, h3.setup.pc, zone_pre_iff]; have := (T f0.pid).facts.start1; omega
  obtain ⟨-, f, hf, hA⟩ := RCall.af hn (h.reach.step h.begin_)
    (by rw [frameAt_top (by rw [h2]; exact h.depth.symm)]; exact h1) hz h.mid
  rw [frameAt_top h.top.symm] at hf
  obtain ⟨g, hg, hr⟩ := h.ret
  rw [hf] at hg
  injection hg with hg
  subst hg
  rw [← hA.cause, hr]
  simp [zone]

/-- One step changes the kernel's numbers of a thread only if it schedules the thread, and the event counter never
decreases; it increases at every scheduling and signal. -/
theorem Step.events {s s' : State n} {u : Nat} {lab : Lab n} (hs : Step T s u lab s') (t : Nat) :
    (s.th t).ev ≤ (s'.th t).ev ∧
    ((s.th t).ev = (s'.th t).ev → (s'.th t).kcpu = (s.th t).kcpu ∧ (s'.th t).kcid = (s.th t).kcid) ∧
    (u = t → lab = .resume ∨ lab = .signal → (s.th t).ev < (s'.th t).ev) := by
  by_cases hu : u = t
  · subst hu
    cases hs <;> simp [State.set, upd]
  · rw [hs.other hu]
    exact ⟨Nat.le_refl _, fun _ => ⟨rfl, rfl⟩, fun h => (hu h).elim⟩

/-- Any number of steps of any threads. -/
inductive Steps (T : Nat → Site n) (s : State n) : State n → Prop
  | nil : Steps T s s
  | cons {s1 s2 : State n} {u : Nat} {lab : Lab n} (h : Steps T s s1) (hs : Step T s1 u lab s2) : Steps T s s2

theorem Steps.trans {a b c : State n} (h : Steps T a b) (h' : Steps T b c) : Steps T a c := by
  induction h' with
  | nil => exact h
  | cons _ hs ih => exact ih.cons hs

theorem Steps.events {s s' : State n} (h : Steps T s s') (t : Nat) :
    (s.th t).ev ≤ (s'.th t).ev ∧
    ((s.th t).ev = (s'.th t).ev → ∀ fld, (s'.th t).kv fld = (s.th t).kv fld) := by
  induction h with
  | nil => exact ⟨Nat.le_refl _, fun _ _ => rfl⟩
  | cons _ hs ih =>
    obtain ⟨a, b, -⟩ := hs.events t
    refine ⟨Nat.le_trans ih.1 a, fun he fld => ?_⟩
    have h1 := ih.1
    have h2 := ih.2 (by omega) fld
    obtain ⟨h3, h4⟩ := b (by omega)
    rw [← h2]
    cases fld
    · exact h3
    · exact h4

theorem RCall.steps {s0 s1 : State n} (h : RCall T t d s0 es s1) : Steps T s0 s1 ∧
    ∀ e ∈ es, Steps T s0 e.s ∧ Step T e.s e.who e.lab e.s' ∧ Steps T e.s' s1 := by
  induction h with
  | nil => exact ⟨.nil, by simp⟩
  | cons _ hs _ ih =>
    refine ⟨ih.1.cons hs, ?_⟩
    intro e he
    rcases List.mem_cons.1 he with rfl | he
    · exact ⟨ih.1, hs, .nil⟩
    · obtain ⟨a, b, c⟩ := ih.2 e he
      exact ⟨a, b, c.cons hs⟩

/-- **C86.** The thread was on CPU `cpu` when it read the number; it calls a helper with it and gets -1.  Then it has
been scheduled or got a signal since it read the number, whatever the other threads did. -/
theorem failed_attempt_interrupted (hn : 4 ≤ n) {sr : State n} (hon : On t f0.fld f0.cpu sr) (hto : Steps T sr sb)
    (hreg : (sb.th t).reg = true) (h : RaceCall T m0 t d f0 sb s0 es s1 (-1)) :
    (sr.th t).ev < (s1.th t).ev := by
  obtain ⟨e, he, hc⟩ := (abort_iff_cause hn h).1 rfl
  obtain ⟨h1, h2, -, h4, -⟩ := invoke_frame h.begin_
  have hsr : Steps T sr s0 := hto.cons h.begin_
  obtain ⟨-, hst⟩ := h.mid.steps
  obtain ⟨a, b, c⟩ := hst e he
  have x1 := (hsr.trans a).events t
  have x2 := b.events t
  have x3 := c.events t
  rcases hc with ⟨k1, k2, -⟩ | ⟨k1, k2, -⟩
  · have := x2.2.2 k1 k2
    omega
  · have hr := h.mid.reg (by rw [frameAt_top (by rw [h2]; exact h.depth.symm), h1]; rfl)
    have hre := hr.2.1 _ (h.mid.mem_sts.2 _ he)
    rw [h4, hreg] at hre
    have hrun : (e.s.th t).run = true := by
      obtain ⟨s, who, lab, s'⟩ := e
      obtain ⟨rfl, o2, -⟩ := k1
      dsimp only at o2 b ⊢
      cases b <;> first | assumption | simp at o2
    have : (sr.th t).ev ≠ (e.s.th t).ev := fun hq => k2 ⟨hrun, hre, by rw [x1.2 hq]; exact hon.kv⟩
    omega

/-- **C86.** A call that begins on the requested CPU, and during which the thread is neither scheduled nor gets a
signal, does not return -1, whatever the other threads do. -/
theorem uninterrupted_call_completes (hn : 4 ≤ n) (h : RaceCall T m0 t d f0 sb s0 es s1 r)
    (hon : On t f0.fld f0.cpu sb) (hev : (s1.th t).ev = (sb.th t).ev) : r = 0 ∨ r = 1 := by
  rcases race_return_values hn h with h' | h' | h'
  · exact .inl h'
  · exact .inr h'
  · subst h'
    have := failed_attempt_interrupted hn hon .nil hon.reg h
    omega

/-- `k` attempts of thread `t`, one after the other, each with a CPU number read just before while registered, and
each returning -1.  Anything may happen between and during them. -/
inductive Failed (T : Nat → Site n) (m0 : Mem n) (t : Nat) (s : State n) : Nat → State n → Prop
  | none : Failed T m0 t s 0 s
  | attempt {k d : Nat} {f0 : Frame n} {sa sr sb s0 s1 : State n} {es : List (Ev n)}
      (h : Failed T m0 t s k sa) (hgo : Steps T sa sr) (hon : On t f0.fld f0.cpu sr) (hto : Steps T sr sb)
      (hreg : (sb.th t).reg = true) (hcall : RaceCall T m0 t d f0 sb s0 es s1 (-1)) : Failed T m0 t s (k + 1) s1

/-- **C86.** A retry loop makes progress: `k` failed attempts need at least `k` schedulings or signals of the
thread itself.  Other threads cannot make attempts fail. -/
theorem failed_attempts_bounded (hn : 4 ≤ n) {s s' : State n} {k : Nat} (h : Failed T m0 t s k s') :
    (s.th t).ev + k ≤ (s'.th t).ev := by
  induction h with
  | none => exact Nat.le_refl _
  | attempt _ hgo hon hto hreg hcall ih =>
    have h1 := (hgo.events t).1
    have h2 := failed_attempt_interrupted hn hon hto hreg hcall
    omega

/-! ### A thread that runs alone completes its operation -/

theorem RCall.alone {fv : BitVec 32} {p : Prog n} : ∀ (k : Nat) (s : State n) (es : List (Ev n)) (f : Frame n)
    (l' : LSt n) (m' : Mem n), RCall T t d s0 es s → (∀ e ∈ es, Own t d e) → (s.th t).run = true →
    (s.th t).saved.length = d → (s.th t).top = some f → (T f.pid).prog = p → (s.th t).fv f.fld = fv →
    run p fv k (f.l, s.mem) = (l', m') →
    ∃ es' s' f', RCall T t d s0 es' s' ∧ (∀ e ∈ es', Own t d e) ∧ es'.length ≤ es.length + k ∧
      (s'.th t).saved.length = d ∧ (s'.th t).top = some f' ∧ f'.l = l' ∧ s'.mem = m' ∧
      (s'.th t).ev = (s.th t).ev := by
  intro k
  induction k with
  | zero =>
    intro s es f l' m' hc ho hr hd ht hp hfv h
    simp only [run, Prod.mk.injEq] at h
    exact ⟨es, s, f, hc, ho, Nat.le_refl _, hd, ht, h.1, h.2, rfl⟩
  | succ k ih =>
    intro s es f l' m' hc ho hr hd ht hp hfv h
    rw [run] at h
    have stay : step p fv (f.l, s.mem) = (f.l, s.mem) → ∃ es' s' f', RCall T t d s0 es' s' ∧
        (∀ e ∈ es', Own t d e) ∧ es'.length ≤ es.length + (k + 1) ∧
        (s'.th t).saved.length = d ∧ (s'.th t).top = some f' ∧ f'.l = l' ∧ s'.mem = m' ∧
        (s'.th t).ev = (s.th t).ev := by
      intro hs
      rw [hs] at h
      obtain ⟨es', s', f', a1, a2, a3, a4⟩ := ih s es f l' m' hc ho hr hd ht hp hfv h
      exact ⟨es', s', f', a1, a2, by omega, a4⟩
    cases hpc : f.l.pc with
    | ret r => exact stay (by simp [step, hpc])
    | «at» i =>
      cases hcd : p.code[i]? with
      | none => exact stay (by simp [step, hpc, hcd])
      | some ins =>
        have hs : step p fv (f.l, s.mem) = exec p fv i ins f.l s.mem := by simp [step, hpc, hcd]
        rw [hs] at h
        obtain ⟨l1, m1, he⟩ : ∃ l1 m1, exec p fv i ins f.l s.mem = (l1, m1) := ⟨_, _, rfl⟩
        rw [he] at h
        have hstep := Step.exec (T := T) (s := s) (t := t) f i ins l1 m1 hr ht hpc
          (by rw [hp]; exact hcd) (by rw [hp, hfv]; exact he)
        have hcall := hc.cons hstep (by
          rw [frameAt_top (by dsimp only; rw [updT_same]; exact hd.symm)]
          dsimp only; rw [updT_same]; rfl)
        obtain ⟨es', s', f', a1, a2, a3, a4, a5, a6, a7, a8⟩ := ih _ _
          { f with
              l := l1
              foot := fun x => touched ins f.l x ∨ f.foot x
              last := if memFree ins = true then f.last else m1
              commits := if i + 1 = (T f.pid).prog.commit then f.commits + 1 else f.commits
              ep := if isCs ins = true then (s.th t).ev else f.ep } l' m' hcall
          (by
            intro e he
            rcases List.mem_cons.1 he with rfl | he
            · exact ⟨rfl, trivial, hd⟩
            · exact ho e he)
          (by dsimp only; rw [updT_same]; exact hr)
          (by dsimp only; rw [updT_same]; exact hd)
          (by dsimp only; rw [updT_same])
          hp (by dsimp only; rw [updT_same]; rw [← hfv]; cases f.fld <;> rfl) h
        refine ⟨es', s', f', a1, a2, ?_, a4, a5, a6, a7, ?_⟩
        · simp only [List.length_cons] at a3; omega
        · rw [a8]; dsimp only; rw [updT_same]

/-- **C86.** Obstruction freedom.  In every reachable state, whatever the other threads were doing when they
stopped, a registered thread that calls a helper with the CPU it is on, and then runs alone and uninterrupted,
completes the call: value and memory are those of the documented pseudo-code. -/
theorem alone_call_completes (hn : 4 ≤ n) (hR : AnyReach T m0 sb) (hon : On t f0.fld f0.cpu sb)
    (htop : (sb.th t).top = none) (hst : Starts T f0 sb.mem) :
    ∃ s0 es s1, RaceCall T m0 t (sb.th t).saved.length f0 sb s0 es s1 (pseudo (T f0.pid).prog.be f0.op sb.mem).1 ∧
      (∀ e ∈ es, Own t (sb.th t).saved.length e) ∧
      s1.mem = (pseudo (T f0.pid).prog.be f0.op sb.mem).2 ∧ (s1.th t).ev = (sb.th t).ev := by
  have hb : Step T sb t (.invoke f0) (sb.set t { sb.th t with top := some f0 }) :=
    .invoke f0 hon.run htop hst (by intro h; rw [hon.reg] at h; cases h)
  have hfv : (sb.th t).fv f0.fld = f0.cpu := by
    have hfl := ((hR.inv hn).th t).flds hon.reg hon.run
    rw [← hon.kv]
    cases f0.fld
    · exact hfl.1
    · exact hfl.2
  have himp := helpers_implement_pseudocode hn _ (T f0.pid).rel (T f0.pid).be _ (T f0.pid).csa f0.op _
    (by rw [← hst.kind]; exact (T f0.pid).ok) hst.ok f0.cpu ((sb.th t).fv f0.fld) _ sb.mem hst.setup
  obtain ⟨j, hj1, hj2, -⟩ := himp.1 hfv
  obtain ⟨es, s1, f, a1, a2, -, a4, a5, a6, a7, a8⟩ := RCall.alone (T := T) (t := t)
    (d := (sb.th t).saved.length) (fv := (sb.th t).fv f0.fld) (p := (T f0.pid).prog)
    (s0 := sb.set t { sb.th t with top := some f0 }) j
    (sb.set t { sb.th t with top := some f0 }) [] f0 _ _ .nil (by simp)
    (by simp [State.set, upd, hon.run]) (by simp [State.set, upd]) (by simp [State.set, upd]) rfl
    (by simp only [State.set, updT_same]; cases f0.fld <;> rfl) rfl
  refine ⟨_, es, s1, ⟨hR, hb, rfl, a1, a4, f, a5, ?_⟩, a2, ?_, ?_⟩
  · rw [a6, hst.l]; exact hj1
  · rw [a7, hst.l]; exact hj2
  · rw [a8]; simp [State.set, upd]

/-! ### Examples -/

theorem st1_on (m : Mem n) (c k : BitVec 32) : On 0 .cpuId c (st1 m true c k : State n) := by
  refine ⟨?_, ?_, ?_⟩ <;> simp [st1, upd, th1, Thread.kv]

/-- A failed attempt (the migrated call of `ex_call_migrated`). -/
theorem ex_failed : ∃ s', Failed (fun _ => exSite) exMem 0 (st1 exMem true 3#32 1#32) 1 s' ∧
    ((st1 exMem true 3#32 1#32 : State 8).th 0).ev + 1 ≤ (s'.th 0).ev := by
  obtain ⟨s0, es, s1, h, -⟩ := ex_call_migrated
  have hF : Failed (fun _ => exSite) exMem 0 (st1 exMem true 3#32 1#32) 1 s1 :=
    .attempt .none .nil (st1_on _ _ _) .nil (st1_on _ _ _).reg h.race
  exact ⟨s1, hF, failed_attempts_bounded (by decide) hF⟩

/-- Both sides of `abort_iff_cause`: the migrated call has a cause, the successful one has none. -/
theorem ex_cause : (∃ s0 es s1, RaceCall (fun _ => exSite) exMem 0 0 (frame0 0 .cpuId 3#32 exOp exMem)
      (st1 exMem true 3#32 1#32) s0 es s1 (-1) ∧
      ∃ e ∈ es, KernelAbort (fun _ => exSite) 0 0 e ∨ CpuMismatch (fun _ => exSite) 0 0 .cpuId 3#32 e) ∧
    (∃ s0 es s1, RaceCall (fun _ => exSite) (fun _ => 0#8) 0 0 (frame0 0 .cpuId 3#32 exOp (fun _ => 0#8))
      (st1 (fun _ => 0#8) true 3#32 1#32) s0 es s1 0 ∧
      ¬ ∃ e ∈ es, KernelAbort (fun _ => exSite) 0 0 e ∨ CpuMismatch (fun _ => exSite) 0 0 .cpuId 3#32 e) := by
  constructor
  · obtain ⟨s0, es, s1, h, -⟩ := ex_call_migrated
    exact ⟨s0, es, s1, h.race, (abort_iff_cause (by decide) h.race).1 rfl⟩
  · obtain ⟨s0, es, s1, h⟩ := ex_call_zero
    exact ⟨s0, es, s1, h.race, fun hc => by have := (abort_iff_cause (by decide) h.race).2 hc; cases this⟩

/-- `uninterrupted_call_completes` and `alone_call_completes`: a call of a thread that runs alone. -/
theorem ex_alone : ∃ s0 es s1, RaceCall (fun _ => exSite) exMem 0 0 (frame0 0 .cpuId 3#32 exOp exMem)
    (st1 exMem true 3#32 1#32) s0 es s1 0 ∧ (s1.th 0).ev = ((st1 exMem true 3#32 1#32 : State 8).th 0).ev ∧
    s1.mem 0x2000#64 = 7#8 := by
  obtain ⟨s0, es, s1, h, -, hm, he⟩ := alone_call_completes (T := fun _ => exSite) (m0 := exMem) (t := 0)
    (f0 := frame0 0 .cpuId 3#32 exOp exMem) (by decide) (st1_reach exMem true 3#32 1#32).any (st1_on _ _ _)
    (by simp [st1, upd, th1, thread0])
    ⟨rfl, rfl, rfl, rfl, rfl, entry_setup (n := 8) (by decide) .aarch64 exOp 3#32, exOp_ok _, exOp_tidy⟩
  have hd : ((st1 exMem true 3#32 1#32 : State 8).th 0).saved.length = 0 := by simp [st1, upd, th1, thread0]
  have hv : (pseudo exSite.prog.be exOp exMem).1 = 0 := by decide
  have hx : (pseudo exSite.prog.be exOp exMem).2 0x2000#64 = 7#8 := by decide
  rw [hd] at h
  have h' : RaceCall (fun _ => exSite) exMem 0 0 (frame0 0 .cpuId 3#32 exOp exMem) (st1 exMem true 3#32 1#32) s0 es s1
      (pseudo exSite.prog.be exOp exMem).1 := h
  rw [hv] at h'
  exact ⟨s0, es, s1, h', he, by rw [hm]; exact hx⟩

end Verif.Rseq
