import Verif.RseqRaceProps
import Verif.RseqRegsProps
import Verif.RseqBoundProps
import Verif.RseqCauseProps
import Verif.RseqTwiceProps
import Verif.RseqTwiceEx
import Verif.RseqInjectProps
import Verif.RseqInjectEx
/-
The theorems about calls of helpers (C32-C37, C43, C60, C61, C69, C80-C82, C86), each applied to a concrete
execution: their hypotheses can be met.  The executions are those of `RseqConcEx`, `RseqRaceProps`,
`RseqTwiceEx`, `RseqInjectEx`, `RseqBoundProps` (a copying helper on aarch64 that copies two bytes).
-/

namespace Verif.Rseq

variable {n : Nat} {T : Nat → Site n} {m0 : Mem n}

theorem Call.reach {t d : Nat} {s0 s1 : State n} {es : List (Ev n)} (h0 : PReach T m0 s0)
    (h : Call T t d s0 es s1) : PReach T m0 s1 := by
  induction h with
  | nil => exact h0
  | cons _ hs hp _ ih => exact ih.step hs hp

theorem WholeCall.end_reach {t d : Nat} {f0 : Frame n} {sb s0 s1 : State n} {es : List (Ev n)} {r : Int}
    (h : WholeCall T m0 t d f0 sb s0 es s1 r) : PReach T m0 s1 :=
  h.mid.reach (h.reach.step h.begin_ h.polite)

theorem TCall.reach {P : Nat → Prog n} {t d : Nat} {s0 s1 : State n} {es : List (Ev n)}
    (h0 : TReach T P m0 s0) (h : TCall T P t d s0 es s1) : TReach T P m0 s1 := by
  induction h with
  | nil => exact h0
  | cons _ hs hp _ ih => exact ih.step hs hp

theorem TWholeCall.end_reach {t d : Nat} {f0 : Frame n} {sb s0 s1 : State n} {es : List (Ev n)} {r : Int}
    (h : TWholeCall T m0 t d f0 sb s0 es s1 r) : TReach T (tw T) m0 s1 :=
  h.mid.reach (h.reach.step h.begin_ h.polite)

theorem PWholeCall.end_reach {P : Nat → Prog n} {t d : Nat} {f0 : Frame n} {sb s0 s1 : State n}
    {es : List (Ev n)} {r : Int} (h : PWholeCall T P m0 t d f0 sb s0 es s1 r) : TReach T P m0 s1 :=
  h.mid.reach (h.reach.step h.begin_ h.polite)

/-! ### C32-C37 -/

/-- `returns_zero_atomic` -/
example : ∃ e : Ev 8, Own 0 0 e ∧ pseudo exSite.prog.be exOp e.s.mem = (0, e.s'.mem) ∧ On 0 .cpuId 3#32 e.s := by
  obtain ⟨s0, es, s1, h⟩ := ex_call_zero
  obtain ⟨es1, e, es2, -, h1, h2, h3, -⟩ := returns_zero_atomic (by decide) h
  exact ⟨e, h1, h2, h3⟩

/-- `returns_abort_no_commit`, `returns_abort_variable`: a call that copied its bytes and was then migrated. -/
example : ∃ (es : List (Ev 8)) (s1 : State 8), (s1.th 0).kcpu = 5#32 ∧ s1.mem 0x2000#64 = 7#8 ∧
    (∀ e : Ev 8, e ∈ es → Own 0 0 e → ∀ a, ¬ targets exOp a → e.s'.mem a = e.s.mem a) ∧
    ∀ e : Ev 8, e ∈ es → Own 0 0 e → ∀ a, InWord 0x1000#64 a → e.s'.mem a = e.s.mem a := by
  obtain ⟨s0, es, s1, h, h1, -, h2⟩ := ex_call_migrated
  exact ⟨es, s1, h2, h1, returns_abort_no_commit (by decide) h, returns_abort_variable (by decide) h _ rfl⟩

/-- `returns_one_compare_failed` -/
example : ∃ sx : State 8, On 0 .mmCid 1#32 sx ∧ pseudo exSite.prog.be exOp sx.mem = (1, sx.mem) := by
  obtain ⟨s0, es, s1, h⟩ := ex_call_one
  obtain ⟨-, sx, -, h1, h2⟩ := returns_one_compare_failed (by decide) h
  exact ⟨sx, h1, h2⟩

/-- `never_on_cpu_aborts`, `unregistered_aborts_partial`: a thread that is not registered is never on a CPU. -/
example : ∃ s0 es s1 r, WholeCall (fun _ => exSite) (fun _ => 0#8) 0 0
      (frame0 0 .cpuId 2#32 exOp (fun _ => 0#8)) (st1 (fun _ => 0#8) false 3#32 1#32) s0 es s1 r ∧
    (∀ sx ∈ sts s0 es, ¬ On 0 .cpuId 2#32 sx) ∧ r = -1 ∧ ∀ e ∈ es, Own 0 0 e → e.s'.mem = e.s.mem := by
  obtain ⟨s0, es, s1, h⟩ := ex_call_abort false
  have hno : ∀ sx ∈ sts s0 es, ¬ On 0 .cpuId 2#32 sx := by
    obtain ⟨h1, h2, -, h4, -⟩ := invoke_frame h.begin_
    intro sx hx ho
    have := (h.mid.reg (by rw [frameAt_top (by rw [h2]; exact h.depth.symm), h1]; rfl)).2.1 sx hx
    rw [ho.reg, h4] at this
    simp [st1, upd, th1] at this
  exact ⟨s0, es, s1, _, h, hno, never_on_cpu_aborts (by decide) h hno,
    (unregistered_aborts_partial (by decide) h (by simp [st1, upd, th1])).2⟩

set_option maxRecDepth 2000 in
/-- A thread about to execute the final store of the helper. -/
theorem ex_body : ∃ (s : State 8) (f : Frame 8), PReach (fun _ => exSite) exMem s ∧ (s.th 0).run = true ∧
    (s.th 0).top = some f ∧ f.l.pc = .at 13 ∧ zone exSite.prog (.at 13) = .body := by
  have a1 : Alone (st1 exMem true 3#32 1#32 : State 8) 0 := by
    intro u hu; simp [st1, upd, hu, thread0]
  have hset := entry_setup (n := 8) (by decide) .aarch64 exOp 3#32
  have hb : Step (fun _ => exSite) (st1 exMem true 3#32 1#32) 0
      (.invoke (frame0 0 .cpuId 3#32 exOp exMem))
      ((st1 exMem true 3#32 1#32).set 0 { (st1 exMem true 3#32 1#32 : State 8).th 0 with
        top := some (frame0 0 .cpuId 3#32 exOp exMem) }) := by
    refine .invoke _ ?_ ?_ ?_ ?_
    · simp [st1, upd, th1]
    · simp [st1, upd, th1, thread0]
    · exact ⟨rfl, rfl, rfl, rfl, rfl, hset, exOp_ok _, exOp_tidy⟩
    · intro h; simp [st1, upd, th1] at h
  obtain ⟨es, s1, f', b1, b2, b3, b4, b5, b6, b7, b8, b9⟩ := solo (T := fun _ => exSite) (t := 0) (d := 0)
    (fv := 3#32) (p := exSite.prog)
    (s0 := (st1 exMem true 3#32 1#32).set 0 { (st1 exMem true 3#32 1#32 : State 8).th 0 with
        top := some (frame0 0 .cpuId 3#32 exOp exMem) }) 17
    ((st1 exMem true 3#32 1#32).set 0 { (st1 exMem true 3#32 1#32 : State 8).th 0 with
        top := some (frame0 0 .cpuId 3#32 exOp exMem) }) [] (frame0 0 .cpuId 3#32 exOp exMem) _ _ .nil
    (by intro u hu; simp [State.set, upd, hu, st1, thread0])
    (by simp [State.set, upd, st1, th1]) (by simp [State.set, upd, st1, th1, thread0])
    (by simp [State.set, upd]) rfl rfl rfl
  refine ⟨s1, f', b1.reach ((st1_reach exMem true 3#32 1#32).step hb a1.polite), b3, b5, by rw [b6]; decide, by decide⟩

/-- `commit_on_cpu`, `sections_exclusive` and their versions for arbitrary races -/
example : ∃ (s : State 8) (f : Frame 8), PReach (fun _ => exSite) exMem s ∧ (s.th 0).top = some f ∧
    (s.th 0).cs = some f.pid ∧ On 0 f.fld f.cpu s ∧ On 0 f.fld f.cpu s ∧
    ∀ u g, (s.th u).run = true → (s.th u).top = some g → g.l.pc = .at 13 → g.fld = f.fld → g.cpu = f.cpu → u = 0 := by
  obtain ⟨s, f, h, h1, h2, h3, h4⟩ := ex_body
  obtain ⟨c1, -, c2⟩ := commit_on_cpu (by decide) h h1 h2 h3 h4
  obtain ⟨d1, -, -⟩ := race_commit_on_cpu (by decide) h.any h1 h2 h3 h4
  refine ⟨s, f, h, h2, c2, c1, d1, fun u g k1 k2 k3 k4 k5 => ?_⟩
  have := race_sections_exclusive (by decide) h.any k1 h1 k2 h2 k3 h3 h4 h4 k4 k5
  exact sections_exclusive (by decide) h k1 h1 k2 h2 k3 h3 h4 h4 k4 k5

/-- `redirect_only_in_section`, `race_redirect_only_in_section`: the kernel redirects that thread. -/
example : ∃ (s : State 8) (f g : Frame 8), PReach (fun _ => exSite) exMem s ∧ (s.th 0).top = some f ∧
    fixTop (fun _ => exSite) (s.th 0) = some g ∧ g ≠ f ∧ f.commits = 0 ∧ g.l.pc = .at exSite.prog.abort := by
  obtain ⟨s, f, h, h1, h2, h3, h4⟩ := ex_body
  obtain ⟨c1, -, c2⟩ := commit_on_cpu (by decide) h h1 h2 h3 h4
  have hg : fixTop (fun _ => exSite) (s.th 0) =
      some { f with l := { f.l with pc := .at exSite.prog.abort } } := by
    unfold fixTop
    rw [h2]
    dsimp only
    rw [h3]
    dsimp only
    rw [if_pos ⟨c1.reg, c2, by decide, by decide⟩]
  have hne : ({ f with l := { f.l with pc := .at exSite.prog.abort } } : Frame 8) ≠ f := by
    intro he
    have := congrArg (fun f : Frame 8 => f.l.pc) he
    dsimp only at this
    rw [h3] at this
    exact absurd this (by decide)
  have hr := redirect_only_in_section (by decide) h h2 hg hne
  have := race_redirect_only_in_section (by decide) h.any h2 hg hne
  exact ⟨s, f, _, h, h2, hg, hne, hr.2.2.1, rfl⟩

/-- `prepare_unload_clears`: a thread that calls `rseq_prepare_unload()` and is then preempted and gets CPU 5. -/
example : ∃ s s' s'' : State 8, PReach (fun _ => exSite) exMem s ∧ Step (fun _ => exSite) s 0 .clear s' ∧
    NoHelper (fun _ => exSite) 0 s' s'' ∧ (s''.th 0).kcpu = 5#32 ∧ (s''.th 0).cs = none := by
  have h0 := st1_reach (T := fun _ => exSite) (n := 8) exMem true 3#32 1#32
  have hc : Step (fun _ => exSite) (st1 exMem true 3#32 1#32) 0 .clear _ :=
    .clear (by simp [st1, upd, th1]) (by simp [st1, upd, th1, thread0])
  have q1 := (NoHelper.refl (T := fun _ => exSite) (t := 0)
    (s := (st1 exMem true 3#32 1#32 : State 8).set 0 { (st1 exMem true 3#32 1#32 : State 8).th 0 with cs := none })).step
    (Step.preempt (t := 0) (by simp [State.set, upd, st1, th1])) (fun _ => trivial)
  have q2 := q1.step (Step.resume (t := 0) 5#32 1#32 (by simp [State.set, upd])
    (by intro u hu hr; simp [State.set, upd, hu, st1, thread0] at hr)) (fun _ => trivial)
  exact ⟨_, _, _, h0, hc, q2, by simp [State.set, upd], prepare_unload_clears hc q2⟩

/-- `registers_restored`: a call that has returned. -/
example : ∃ (s : State 8) (f : Frame 8), AnyReach (fun _ => exSite) (fun _ => 0#8) s ∧ (s.th 0).top = some f ∧
    f.l.pc = .ret 0 ∧ ∀ x, x ∉ clobbers .aarch64 .cbneMemcpyStore → f.l.regs x = f.l0.regs x := by
  obtain ⟨s0, es, s1, h⟩ := ex_call_zero
  obtain ⟨f, h1, h2⟩ := h.ret
  exact ⟨s1, f, h.end_reach.any, h1, h2, (registers_restored h.end_reach.any h1 h2).1⟩

/-! ### C61: arbitrary stores of other threads -/

/-- `race_returns_zero`, on a call that no single moment explains (`ex_race`) -/
example : ∃ e : Ev 8, Own 0 0 e ∧ On 0 .cpuId 3#32 e.s ∧ e.s'.mem = stw exSite.prog.be e.s.mem 0x1000#64 0x55#64 := by
  obtain ⟨s0, es, s1, h, -⟩ := ex_race
  have := race_return_values (by decide) h
  obtain ⟨es1, e, es2, -, h1, h2, -, h3, -⟩ := race_returns_zero (by decide) h
  exact ⟨e, h1, h2, h3 _ _ rfl rfl⟩

/-- `race_returns_abort`, `race_returns_abort_variable` -/
example : ∃ (es : List (Ev 8)) (s1 : State 8), (s1.th 0).kcpu = 5#32 ∧
    (∀ e : Ev 8, e ∈ es → Own 0 0 e → ∀ a, ¬ targets exOp a → e.s'.mem a = e.s.mem a) ∧
    ∀ e : Ev 8, e ∈ es → Own 0 0 e → ∀ a, InWord 0x1000#64 a → e.s'.mem a = e.s.mem a := by
  obtain ⟨s0, es, s1, h, -, -, h2⟩ := ex_call_migrated
  exact ⟨es, s1, h2, race_returns_abort (by decide) h.race, race_returns_abort_variable (by decide) h.race _ rfl⟩

/-- `race_returns_one` -/
example : ∃ e : Ev 8, Own 0 0 e ∧ On 0 .mmCid 1#32 e.s := by
  obtain ⟨s0, es, s1, h⟩ := ex_call_one
  obtain ⟨-, e, -, h1⟩ := race_returns_one (by decide) h.race
  exact ⟨e, h1⟩

/-- `race_never_on_cpu`, `race_unregistered_partial` -/
example : ∃ s0 es s1, RaceCall (fun _ => exSite) (fun _ => 0#8) 0 0
      (frame0 0 .cpuId 2#32 exOp (fun _ => 0#8)) (st1 (fun _ => 0#8) false 3#32 1#32) s0 es s1 (-1) ∧
    (∀ sx ∈ sts s0 es, ¬ On 0 .cpuId 2#32 sx) ∧ ∀ e ∈ es, Own 0 0 e → e.s'.mem = e.s.mem := by
  obtain ⟨s0, es, s1, h⟩ := ex_call_abort false
  have hno : ∀ sx ∈ sts s0 es, ¬ On 0 .cpuId 2#32 sx := by
    obtain ⟨h1, h2, -, h4, -⟩ := invoke_frame h.begin_
    intro sx hx ho
    have := (h.mid.reg (by rw [frameAt_top (by rw [h2]; exact h.depth.symm), h1]; rfl)).2.1 sx hx
    rw [ho.reg, h4] at this
    simp [st1, upd, th1] at this
  have hr := race_never_on_cpu (by decide) h.race hno
  exact ⟨s0, es, s1, h.race, hno, (race_unregistered_partial (by decide) h.race (by simp [st1, upd, th1])).2⟩

/-! ### C69: `RSEQ_COMPARE_TWICE` -/

/-- `twice_returns_zero_atomic`, `twice_return_values`, `compare_twice_simulated`, `compare_twice_never_fires` -/
example : ∃ s1 e g, TReach (fun _ => exSite) (tw fun _ => exSite) (fun _ => 0#8) s1 ∧ Own 0 0 e ∧
    pseudo exSite.prog.be exOp (e : Ev 8).s.mem = (0, e.s'.mem) ∧ (s1.th 0).top = some g ∧ NoBug exSite g.l.pc ∧
    ∃ s, PReach (fun _ => exSite) (fun _ => 0#8) s ∧ s.mem = s1.mem := by
  obtain ⟨s0, es, s1, h⟩ := ex_tcall_zero
  have := twice_return_values (by decide) h
  obtain ⟨es1, e, es2, -, h1, h2, -⟩ := twice_returns_zero_atomic (by decide) h
  obtain ⟨g, hg, -⟩ := h.ret
  obtain ⟨s, k1, k2, -⟩ := compare_twice_simulated (by decide) h.end_reach
  exact ⟨s1, e, g, h.end_reach, h1, h2, hg, compare_twice_never_fires (by decide) h.end_reach 0 g (.inl hg), s, k1, k2⟩

/-- `twice_returns_one_compare_failed` -/
example : ∃ sx : State 8, On 0 .mmCid 1#32 sx ∧ pseudo exSite.prog.be exOp sx.mem = (1, sx.mem) := by
  obtain ⟨s0, es, s1, h⟩ := ex_tcall_one
  obtain ⟨-, sx, -, h1, h2⟩ := twice_returns_one_compare_failed (by decide) h
  exact ⟨sx, h1, h2⟩

/-- `twice_returns_abort_no_commit` -/
example : ∃ s0 es s1, TWholeCall (fun _ => exSite) (fun _ => 0#8) 0 0
      (frame0 0 .cpuId 2#32 exOp (fun _ => 0#8)) (st1 (fun _ => 0#8) true 3#32 1#32) s0 es s1 (-1) ∧
    ∀ e ∈ es, Own 0 0 e → ∀ a, ¬ targets exOp a → e.s'.mem a = e.s.mem a := by
  obtain ⟨s0, es, s1, h⟩ := ex_tcall_abort true
  exact ⟨s0, es, s1, h, twice_returns_abort_no_commit (by decide) h⟩

/-- `compare_twice_implements` -/
example : Implements exSite.twice (clobbers .aarch64 .cbneMemcpyStore) (signExt .aarch64) exAl exOp :=
  compare_twice_implements (by decide) exSite exOp rfl (exOp_ok _)

/-! ### C80, C81: delay injection, seven iterations in every loop -/

/-- `inject_returns_zero_atomic`, `inject_return_values`, `inject_simulated`, `inject_registers_restored` -/
example : ∃ s1 e g, TReach (fun _ => exSite) (injPlain fun _ => exSite) (fun _ => 0#8) s1 ∧ Own 0 0 e ∧
    pseudo exSite.prog.be exOp (e : Ev 8).s.mem = (0, e.s'.mem) ∧ (s1.th 0).top = some g ∧
    (∀ i, i < 100 → g.l.slots i = g.l0.slots i) ∧
    ∃ s, PReach (fun _ => exSite) (fun _ => 0#8) s ∧ s.mem = s1.mem := by
  obtain ⟨⟨s0, es, s1, h⟩, -⟩ := ex_icall .cpuId 3#32 (fun _ => 0#8) true (by simp)
  have h : PWholeCall (fun _ => exSite) (injPlain fun _ => exSite) (fun _ => 0#8) 0 0
    (frameC 0 .cpuId 3#32 exOp (fun _ => 0#8) 7#64) (st1 (fun _ => 0#8) true 3#32 1#32) s0 es s1 0 := h
  have := inject_return_values (by decide) exSite_injAll h
  obtain ⟨es1, e, es2, -, h1, h2, -⟩ := inject_returns_zero_atomic (by decide) exSite_injAll h
  obtain ⟨g, hg, hr⟩ := h.ret
  obtain ⟨s, k1, k2, -⟩ := inject_simulated exSite_injAll h.end_reach
  exact ⟨s1, e, g, h.end_reach, h1, h2, hg, (inject_registers_restored exSite_injAll h.end_reach hg hr).2, s, k1, k2⟩

/-- `inject_returns_one_compare_failed` -/
example : ∃ sx : State 8, On 0 .mmCid 1#32 sx ∧ pseudo exSite.prog.be exOp sx.mem = (1, sx.mem) := by
  obtain ⟨⟨s0, es, s1, h⟩, -⟩ := ex_icall .mmCid 1#32 (fun _ => 1#8) true (by simp)
  obtain ⟨-, sx, -, h1, h2⟩ := inject_returns_one_compare_failed (by decide) exSite_injAll
    (show PWholeCall (fun _ => exSite) (injPlain fun _ => exSite) (fun _ => 1#8) 0 0
      (frameC 0 .mmCid 1#32 exOp (fun _ => 1#8) 7#64) (st1 (fun _ => 1#8) true 3#32 1#32) s0 es s1 1 from h)
  exact ⟨sx, h1, h2⟩

/-- `inject_returns_abort_no_commit` -/
example : ∃ s0 es s1, PWholeCall (fun _ => exSite) (injPlain fun _ => exSite) (fun _ => 0#8) 0 0
      (frameC 0 .cpuId 2#32 exOp (fun _ => 0#8) 7#64) (st1 (fun _ => 0#8) true 3#32 1#32) s0 es s1 (-1) ∧
    ∀ e ∈ es, Own 0 0 e → ∀ a, ¬ targets exOp a → e.s'.mem a = e.s.mem a := by
  obtain ⟨⟨s0, es, s1, h⟩, -⟩ := ex_icall .cpuId 2#32 (fun _ => 0#8) true (by simp)
  exact ⟨s0, es, s1, h, inject_returns_abort_no_commit (by decide) exSite_injAll h⟩

/-- `inject_twice_returns_zero_atomic`, `inject_twice_return_values`, `inject_twice_simulated`,
`inject_twice_never_fires` -/
example : ∃ s1 e g, TReach (fun _ => exSite) (injTw fun _ => exSite) (fun _ => 0#8) s1 ∧ Own 0 0 e ∧
    pseudo exSite.prog.be exOp (e : Ev 8).s.mem = (0, e.s'.mem) ∧ (s1.th 0).top = some g ∧
    NoBugInj exSite g.l.pc ∧ ∃ s, PReach (fun _ => exSite) (fun _ => 0#8) s ∧ s.mem = s1.mem := by
  obtain ⟨-, s0, es, s1, h⟩ := ex_icall .cpuId 3#32 (fun _ => 0#8) true (by simp)
  have h : PWholeCall (fun _ => exSite) (injTw fun _ => exSite) (fun _ => 0#8) 0 0
    (frameC 0 .cpuId 3#32 exOp (fun _ => 0#8) 7#64) (st1 (fun _ => 0#8) true 3#32 1#32) s0 es s1 0 := h
  have := inject_twice_return_values (by decide) exSite_injAll h
  obtain ⟨es1, e, es2, -, h1, h2, -⟩ := inject_twice_returns_zero_atomic (by decide) exSite_injAll h
  obtain ⟨g, hg, hr⟩ := h.ret
  obtain ⟨s, k1, k2, -⟩ := inject_twice_simulated (by decide) exSite_injAll h.end_reach
  exact ⟨s1, e, g, h.end_reach, h1, h2, hg,
    inject_twice_never_fires (by decide) exSite_injAll h.end_reach 0 g (.inl hg), s, k1, k2⟩

/-- `inject_twice_returns_one_compare_failed` -/
example : ∃ sx : State 8, On 0 .mmCid 1#32 sx ∧ pseudo exSite.prog.be exOp sx.mem = (1, sx.mem) := by
  obtain ⟨-, s0, es, s1, h⟩ := ex_icall .mmCid 1#32 (fun _ => 1#8) true (by simp)
  obtain ⟨-, sx, -, h1, h2⟩ := inject_twice_returns_one_compare_failed (by decide) exSite_injAll
    (show PWholeCall (fun _ => exSite) (injTw fun _ => exSite) (fun _ => 1#8) 0 0
      (frameC 0 .mmCid 1#32 exOp (fun _ => 1#8) 7#64) (st1 (fun _ => 1#8) true 3#32 1#32) s0 es s1 1 from h)
  exact ⟨sx, h1, h2⟩

/-- `inject_twice_returns_abort_no_commit` -/
example : ∃ s0 es s1, PWholeCall (fun _ => exSite) (injTw fun _ => exSite) (fun _ => 0#8) 0 0
      (frameC 0 .cpuId 2#32 exOp (fun _ => 0#8) 7#64) (st1 (fun _ => 0#8) true 3#32 1#32) s0 es s1 (-1) ∧
    ∀ e ∈ es, Own 0 0 e → ∀ a, ¬ targets exOp a → e.s'.mem a = e.s.mem a := by
  obtain ⟨-, s0, es, s1, h⟩ := ex_icall .cpuId 2#32 (fun _ => 0#8) true (by simp)
  exact ⟨s0, es, s1, h, inject_twice_returns_abort_no_commit (by decide) exSite_injAll h⟩

/-! ### C82, C86 -/

/-- `call_aborted_at_most_once`, `call_returns_if_left_alone`: a call that has been redirected -/
example : ∃ s0 e es s1, RCall (fun _ => exSite) 0 0 s0 (e :: es) s1 ∧ Redirected 0 0 e ∧
    (∀ e' ∈ ([] : List (Ev 8)), ¬ Redirected 0 0 e') ∧
    ∃ f j r, frameAt (s1.th 0) 0 = some f ∧ (run exSite.prog 3#32 j (f.l, fun _ => 0#8)).1.pc = .ret r := by
  obtain ⟨s0, e, es, s1, hb, hd, h, hr⟩ := ex_redirected
  obtain ⟨f, j, r, h1, h2, -⟩ := call_returns_if_left_alone hb hd h 3#32 (fun _ => 0#8)
  exact ⟨s0, e, es, s1, h, hr, call_aborted_at_most_once hb hd h (es1 := []) rfl hr, f, j, r, h1, h2⟩

/-- `call_never_stuck`: a call before its final store -/
example : ∃ s0 s1, RCall (fun _ => exSite) 0 0 s0 [] s1 ∧ ((∃ s', Step (fun _ => exSite) s1 0 .exec s') ∨
    ∃ s', Step (fun _ => exSite) s1 0 .ret s') := by
  obtain ⟨s0, es, s1, h⟩ := ex_call_zero
  refine ⟨s0, s0, .nil, call_never_stuck h.begin_ h.depth .nil ?_ ?_⟩
  · have := h.begin_
    cases this with
    | invoke _ hr ht hf hu => simpa [State.set, upd] using hr
  · have := h.begin_
    cases this with
    | invoke _ hr ht hf hu => simp [State.set, upd, st1, th1, thread0]

/-- `uninterrupted_call_completes`, `failed_attempt_interrupted` -/
example : (∃ s0 es s1 r, RaceCall (fun _ => exSite) exMem 0 0 (frame0 0 .cpuId 3#32 exOp exMem)
      (st1 exMem true 3#32 1#32) s0 es s1 r ∧ (r = 0 ∨ r = 1)) ∧
    ∃ s1 : State 8, ((st1 exMem true 3#32 1#32 : State 8).th 0).ev < (s1.th 0).ev := by
  constructor
  · obtain ⟨s0, es, s1, h, h1, -⟩ := ex_alone
    exact ⟨s0, es, s1, 0, h, uninterrupted_call_completes (by decide) h (st1_on _ _ _) h1⟩
  · obtain ⟨s0, es, s1, h, -⟩ := ex_call_migrated
    exact ⟨s1, failed_attempt_interrupted (by decide) (st1_on _ _ _) .nil (by simp [st1, upd, th1]) h.race⟩

end Verif.Rseq
