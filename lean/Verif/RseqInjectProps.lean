import Verif.RseqInjectStatic
import Verif.RseqInjectCall
import Verif.RseqInjectRun
import Verif.RseqRegsProps
/-
Properties of the helpers in builds with delay injection (`tests/param_test.c:62-279`): the loops change
neither what a helper does nor what it guarantees under interruption.  The helper inlined at site `i` is
`(T i).inj` in a `param_test` build and `(T i).injTwice` in a `param_test_compare_twice` build.
-/

namespace Verif.Rseq

variable {n : Nat} {T : Nat → Site n}

/-! ### C80, C81: uninterrupted -/

/-- With the scratch register in the clobber list, no operand is in it. -/
theorem Setup.injOK {S : Site n} {op : Op n} (hk : S.kind = op.kind) {clob : List Nat} {cpu : BitVec 32}
    {l : LSt n} (h : Setup ((injOf S.arch).reg :: clob) (signExt S.arch) S.al op cpu l) : S.InjOK := by
  intro o ho he
  rcases ho with ho | rfl
  · obtain ⟨x, hx⟩ := Op.val_opnds op o (by rw [← hk]; exact ho)
    exact h.free o x hx (by rw [he]; simp)
  · exact h.freeCpu (by rw [he]; simp)

theorem Setup.fewer {r : Nat} {clob : List Nat} {sx : Bool} {al : Opnd → Nat} {op : Op n} {cpu : BitVec 32}
    {l : LSt n} (h : Setup (r :: clob) sx al op cpu l) : Setup clob sx al op cpu l :=
  ⟨h.pc, h.reg, h.slot, fun o x hx hm => h.free o x hx (List.mem_cons_of_mem _ hm),
    fun hm => h.freeCpu (List.mem_cons_of_mem _ hm), h.cpuV, h.cpuS⟩

/-- **C80**, uninterrupted.  Whatever the counters contain, an injected helper returns (its loops end) and
has the effect and the value of the pseudo-code if the field contains `cpu`; otherwise it returns -1 and
leaves memory alone.  Registers outside the clobber list, which has one more entry, are unchanged. -/
theorem inject_implements (hn : 4 ≤ n) (S : Site n) (op : Op n) (hk : S.kind = op.kind)
    (hok : CallOK S.arch S.al op) :
    Implements S.inj ((injOf S.arch).reg :: clobbers S.arch op.kind) (signExt S.arch) S.al op := by
  intro cpu fv l m hs
  have himp := helpers_implement_pseudocode hn _ S.rel S.be _ S.csa op _
    (by rw [← hk]; exact S.ok) hok cpu fv l m hs.fewer
  have D := S.dead (hs.injOK hk)
  exact ⟨fun h => inj_returns D hs.pc (himp.1 h), fun h => inj_returns D hs.pc (himp.2 h)⟩

/-- **C81**, uninterrupted.  The same with the repeated comparisons. -/
theorem inject_twice_implements (hn : 4 ≤ n) (S : Site n) (op : Op n) (hk : S.kind = op.kind)
    (hok : CallOK S.arch S.al op) :
    Implements S.injTwice ((injOf S.arch).reg :: clobbers S.arch op.kind) (signExt S.arch) S.al op := by
  intro cpu fv l m hs
  have himp := compare_twice_implements hn S op hk hok cpu fv l m hs.fewer
  have D := S.deadTwice (hs.injOK hk)
  exact ⟨fun h => inj_returns D hs.pc (himp.1 h), fun h => inj_returns D hs.pc (himp.2 h)⟩

/-! ### Transfer of properties to the injected programs -/

section
variable {J : Nat → Inj} {ps : Nat → List (Nat × Nat)} {P : Nat → Prog n}

/-- What an injected execution has in common with the one without loops. -/
theorem StRel.kernel {D : ∀ i, InjDead (J i) (ps i) (P i)} {s s' : State n} (h : StRel D s s') :
    s.mem = s'.mem ∧ ∀ t,
      (s.th t).reg = (s'.th t).reg ∧ (s.th t).run = (s'.th t).run ∧ (s.th t).cs = (s'.th t).cs ∧
      (s.th t).kcpu = (s'.th t).kcpu ∧ (s.th t).kcid = (s'.th t).kcid ∧
      (s.th t).cpuId = (s'.th t).cpuId ∧ (s.th t).mmCid = (s'.th t).mmCid ∧
      (s.th t).saved.length = (s'.th t).saved.length ∧
      ((s.th t).top = none ↔ (s'.th t).top = none) := by
  refine ⟨h.mem.symm, fun t => ?_⟩
  have r := h.th t
  refine ⟨r.reg.symm, r.run.symm, r.cs.symm, r.kcpu.symm, r.kcid.symm, r.cpuId.symm, r.mmCid.symm,
    r.saved.length.symm, ?_⟩
  have := r.top.isSome
  cases hx : (s.th t).top <;> cases hy : (s'.th t).top <;> rw [hx, hy] at this <;> simp at this ⊢

theorem FRel.back {D : ∀ i, InjDead (J i) (ps i) (P i)} {a : Option (Frame n)} {g : Frame n}
    (h : FRel D a (Option.some g)) : ∃ f, a = Option.some f ∧ f.pid = g.pid ∧ f.l0 = g.l0 ∧ LRel (D f.pid) f.l g.l := by
  cases h with
  | some f l' h => exact ⟨f, rfl, rfl, rfl, h⟩

theorem SRel.back {D : ∀ i, InjDead (J i) (ps i) (P i)} {fs gs : List (Option (Frame n))} (h : SRel D fs gs)
    {g : Frame n} (hg : some g ∈ gs) :
    ∃ f, some f ∈ fs ∧ f.pid = g.pid ∧ f.l0 = g.l0 ∧ LRel (D f.pid) f.l g.l := by
  induction h with
  | nil => simp at hg
  | @cons a b as bs h _ ih =>
    rcases List.mem_cons.1 hg with hg | hg
    · subst hg
      obtain ⟨f, rfl, h1, h2, h3⟩ := h.back
      exact ⟨f, by simp, h1, h2, h3⟩
    · obtain ⟨f, h0, h⟩ := ih hg
      exact ⟨f, List.mem_cons_of_mem _ h0, h⟩

/-- A helper of an injected execution, running or interrupted, has a counterpart. -/
theorem StRel.frame {D : ∀ i, InjDead (J i) (ps i) (P i)} {s s' : State n} (h : StRel D s s') {t : Nat}
    {g : Frame n} (hg : (s'.th t).top = some g ∨ some g ∈ (s'.th t).saved) :
    ∃ f, ((s.th t).top = some f ∨ some f ∈ (s.th t).saved) ∧ f.pid = g.pid ∧ f.l0 = g.l0 ∧
      LRel (D f.pid) f.l g.l := by
  rcases hg with hg | hg
  · have := (h.th t).top
    rw [hg] at this
    obtain ⟨f, h0, h⟩ := this.back
    exact ⟨f, .inl h0, h⟩
  · obtain ⟨f, h0, h⟩ := (h.th t).saved.back hg
    exact ⟨f, .inr h0, h⟩

end

/-- The scratch registers are not operands (param_test.c:77, 102, 128, 152, 196, 220, 243, 266). -/
abbrev InjAll (T : Nat → Site n) : Prop := ∀ i, (T i).InjOK

/-- The programs of a `param_test` build. -/
def injPlain (T : Nat → Site n) (i : Nat) : Prog n := (T i).inj

/-- The programs of a `param_test_compare_twice` build. -/
def injTw (T : Nat → Site n) (i : Nat) : Prog n := (T i).injTwice

/-! ### C80 -/

/-- **C80.** Every execution of an injecting build is, as far as memory and the threads' kernel state are
concerned, an execution of the normal build. -/
theorem inject_simulated (hI : InjAll T) {m0 : Mem n} {s' : State n} (h : TReach T (injPlain T) m0 s') :
    ∃ s, PReach T m0 s ∧ s.mem = s'.mem ∧ ∀ t,
      (s.th t).reg = (s'.th t).reg ∧ (s.th t).run = (s'.th t).run ∧ (s.th t).cs = (s'.th t).cs ∧
      (s.th t).kcpu = (s'.th t).kcpu ∧ (s.th t).kcid = (s'.th t).kcid ∧
      (s.th t).cpuId = (s'.th t).cpuId ∧ (s.th t).mmCid = (s'.th t).mmCid ∧
      (s.th t).saved.length = (s'.th t).saved.length ∧
      ((s.th t).top = none ↔ (s'.th t).top = none) := by
  obtain ⟨s, h1, h2⟩ := TReach.injSim (P := plainP T) (fun i => (T i).dead (hI i)) h
  exact ⟨s, h1.plain, h2.kernel⟩

/-- **C80.** When an injected helper is about to return, whatever interrupted it, registers outside its
clobber list, which now contains the scratch register, and the C locals are as on entry. -/
theorem inject_registers_restored (hI : InjAll T) {m0 : Mem n} {s : State n}
    (h : TReach T (injPlain T) m0 s) {t : Nat} {g : Frame n} {r : Int} (ht : (s.th t).top = some g)
    (hr : g.l.pc = .ret r) :
    (∀ x, x ∉ (injOf (T g.pid).arch).reg :: clobbers (T g.pid).arch (T g.pid).kind →
      g.l.regs x = g.l0.regs x) ∧ (∀ i, i < 100 → g.l.slots i = g.l0.slots i) := by
  obtain ⟨s1, h1, h2⟩ := TReach.injSim (P := plainP T) (fun i => (T i).dead (hI i)) h
  have := (h2.th t).top
  rw [ht] at this
  obtain ⟨f, h3, h4, h5, h6⟩ := this.back
  obtain ⟨a, b⟩ := registers_restored h1.plain.any h3 ((h6.ret r).2 hr)
  rw [← h4, ← h5]
  refine ⟨fun x hx => ?_, fun i hi => ?_⟩
  · simp only [List.mem_cons, not_or] at hx
    rw [h6.regs x hx.1]; exact a x hx.2
  · rw [h6.slots]; exact b i hi

variable {m0 : Mem n} {t d : Nat} {f0 : Frame n} {sb s0 s1 : State n} {es : List (Ev n)} {r : Int}

/-- **C80.** The only return values. -/
theorem inject_return_values (hn : 4 ≤ n) (hI : InjAll T)
    (h : PWholeCall T (injPlain T) m0 t d f0 sb s0 es s1 r) : r = 0 ∨ r = 1 ∨ r = -1 := by
  obtain ⟨_, _, _, _, h', -⟩ := PWholeCall.sim (P := plainP T) (fun i => (T i).dead (hI i)) h
  exact return_values hn h'.plain

/-- **C80, C32.** As `returns_zero_atomic`. -/
theorem inject_returns_zero_atomic (hn : 4 ≤ n) (hI : InjAll T)
    (h : PWholeCall T (injPlain T) m0 t d f0 sb s0 es s1 0) :
    ∃ es1 e es2, es = es1 ++ e :: es2 ∧ Own t d e ∧
      pseudo (T f0.pid).prog.be f0.op e.s.mem = (0, e.s'.mem) ∧ On t f0.fld f0.cpu e.s ∧
      (∀ e' ∈ es1, Own t d e' → e'.s'.mem = e'.s.mem) ∧
      (∀ e' ∈ es2, Own t d e' → ∀ a, ¬ targets f0.op a → e'.s'.mem a = e'.s.mem a) := by
  obtain ⟨_, _, es', _, h', -, -, -, hm⟩ := PWholeCall.sim (P := plainP T) (fun i => (T i).dead (hI i)) h
  obtain ⟨es1, e, es2, e1, e2, e3, e4, e5, e6⟩ := returns_zero_atomic hn h'.plain
  obtain ⟨es1', e', es2', g1, g2, g3, g4, g5, g6, g7⟩ := hm.split e1
  refine ⟨es1', e', es2', g1, (g2.own g4 g5).2 e2, ?_, g2.on.2 e4, ?_, ?_⟩
  · rw [g2.mem, g3.mem]; exact e3
  · exact g6.all (fun a b => b = a) (fun _ => rfl) e5
  · exact g7.all (fun a b => ∀ x, ¬ targets f0.op x → b x = a x) (fun _ _ _ => rfl) e6

/-- **C80, C33.** As `returns_abort_no_commit`. -/
theorem inject_returns_abort_no_commit (hn : 4 ≤ n) (hI : InjAll T)
    (h : PWholeCall T (injPlain T) m0 t d f0 sb s0 es s1 (-1)) :
    ∀ e ∈ es, Own t d e → ∀ a, ¬ targets f0.op a → e.s'.mem a = e.s.mem a := by
  obtain ⟨_, _, es', _, h', -, -, -, hm⟩ := PWholeCall.sim (P := plainP T) (fun i => (T i).dead (hI i)) h
  exact hm.all (fun a b => ∀ x, ¬ targets f0.op x → b x = a x) (fun _ _ _ => rfl)
    (returns_abort_no_commit hn h'.plain)

/-- **C80, C34.** As `returns_one_compare_failed`. -/
theorem inject_returns_one_compare_failed (hn : 4 ≤ n) (hI : InjAll T)
    (h : PWholeCall T (injPlain T) m0 t d f0 sb s0 es s1 1) :
    (∀ e ∈ es, Own t d e → e.s'.mem = e.s.mem) ∧
    ∃ sx ∈ sts s0 es, On t f0.fld f0.cpu sx ∧
      pseudo (T f0.pid).prog.be f0.op sx.mem = (1, sx.mem) := by
  obtain ⟨_, _, es', _, h', -, hR, -, hm⟩ := PWholeCall.sim (P := plainP T) (fun i => (T i).dead (hI i)) h
  obtain ⟨h1, sx, h2, h3, h4⟩ := returns_one_compare_failed hn h'.plain
  obtain ⟨sx', g1, g2⟩ := hm.state hR sx h2
  exact ⟨hm.all (fun a b => b = a) (fun _ => rfl) h1, sx', g1, g2.on.2 h3, by rw [g2.mem]; exact h4⟩

/-- **C80, C36.** As `never_on_cpu_aborts`. -/
theorem inject_never_on_cpu_aborts (hn : 4 ≤ n) (hI : InjAll T)
    (h : PWholeCall T (injPlain T) m0 t d f0 sb s0 es s1 r)
    (hno : ∀ sx ∈ sts s0 es, ¬ On t f0.fld f0.cpu sx) : r = -1 := by
  obtain ⟨_, _, es', _, h', -, hR, -, hm⟩ := PWholeCall.sim (P := plainP T) (fun i => (T i).dead (hI i)) h
  refine never_on_cpu_aborts hn h'.plain fun sx hx ho => ?_
  obtain ⟨sx', g1, g2⟩ := hm.state hR sx hx
  exact hno sx' g1 (g2.on.2 ho)

/-! ### C81 -/

/-- **C81.** Every execution of an injecting `RSEQ_COMPARE_TWICE` build is, as far as memory and the
threads' kernel state are concerned, an execution of the normal build. -/
theorem inject_twice_simulated (hn : 4 ≤ n) (hI : InjAll T) {m0 : Mem n} {s' : State n}
    (h : TReach T (injTw T) m0 s') :
    ∃ s, PReach T m0 s ∧ s.mem = s'.mem ∧ ∀ t,
      (s.th t).reg = (s'.th t).reg ∧ (s.th t).run = (s'.th t).run ∧ (s.th t).cs = (s'.th t).cs ∧
      (s.th t).kcpu = (s'.th t).kcpu ∧ (s.th t).kcid = (s'.th t).kcid ∧
      (s.th t).cpuId = (s'.th t).cpuId ∧ (s.th t).mmCid = (s'.th t).mmCid ∧
      (s.th t).saved.length = (s'.th t).saved.length ∧
      ((s.th t).top = none ↔ (s'.th t).top = none) := by
  obtain ⟨s, h1, h2⟩ := TReach.injSim (P := tw T) (fun i => (T i).deadTwice (hI i)) h
  obtain ⟨s2, h3, e, h4⟩ := compare_twice_simulated hn h1
  obtain ⟨e', h5⟩ := h2.kernel
  refine ⟨s2, h3, e.trans e', fun t => ?_⟩
  obtain ⟨a1, a2, a3, a4, a5, a6, a7, a8, a9⟩ := h4 t
  obtain ⟨b1, b2, b3, b4, b5, b6, b7, b8, b9⟩ := h5 t
  exact ⟨a1.trans b1, a2.trans b2, a3.trans b3, a4.trans b4, a5.trans b5, a6.trans b6, a7.trans b7,
    a8.trans b8, a9.trans b9⟩

/-- Where an injected helper with repeated comparisons may be: not on its way to `rseq_bug()`.  The
tear-down code follows the last instruction of the original helper and of the repeated comparisons, at
the index to which that position moves. -/
def NoBugInj (S : Site n) (pc : Pc) : Prop :=
  match pc with
  | .ret r => r = 0 ∨ r = 1 ∨ r = -1
  | .at i => i < newAt ((injOf S.arch).w (injAtTwice S.arch S.kind S.prog.commit S.blk.length))
      (S.prog.code.length + S.blk.length)

/-- **C81.** In no execution is a helper about to call, or in the tear-down code before a call of,
`rseq_bug()`: the delays do not make the repeated comparisons fail. -/
theorem inject_twice_never_fires (hn : 4 ≤ n) (hI : InjAll T) {m0 : Mem n} {s : State n}
    (h : TReach T (injTw T) m0 s) (t : Nat) (g : Frame n)
    (hg : (s.th t).top = some g ∨ some g ∈ (s.th t).saved) : NoBugInj (T g.pid) g.l.pc := by
  obtain ⟨s1, h1, h2⟩ := TReach.injSim (P := tw T) (fun i => (T i).deadTwice (hI i)) h
  obtain ⟨f, h3, h4, -, h6⟩ := h2.frame hg
  have hb := compare_twice_never_fires hn h1 t f h3
  rw [← h4]
  cases hpc : f.l.pc with
  | ret r =>
    rw [(h6.ret r).1 hpc]
    rw [hpc] at hb
    exact hb
  | «at» i =>
    obtain ⟨k, hk, hl⟩ := h6.pos i hpc
    rw [hl]
    rw [hpc] at hb
    exact (newAt_lt_iff _ hk).2 hb

/-- **C81.** The only return values. -/
theorem inject_twice_return_values (hn : 4 ≤ n) (hI : InjAll T)
    (h : PWholeCall T (injTw T) m0 t d f0 sb s0 es s1 r) : r = 0 ∨ r = 1 ∨ r = -1 := by
  obtain ⟨_, _, _, _, h', -⟩ := PWholeCall.sim (P := tw T) (fun i => (T i).deadTwice (hI i)) h
  exact twice_return_values hn h'.twice

/-- **C81, C32.** As `returns_zero_atomic`. -/
theorem inject_twice_returns_zero_atomic (hn : 4 ≤ n) (hI : InjAll T)
    (h : PWholeCall T (injTw T) m0 t d f0 sb s0 es s1 0) :
    ∃ es1 e es2, es = es1 ++ e :: es2 ∧ Own t d e ∧
      pseudo (T f0.pid).prog.be f0.op e.s.mem = (0, e.s'.mem) ∧ On t f0.fld f0.cpu e.s ∧
      (∀ e' ∈ es1, Own t d e' → e'.s'.mem = e'.s.mem) ∧
      (∀ e' ∈ es2, Own t d e' → ∀ a, ¬ targets f0.op a → e'.s'.mem a = e'.s.mem a) := by
  obtain ⟨_, _, es', _, h', -, -, -, hm⟩ := PWholeCall.sim (P := tw T) (fun i => (T i).deadTwice (hI i)) h
  obtain ⟨es1, e, es2, e1, e2, e3, e4, e5, e6⟩ := twice_returns_zero_atomic hn h'.twice
  obtain ⟨es1', e', es2', g1, g2, g3, g4, g5, g6, g7⟩ := hm.split e1
  refine ⟨es1', e', es2', g1, (g2.own g4 g5).2 e2, ?_, g2.on.2 e4, ?_, ?_⟩
  · rw [g2.mem, g3.mem]; exact e3
  · exact g6.all (fun a b => b = a) (fun _ => rfl) e5
  · exact g7.all (fun a b => ∀ x, ¬ targets f0.op x → b x = a x) (fun _ _ _ => rfl) e6

/-- **C81, C33.** As `returns_abort_no_commit`. -/
theorem inject_twice_returns_abort_no_commit (hn : 4 ≤ n) (hI : InjAll T)
    (h : PWholeCall T (injTw T) m0 t d f0 sb s0 es s1 (-1)) :
    ∀ e ∈ es, Own t d e → ∀ a, ¬ targets f0.op a → e.s'.mem a = e.s.mem a := by
  obtain ⟨_, _, es', _, h', -, -, -, hm⟩ := PWholeCall.sim (P := tw T) (fun i => (T i).deadTwice (hI i)) h
  exact hm.all (fun a b => ∀ x, ¬ targets f0.op x → b x = a x) (fun _ _ _ => rfl)
    (twice_returns_abort_no_commit hn h'.twice)

/-- **C81, C34.** As `returns_one_compare_failed`. -/
theorem inject_twice_returns_one_compare_failed (hn : 4 ≤ n) (hI : InjAll T)
    (h : PWholeCall T (injTw T) m0 t d f0 sb s0 es s1 1) :
    (∀ e ∈ es, Own t d e → e.s'.mem = e.s.mem) ∧
    ∃ sx ∈ sts s0 es, On t f0.fld f0.cpu sx ∧
      pseudo (T f0.pid).prog.be f0.op sx.mem = (1, sx.mem) := by
  obtain ⟨_, _, es', _, h', -, hR, -, hm⟩ := PWholeCall.sim (P := tw T) (fun i => (T i).deadTwice (hI i)) h
  obtain ⟨h1, sx, h2, h3, h4⟩ := twice_returns_one_compare_failed hn h'.twice
  obtain ⟨sx', g1, g2⟩ := hm.state hR sx h2
  exact ⟨hm.all (fun a b => b = a) (fun _ => rfl) h1, sx', g1, g2.on.2 h3, by rw [g2.mem]; exact h4⟩

/-- **C81, C36.** As `never_on_cpu_aborts`. -/
theorem inject_twice_never_on_cpu_aborts (hn : 4 ≤ n) (hI : InjAll T)
    (h : PWholeCall T (injTw T) m0 t d f0 sb s0 es s1 r)
    (hno : ∀ sx ∈ sts s0 es, ¬ On t f0.fld f0.cpu sx) : r = -1 := by
  obtain ⟨_, _, es', _, h', -, hR, -, hm⟩ := PWholeCall.sim (P := tw T) (fun i => (T i).deadTwice (hI i)) h
  refine twice_never_on_cpu_aborts hn h'.twice fun sx hx ho => ?_
  obtain ⟨sx', g1, g2⟩ := hm.state hR sx hx
  exact hno sx' g1 (g2.on.2 ho)

end Verif.Rseq
