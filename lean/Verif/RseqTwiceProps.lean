import Verif.RseqTwiceCall
import Verif.RseqTwiceImpl
/-
Properties of the helpers in `RSEQ_COMPARE_TWICE` builds (`tests/Makefile.am`: `param_test_compare_twice`
and its variants).
-/

namespace Verif.Rseq

variable {n : Nat} {T : Nat → Site n}

/-! ### The machine is the one of the normal builds -/

theorem tfixTop_eq (x : Thread n) : tfixTop (fun i => (T i).prog) x = fixTop T x := rfl

/-- With the programs of the normal build, the steps are those of `RseqConc.lean`. -/
theorem step_eq {s s' : State n} {t : Nat} {lab : Lab n} :
    TStep T (fun i => (T i).prog) s t lab s' ↔ Step T s t lab s' := by
  constructor
  · intro h
    cases h with
    | invoke f hr ht hf hu => exact .invoke f hr ht hf hu
    | exec f i ins l' m' hr ht hp hc he => exact .exec f i ins l' m' hr ht hp hc he
    | ret f r hr ht hp => exact .ret f r hr ht hp
    | user m' hr ht => exact .user m' hr ht
    | preempt hr => exact .preempt hr
    | resume c k hr hd => exact .resume c k hr hd
    | signal hr => exact .signal hr
    | sigret f rest hr ht hs => exact .sigret f rest hr ht hs
    | register hr ht hs hn => exact .register hr ht hs hn
    | unregister hr ht hs hn => exact .unregister hr ht hs hn
    | clear hr ht => exact .clear hr ht
  · intro h
    cases h with
    | invoke f hr ht hf hu => exact .invoke f hr ht hf hu
    | exec f i ins l' m' hr ht hp hc he => exact .exec f i ins l' m' hr ht hp hc he
    | ret f r hr ht hp => exact .ret f r hr ht hp
    | user m' hr ht => exact .user m' hr ht
    | preempt hr => exact .preempt hr
    | resume c k hr hd => exact .resume c k hr hd
    | signal hr => exact .signal hr
    | sigret f rest hr ht hs => exact .sigret f rest hr ht hs
    | register hr ht hs hn => exact .register hr ht hs hn
    | unregister hr ht hs hn => exact .unregister hr ht hs hn
    | clear hr ht => exact .clear hr ht

theorem polite_eq {s s' : State n} {t : Nat} :
    TPolite (fun i => (T i).prog) s t s' ↔ Polite T s t s' := Iff.rfl

/-! ### C69 -/

/-- **C69**, uninterrupted.  A helper of a `RSEQ_COMPARE_TWICE` build has the effect and the value of the
pseudo-code if the field contains `cpu`; otherwise it returns -1 and leaves memory alone. -/
theorem compare_twice_implements (hn : 4 ≤ n) (S : Site n) (op : Op n) (hk : S.kind = op.kind)
    (hok : CallOK S.arch S.al op) :
    Implements S.twice (clobbers S.arch op.kind) (signExt S.arch) S.al op := by
  intro cpu fv l m hs
  have himp := helpers_implement_pseudocode hn _ S.rel S.be _ S.csa op _
    (by rw [← hk]; exact S.ok) hok cpu fv l m hs
  have lift : ∀ {r : Int} {m' : Mem n}, Returns S.prog fv (clobbers S.arch op.kind) l m r m' →
      Returns S.twice fv (clobbers S.arch op.kind) l m r m' := by
    rintro r m' ⟨k, h1, h2, h3⟩
    obtain ⟨k', h⟩ := S.run_twice hn op hk hok cpu fv l m hs k
    refine ⟨k', ?_, ?_, ?_⟩
    · rw [h, h1]; rfl
    · rw [h]; exact h2
    · rw [h]; exact h3
  exact ⟨fun h => lift (himp.1 h), fun h => lift (himp.2 h)⟩

/-- **C69.** Every execution of a `RSEQ_COMPARE_TWICE` build is, as far as memory and the threads' kernel
state are concerned, an execution of the normal build. -/
theorem compare_twice_simulated (hn : 4 ≤ n) {m0 : Mem n} {s' : State n} (h : TReach T (tw T) m0 s') :
    ∃ s, PReach T m0 s ∧ s.mem = s'.mem ∧ ∀ t,
      (s.th t).reg = (s'.th t).reg ∧ (s.th t).run = (s'.th t).run ∧ (s.th t).cs = (s'.th t).cs ∧
      (s.th t).kcpu = (s'.th t).kcpu ∧ (s.th t).kcid = (s'.th t).kcid ∧
      (s.th t).cpuId = (s'.th t).cpuId ∧ (s.th t).mmCid = (s'.th t).mmCid ∧
      (s.th t).saved.length = (s'.th t).saved.length ∧
      ((s.th t).top = none ↔ (s'.th t).top = none) := by
  obtain ⟨s, h1, h2⟩ := h.sim hn
  refine ⟨s, h1, h2.mem.symm, fun t => ?_⟩
  have r := h2.th t
  refine ⟨r.reg.symm, r.run.symm, r.cs.symm, r.kcpu.symm, r.kcid.symm, r.cpuId.symm, r.mmCid.symm,
    r.saved.length.symm, ?_⟩
  have := r.top.isSome
  cases hx : (s.th t).top <;> cases hy : (s'.th t).top <;> rw [hx, hy] at this <;> simp at this ⊢

/-- Where a helper of a `RSEQ_COMPARE_TWICE` build may be: not on its way to `rseq_bug()`. -/
def NoBug (S : Site n) (pc : Pc) : Prop :=
  match pc with
  | .ret r => r = 0 ∨ r = 1 ∨ r = -1
  | .at i => i < S.prog.code.length + S.blk.length

theorem noBug_shift {S : Site n} {f : Frame n} {mem : Mem n} {x : Thread n} {b : Prop}
    (h : FInv T mem x b f) (hS : T f.pid = S) : NoBug S (f.l.pc.shift S.tp S.tk) := by
  subst hS
  have Z := (T f.pid).facts
  cases hpc : f.l.pc with
  | ret r => exact h.done r (by rw [hpc]; rfl)
  | «at» i =>
    have ho := h.out
    rw [hpc] at ho
    obtain ⟨ins, hc⟩ := zone_code Z ho
    have := (List.getElem?_eq_some_iff.1 hc).1
    simp only [Pc.shift, NoBug, Site.tk]
    split <;> omega

/-- **C69.** The repeated comparisons never fail: in no execution is a helper about to call, or in the
tear-down code before a call of, `rseq_bug()`.  This covers the helper being executed and every helper
interrupted by a signal. -/
theorem compare_twice_never_fires (hn : 4 ≤ n) {m0 : Mem n} {s : State n} (h : TReach T (tw T) m0 s)
    (t : Nat) (g : Frame n) (hg : (s.th t).top = some g ∨ some g ∈ (s.th t).saved) :
    NoBug (T g.pid) g.l.pc := by
  obtain ⟨s1, h1, h2⟩ := h.sim hn
  have hI := (h1.inv hn).th t
  have r := h2.th t
  rcases hg with hg | hg
  · obtain ⟨f, hf, hs, hm⟩ := r.top.some hg
    have hi := hI.top f hf
    rw [hs.pid]
    rcases hm with hm | hm | hm
    · rw [hm.1]; exact noBug_shift hi rfl
    · obtain ⟨-, -, j, hj, hgl, -⟩ := hm
      rw [hgl]
      simp only [NoBug]
      have := (T f.pid).tp_lt
      have : (T f.pid).tk = (T f.pid).blk.length := rfl
      omega
    · rw [hm.2]; exact noBug_shift hi rfl
  · have key : ∀ {fs gs : List (Option (Frame n))}, RL T fs gs → some g ∈ gs →
        ∃ f, some f ∈ fs ∧ FSame f g ∧ (ModeA T f g ∨ ModeC T f g) := by
      intro fs gs hl
      induction hl with
      | nil => intro h; simp at h
      | @cons f g' fs gs h _ ih =>
        intro hm
        rcases List.mem_cons.1 hm with hm | hm
        · subst hm
          cases f with
          | none => exact h.elim
          | some f => exact ⟨f, by simp, h.1, h.2⟩
        · obtain ⟨f, a, b⟩ := ih hm
          exact ⟨f, List.mem_cons_of_mem _ a, b⟩
    obtain ⟨f, hf, hs, hm⟩ := key r.saved hg
    have hi := hI.saved f hf
    rw [hs.pid]
    rcases hm with hm | hm
    · rw [hm.1]; exact noBug_shift hi rfl
    · rw [hm.2]; exact noBug_shift hi rfl

variable {m0 : Mem n} {t d : Nat} {f0 : Frame n} {sb s0 s1 : State n} {es : List (Ev n)} {r : Int}

/-- The only return values. -/
theorem twice_return_values (hn : 4 ≤ n) (h : TWholeCall T m0 t d f0 sb s0 es s1 r) :
    r = 0 ∨ r = 1 ∨ r = -1 := by
  obtain ⟨_, _, _, _, h', -, -, -⟩ := h.sim hn
  exact return_values hn h'

/-- **C69, C32.** As `returns_zero_atomic`. -/
theorem twice_returns_zero_atomic (hn : 4 ≤ n) (h : TWholeCall T m0 t d f0 sb s0 es s1 0) :
    ∃ es1 e es2, es = es1 ++ e :: es2 ∧ Own t d e ∧
      pseudo (T f0.pid).prog.be f0.op e.s.mem = (0, e.s'.mem) ∧ On t f0.fld f0.cpu e.s ∧
      (∀ e' ∈ es1, Own t d e' → e'.s'.mem = e'.s.mem) ∧
      (∀ e' ∈ es2, Own t d e' → ∀ a, ¬ targets f0.op a → e'.s'.mem a = e'.s.mem a) := by
  obtain ⟨_, _, es', _, h', -, -, hm⟩ := h.sim hn
  obtain ⟨es1, e, es2, e1, e2, e3, e4, e5, e6⟩ := returns_zero_atomic hn h'
  obtain ⟨es1', e', es2', g1, g2, g3, g4, g5, g6, g7⟩ := hm.split e1
  refine ⟨es1', e', es2', g1, (Own.of g2 g4 g5).2 e2, ?_, (On.of g2).2 e4, ?_, ?_⟩
  · rw [g2.mem, g3.mem]; exact e3
  · exact g6.all (fun a b => b = a) (fun _ => rfl) e5
  · exact g7.all (fun a b => ∀ x, ¬ targets f0.op x → b x = a x) (fun _ _ _ => rfl) e6

/-- **C69, C33.** As `returns_abort_no_commit`. -/
theorem twice_returns_abort_no_commit (hn : 4 ≤ n) (h : TWholeCall T m0 t d f0 sb s0 es s1 (-1)) :
    ∀ e ∈ es, Own t d e → ∀ a, ¬ targets f0.op a → e.s'.mem a = e.s.mem a := by
  obtain ⟨_, _, es', _, h', -, -, hm⟩ := h.sim hn
  exact hm.all (fun a b => ∀ x, ¬ targets f0.op x → b x = a x) (fun _ _ _ => rfl)
    (returns_abort_no_commit hn h')

/-- **C69, C34.** As `returns_one_compare_failed`. -/
theorem twice_returns_one_compare_failed (hn : 4 ≤ n) (h : TWholeCall T m0 t d f0 sb s0 es s1 1) :
    (∀ e ∈ es, Own t d e → e.s'.mem = e.s.mem) ∧
    ∃ sx ∈ sts s0 es, On t f0.fld f0.cpu sx ∧
      pseudo (T f0.pid).prog.be f0.op sx.mem = (1, sx.mem) := by
  obtain ⟨_, _, es', _, h', -, hR, hm⟩ := h.sim hn
  obtain ⟨h1, sx, h2, h3, h4⟩ := returns_one_compare_failed hn h'
  obtain ⟨sx', g1, g2⟩ := hm.state hR sx h2
  exact ⟨hm.all (fun a b => b = a) (fun _ => rfl) h1, sx', g1, (On.of g2).2 h3, by rw [g2.mem]; exact h4⟩

/-- **C69, C36.** As `never_on_cpu_aborts`. -/
theorem twice_never_on_cpu_aborts (hn : 4 ≤ n) (h : TWholeCall T m0 t d f0 sb s0 es s1 r)
    (hno : ∀ sx ∈ sts s0 es, ¬ On t f0.fld f0.cpu sx) : r = -1 := by
  obtain ⟨_, _, es', _, h', -, hR, hm⟩ := h.sim hn
  refine never_on_cpu_aborts hn h' fun sx hx ho => ?_
  obtain ⟨sx', g1, g2⟩ := hm.state hR sx hx
  exact hno sx' g1 ((On.of g2).2 ho)

end Verif.Rseq
