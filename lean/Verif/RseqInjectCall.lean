import Verif.RseqInjectSim
/-
Whole calls of injected helpers correspond to whole calls without the loops.
-/

namespace Verif.Rseq

variable {n : Nat} {J : Nat → Inj} {ps : Nat → List (Nat × Nat)} {P : Nat → Prog n}
  {D : ∀ i, InjDead (J i) (ps i) (P i)} {T : Nat → Site n}

theorem strel_init (m0 : Mem n) : StRel D { mem := m0, th := fun _ => thread0 }
    { mem := m0, th := fun _ => thread0 } :=
  ⟨rfl, fun _ => ⟨.none, .nil, rfl, rfl, rfl, rfl, rfl, rfl, rfl, rfl⟩⟩

/-- Every reachable state has a counterpart. -/
theorem TReach.injSim (D : ∀ i, InjDead (J i) (ps i) (P i)) {m0 : Mem n} {s' : State n}
    (h : TReach T (injP J ps P) m0 s') : ∃ s, TReach T P m0 s ∧ StRel D s s' := by
  induction h with
  | init => exact ⟨_, .init, strel_init m0⟩
  | step h hs hp ih =>
    obtain ⟨s, h1, h2⟩ := ih
    rcases inj_step h2 hs hp with ⟨-, -, h⟩ | ⟨s1, a, b, c⟩
    · exact ⟨s, h1, h⟩
    · exact ⟨s1, h1.step a b, c⟩

theorem FRel.isSome {a b : Option (Frame n)} (h : FRel D a b) : b.isSome = a.isSome := by
  cases h <;> rfl

theorem SRel.at {fs gs : List (Option (Frame n))} (h : SRel D fs gs) (i : Nat) :
    (gs[i]?).join.isSome = (fs[i]?).join.isSome := by
  induction h generalizing i with
  | nil => rfl
  | @cons f g fs gs h _ ih =>
    cases i with
    | zero => exact h.isSome
    | succ i => exact ih i

theorem ThRel.frameAt {x y : Thread n} (h : ThRel D x y) (d : Nat) :
    (frameAt y d).isSome = (Rseq.frameAt x d).isSome := by
  have hl := h.saved.length
  unfold Rseq.frameAt
  rw [hl]
  split
  · exact h.top.isSome
  · by_cases hd : d < x.saved.length
    · rw [List.getElem?_reverse (by omega), List.getElem?_reverse (by omega), hl]
      exact h.saved.at _
    · rw [List.getElem?_eq_none (by simp; omega), List.getElem?_eq_none (by simp; omega)]

/-- Corresponding pieces of execution. -/
inductive IMatch (D : ∀ i, InjDead (J i) (ps i) (P i)) : List (Ev n) → List (Ev n) → Prop
  | nil : IMatch D [] []
  | both {es es' : List (Ev n)} {e e' : Ev n} (h : IMatch D es es') (hs : StRel D e.s e'.s)
      (hs' : StRel D e.s' e'.s') (hw : e'.who = e.who) (hl : e'.lab = e.lab) : IMatch D (e :: es) (e' :: es')
  | skip {es es' : List (Ev n)} {e' : Ev n} (h : IMatch D es es') (hm : e'.s'.mem = e'.s.mem) :
      IMatch D es (e' :: es')

theorem TCall.injSim {t d : Nat} {s0 s0' s' : State n} {es' : List (Ev n)}
    (hR : StRel D s0 s0') (h : TCall T (injP J ps P) t d s0' es' s') :
    ∃ es s, TCall T P t d s0 es s ∧ StRel D s s' ∧ IMatch D es es' := by
  induction h with
  | nil => exact ⟨[], s0, .nil, hR, .nil⟩
  | @cons es' s' s1' u lab h hs hp hin ih =>
    obtain ⟨es, s, h1, h2, h3⟩ := ih
    rcases inj_step h2 hs hp with ⟨-, hm, h⟩ | ⟨s1, a, b, c⟩
    · exact ⟨es, s, h1, h, .skip h3 hm⟩
    · refine ⟨_, s1, .cons h1 a b ?_, c, .both h3 h2 c rfl rfl⟩
      rw [← (c.th t).frameAt]; exact hin

theorem StRel.own {t d : Nat} {e e' : Ev n} (hs : StRel D e.s e'.s) (hw : e'.who = e.who)
    (hl : e'.lab = e.lab) : Own t d e' ↔ Own t d e := by
  unfold Own
  rw [hw, hl, (hs.th t).saved.length]

theorem StRel.on {t : Nat} {fl : Fld} {cpu : BitVec 32} {s s' : State n} (h : StRel D s s') :
    On t fl cpu s' ↔ On t fl cpu s := by
  constructor
  · intro o
    exact ⟨by rw [← (h.th t).run]; exact o.run, by rw [← (h.th t).reg]; exact o.reg,
      by rw [← (h.th t).kv]; exact o.kv⟩
  · intro o
    exact ⟨by rw [(h.th t).run]; exact o.run, by rw [(h.th t).reg]; exact o.reg,
      by rw [(h.th t).kv]; exact o.kv⟩

/-- A bound on the effects of a call's instructions carries over. -/
theorem IMatch.all {es es' : List (Ev n)} (h : IMatch D es es') {t d : Nat} (Q : Mem n → Mem n → Prop)
    (hq : ∀ m, Q m m) (ha : ∀ e ∈ es, Own t d e → Q e.s.mem e.s'.mem) :
    ∀ e ∈ es', Own t d e → Q e.s.mem e.s'.mem := by
  induction h with
  | nil => intro e he; simp at he
  | @both es es' e e' h hs hs' hw hl ih =>
    intro x hx ho
    rcases List.mem_cons.1 hx with rfl | hx
    · rw [hs.mem, hs'.mem]
      exact ha e (by simp) ((hs.own hw hl).1 ho)
    · exact ih (fun e he => ha e (List.mem_cons_of_mem _ he)) x hx ho
  | @skip es es' e' h hm ih =>
    intro x hx ho
    rcases List.mem_cons.1 hx with rfl | hx
    · rw [hm]; exact hq _
    · exact ih ha x hx ho

/-- A step of the old execution is a step of the new one. -/
theorem IMatch.split {es es' : List (Ev n)} (h : IMatch D es es') :
    ∀ {es1 es2 : List (Ev n)} {e : Ev n}, es = es1 ++ e :: es2 → ∃ es1' e' es2', es' = es1' ++ e' :: es2' ∧
      StRel D e.s e'.s ∧ StRel D e.s' e'.s' ∧ e'.who = e.who ∧ e'.lab = e.lab ∧
      IMatch D es1 es1' ∧ IMatch D es2 es2' := by
  induction h with
  | nil => intro es1 es2 e h; simp at h
  | @both es es' e0 e0' h hs hs' hw hl ih =>
    intro es1 es2 e heq
    cases es1 with
    | nil =>
      simp only [List.nil_append, List.cons.injEq] at heq
      obtain ⟨rfl, rfl⟩ := heq
      exact ⟨[], e0', es', rfl, hs, hs', hw, hl, .nil, h⟩
    | cons a es1 =>
      simp only [List.cons_append, List.cons.injEq] at heq
      obtain ⟨rfl, heq⟩ := heq
      obtain ⟨es1', e', es2', h1, h2, h3, h4, h5, h6, h7⟩ := ih heq
      exact ⟨e0' :: es1', e', es2', by rw [h1]; rfl, h2, h3, h4, h5, .both h6 hs hs' hw hl, h7⟩
  | @skip es es' e0' h hm ih =>
    intro es1 es2 e heq
    obtain ⟨es1', e', es2', h1, h2, h3, h4, h5, h6, h7⟩ := ih heq
    exact ⟨e0' :: es1', e', es2', by rw [h1]; rfl, h2, h3, h4, h5, .skip h6 hm, h7⟩

/-- A state of the old execution is one of the new one. -/
theorem IMatch.state {es es' : List (Ev n)} {s0 s0' : State n} (h : IMatch D es es') (h0 : StRel D s0 s0') :
    ∀ sx ∈ sts s0 es, ∃ sx' ∈ sts s0' es', StRel D sx sx' := by
  induction h with
  | nil =>
    intro sx hx
    simp only [sts, List.map_nil, List.nil_append, List.mem_singleton] at hx
    subst hx
    exact ⟨s0', by simp [sts], h0⟩
  | @both es es' e e' h hs hs' hw hl ih =>
    intro sx hx
    rcases List.mem_cons.1 hx with rfl | hx
    · exact ⟨e'.s', by simp [sts], hs'⟩
    · obtain ⟨sx', a, b⟩ := ih sx hx
      exact ⟨sx', List.mem_cons_of_mem _ a, b⟩
  | @skip es es' e' h hm ih =>
    intro sx hx
    obtain ⟨sx', a, b⟩ := ih sx hx
    exact ⟨sx', List.mem_cons_of_mem _ a, b⟩

/-- A complete call when the helper inlined at site `i` is the program `P i`; as `WholeCall`. -/
structure PWholeCall (T : Nat → Site n) (P : Nat → Prog n) (m0 : Mem n) (t d : Nat) (f0 : Frame n)
    (sb s0 : State n) (es : List (Ev n)) (s1 : State n) (r : Int) : Prop where
  reach : TReach T P m0 sb
  begin_ : TStep T P sb t (.invoke f0) s0
  polite : TPolite P sb t s0
  depth : (sb.th t).saved.length = d
  mid : TCall T P t d s0 es s1
  top : (s1.th t).saved.length = d
  ret : ∃ f, (s1.th t).top = some f ∧ f.l.pc = .ret r

theorem PWholeCall.sim (D : ∀ i, InjDead (J i) (ps i) (P i)) {m0 : Mem n} {t d : Nat} {f0 : Frame n}
    {sb s0 s1 : State n} {es : List (Ev n)} {r : Int}
    (h : PWholeCall T (injP J ps P) m0 t d f0 sb s0 es s1 r) :
    ∃ sb' s0' es' s1', PWholeCall T P m0 t d f0 sb' s0' es' s1' r ∧ StRel D sb' sb ∧ StRel D s0' s0 ∧
      StRel D s1' s1 ∧ IMatch D es' es := by
  obtain ⟨sb', h1, h2⟩ := h.reach.injSim D
  rcases inj_step h2 h.begin_ h.polite with ⟨hl, -, -⟩ | ⟨s0', a, b, c⟩
  · simp at hl
  obtain ⟨es', s1', h3, h4, h5⟩ := h.mid.injSim c
  refine ⟨sb', s0', es', s1', ⟨h1, a, b, ?_, h3, ?_, ?_⟩, h2, c, h4, h5⟩
  · rw [← (h2.th t).saved.length]; exact h.depth
  · rw [← (h4.th t).saved.length]; exact h.top
  · obtain ⟨g, hg, hp⟩ := h.ret
    have ht := (h4.th t).top
    rw [hg] at ht
    cases hf : (s1'.th t).top with
    | none => rw [hf] at ht; cases ht
    | some f =>
      rw [hf] at ht
      cases ht with
      | some f l' hl => exact ⟨f, rfl, (hl.ret r).2 hp⟩

/-! ### With the programs of the normal build and of the `RSEQ_COMPARE_TWICE` build -/

/-- The programs of the normal build. -/
def plainP (T : Nat → Site n) (i : Nat) : Prog n := (T i).prog

theorem TReach.plain {m0 : Mem n} {s : State n} (h : TReach T (plainP T) m0 s) : PReach T m0 s := by
  induction h with
  | init => exact .init
  | step _ hs hp ih => exact .step ih (step_eq.1 hs) hp

theorem TCall.plain {t d : Nat} {s0 s : State n} {es : List (Ev n)} (h : TCall T (plainP T) t d s0 es s) :
    Call T t d s0 es s := by
  induction h with
  | nil => exact .nil
  | cons _ hs hp hin ih => exact .cons ih (step_eq.1 hs) hp hin

theorem PWholeCall.plain {m0 : Mem n} {t d : Nat} {f0 : Frame n} {sb s0 s1 : State n} {es : List (Ev n)}
    {r : Int} (h : PWholeCall T (plainP T) m0 t d f0 sb s0 es s1 r) : WholeCall T m0 t d f0 sb s0 es s1 r :=
  ⟨h.reach.plain, step_eq.1 h.begin_, h.polite, h.depth, h.mid.plain, h.top, h.ret⟩

theorem PWholeCall.twice {m0 : Mem n} {t d : Nat} {f0 : Frame n} {sb s0 s1 : State n} {es : List (Ev n)}
    {r : Int} (h : PWholeCall T (tw T) m0 t d f0 sb s0 es s1 r) : TWholeCall T m0 t d f0 sb s0 es s1 r :=
  ⟨h.reach, h.begin_, h.polite, h.depth, h.mid, h.top, h.ret⟩

end Verif.Rseq
