import Verif.RseqRaceProps
/-
C86, helper lemmas: what happens to the frame of a call in one step, and why a call is in its abort handler.
-/

namespace Verif.Rseq

variable {n : Nat} {T : Nat → Site n} {m0 : Mem n}

/-- What one step does to the helper that thread `t` executes below `d` pending handlers: nothing; or it executes
one instruction of it; or the kernel's rule is applied to it. -/
theorem frame_step {s s' : State n} {t u d : Nat} {lab : Lab n} {f : Frame n} (hs : Step T s u lab s')
    (hf : frameAt (s.th t) d = some f) (hin : (frameAt (s'.th t) d).isSome) :
    (¬ Own t d ⟨s, u, lab, s'⟩ ∧ frameAt (s'.th t) d = some f) ∨
    (Own t d ⟨s, u, lab, s'⟩ ∧ (s.th t).run = true ∧ (s.th t).top = some f ∧
      ∃ i ins l' m' g, f.l.pc = .at i ∧ (T f.pid).prog.code[i]? = some ins ∧
        exec (T f.pid).prog ((s.th t).fv f.fld) i ins f.l s.mem = (l', m') ∧
        frameAt (s'.th t) d = some g ∧ g.pid = f.pid ∧ g.fld = f.fld ∧ g.cpu = f.cpu ∧ g.op = f.op ∧ g.l = l') ∨
    (u = t ∧ (lab = .resume ∨ lab = .signal) ∧ (s.th t).top = some f ∧
      ∃ g, frameAt (s'.th t) d = some g ∧ fixTop T (s.th t) = some g) := by
  by_cases hu : u = t
  · subst hu
    have hsame : d ≠ (s.th u).saved.length → (s'.th u).saved = (s.th u).saved →
        ¬ Own u d ⟨s, u, lab, s'⟩ ∧ frameAt (s'.th u) d = some f := by
      intro hd he
      refine ⟨fun ho => hd ho.2.2.symm, ?_⟩
      rw [frameAt_saved (by rw [he]; exact hd), he, ← frameAt_saved hd]; exact hf
    cases hs with
    | invoke g hr ht hg hg' =>
      refine .inl (hsame ?_ (by simp [State.set, upd]))
      intro hd; rw [frameAt_top hd, ht] at hf; simp at hf
    | exec g i ins l' m' hr ht hp' hc he =>
      by_cases hd : d = (s.th u).saved.length
      · rw [frameAt_top hd, ht] at hf
        injection hf with hf
        subst hf
        exact .inr (.inl ⟨⟨rfl, trivial, hd.symm⟩, hr, ht, i, ins, l', m', _, hp', hc, he,
          (frameAt_top (by simpa [upd] using hd)).trans (congrArg Thread.top (updT_same _ _ _)), rfl, rfl, rfl, rfl, rfl⟩)
      · exact .inl (hsame hd (by simp [upd]))
    | ret g r hr ht hp' =>
      refine .inl (hsame ?_ (by simp [State.set, upd]))
      intro hd
      rw [frameAt_top (by simpa [State.set, upd] using hd)] at hin
      simp [State.set, upd] at hin
    | user m' hr ht =>
      refine .inl (hsame ?_ rfl)
      intro hd; rw [frameAt_top hd, ht] at hf; simp at hf
    | preempt hr =>
      refine .inl ⟨fun h => h.2.1, ?_⟩
      rw [← hf]; simp [State.set, upd, frameAt]
    | resume c k hr hd =>
      by_cases hd : d = (s.th u).saved.length
      · rw [frameAt_top hd] at hf
        rw [frameAt_top (by simpa [State.set, upd] using hd)] at hin ⊢
        dsimp only [State.set] at hin ⊢
        rw [updT_same] at hin ⊢
        obtain ⟨g, hg⟩ := Option.isSome_iff_exists.1 hin
        exact .inr (.inr ⟨rfl, .inl rfl, hf, g, hg, hg⟩)
      · exact .inl (hsame hd (by simp [State.set, upd]))
    | signal hr =>
      by_cases hd : d = (s.th u).saved.length
      · rw [frameAt_top hd] at hf
        have hsv : ((s.set u { s.th u with
            top := none, saved := fixTop T (s.th u) :: (s.th u).saved, cs := fixCs (s.th u),
            ev := (s.th u).ev + 1 }).th u).saved = fixTop T (s.th u) :: (s.th u).saved := by
          simp [State.set, upd]
        have hne : d ≠ (fixTop T (s.th u) :: (s.th u).saved).length := by simp; omega
        rw [frameAt_saved (by rw [hsv]; exact hne), hsv] at hin ⊢
        have hget : ((fixTop T (s.th u) :: (s.th u).saved).reverse[d]?).join = fixTop T (s.th u) := by
          rw [List.reverse_cons, List.getElem?_append_right (by simp [hd])]
          simp [hd]
        rw [hget] at hin ⊢
        obtain ⟨g, hg⟩ := Option.isSome_iff_exists.1 hin
        exact .inr (.inr ⟨rfl, .inr rfl, hf, g, hg, hg⟩)
      · have hlt : d < (s.th u).saved.length := by
          rw [frameAt_saved hd, Option.join_eq_some_iff] at hf
          have := (List.getElem?_eq_some_iff.1 hf).1
          simpa using this
        refine .inl ⟨fun h => h.2.1, ?_⟩
        rw [frameAt_saved (by simp [State.set, upd]; omega)]
        rw [frameAt_saved hd] at hf
        rw [← hf]
        simp only [State.set, updT_same]
        rw [List.reverse_cons, List.getElem?_append_left (by simpa using hlt)]
    | sigret g rest hr ht hs' =>
      have hd : d ≠ (s.th u).saved.length := by
        intro hd; rw [frameAt_top hd, ht] at hf; simp at hf
      have hlt : d < (s.th u).saved.length := by
        rw [frameAt_saved hd, Option.join_eq_some_iff] at hf
        have := (List.getElem?_eq_some_iff.1 hf).1
        simpa using this
      refine .inl ⟨fun h => h.2.1, ?_⟩
      rw [frameAt_saved hd, hs'] at hf
      rw [hs'] at hlt
      by_cases hd' : d = rest.length
      · rw [frameAt_top (by simp [State.set, upd, hd'])]
        simp only [State.set, updT_same]
        rw [← hf, List.reverse_cons, List.getElem?_append_right (by simp [hd'])]
        simp [hd']
      · rw [frameAt_saved (by simpa [State.set, upd] using hd')]
        simp only [State.set, updT_same]
        rw [← hf, List.reverse_cons, List.getElem?_append_left (by simp at hlt ⊢; omega)]
    | register hr ht hs' hn' =>
      exfalso
      by_cases hd : d = (s.th u).saved.length
      · rw [frameAt_top hd, ht] at hf; simp at hf
      · have := hs' _ (frameAt_mem hd hf); simp at this
    | unregister hr ht hs' hn' =>
      exfalso
      by_cases hd : d = (s.th u).saved.length
      · rw [frameAt_top hd, ht] at hf; simp at hf
      · have := hs' _ (frameAt_mem hd hf); simp at this
    | clear hr ht =>
      refine .inl (hsame ?_ (by simp [State.set, upd]))
      intro hd; rw [frameAt_top hd, ht] at hf; simp at hf
  · exact .inl ⟨fun h => hu h.1, by rw [hs.other hu]; exact hf⟩

theorem exists_cons_iff {α : Type} {P : α → Prop} {a : α} {l : List α} :
    (∃ e ∈ a :: l, P e) ↔ P a ∨ ∃ e ∈ l, P e := by simp

/-- In the abort handler: the value is -1. -/
theorem abt_run {p : Prog n} (Z : ZoneFacts p) (fv : BitVec 32) (k : Nat) (s : LSt n × Mem n)
    (h : zone p s.1.pc = .abt ∨ zone p s.1.pc = .done (-1)) :
    zone p (run p fv k s).1.pc = .abt ∨ zone p (run p fv k s).1.pc = .done (-1) := by
  induction k generalizing s with
  | zero => exact h
  | succ k ih =>
    simp only [run]
    refine ih _ ?_
    obtain ⟨l, m⟩ := s
    cases hpc : l.pc with
    | ret r => simp only [step, hpc] at h ⊢; exact h
    | «at» i =>
      rw [hpc] at h
      have hz : zone p (.at i) = .abt := by
        rcases h with h | h
        · exact h
        · rcases zone_at_cases Z (i := i) with h'|h'|h'|h'|h'|h'|h' <;> simp [h] at h'
      obtain ⟨ins, hc⟩ := zone_code Z (i := i) (by rw [hz]; simp)
      simp only [step, hpc, hc]
      exact (abt_step Z hc hz (fv := fv) (l := l) (m := m)).2.2

/-- The pseudo-code returns 0 or 1. -/
theorem pseudo_value (be : Bool) (op : Op n) (m : Mem n) : (pseudo be op m).1 = 0 ∨ (pseudo be op m).1 = 1 := by
  cases op <;> simp only [pseudo] <;> (repeat' split) <;> simp

/-- A replay that has jumped to the abort handler proves that the CPU field differs from the argument. -/
theorem Rep.cpu_ne {p : Prog n} {clob : List Nat} {sx : Bool} {al : Opnd → Nat} {op : Op n}
    (Z : ZoneFacts p) (hi : Implements p clob sx al op) {cpu fv : BitVec 32} {m : Mem n}
    {l0 l : LSt n} {F : W n → Prop} (hs : Setup clob sx al op cpu l0) (h : Rep p fv m l0 l F)
    (hz : zone p l.pc = .abt) : fv ≠ cpu := by
  intro he
  obtain ⟨k, hk⟩ := h.run
  obtain ⟨k', a, -, -⟩ := (hi cpu fv l0 m hs).1 he
  obtain ⟨j, hj⟩ := returns_through hk a
  have := abt_run Z fv j (l, m) (.inl hz)
  rw [hj, a] at this
  rcases pseudo_value p.be op m with h0 | h0 <;> rw [h0] at this <;> simp [zone] at this

/-! ### Specification -/

/-- The kernel moved the call to its abort handler: thread `t` was scheduled again or got a signal while the call
was between the start of its section and its commit. -/
def KernelAbort (T : Nat → Site n) (t d : Nat) (e : Ev n) : Prop :=
  e.who = t ∧ (e.lab = .resume ∨ e.lab = .signal) ∧ (e.s.th t).reg = true ∧
    ∃ f g i, frameAt (e.s.th t) d = some f ∧ f.l.pc = .at i ∧ (T f.pid).prog.start ≤ i ∧ i < (T f.pid).prog.commit ∧
      frameAt (e.s'.th t) d = some g ∧ g.l.pc = .at (T f.pid).prog.abort

/-- The call compared the CPU number with its argument and found them different: an instruction of the CPU check
went to the abort handler, while the thread was not on the requested CPU. -/
def CpuMismatch (T : Nat → Site n) (t d : Nat) (fld : Fld) (cpu : BitVec 32) (e : Ev n) : Prop :=
  Own t d e ∧ ¬ On t fld cpu e.s ∧
    ∃ f g i, frameAt (e.s.th t) d = some f ∧ f.l.pc = .at i ∧ (T f.pid).prog.start ≤ i ∧ i < (T f.pid).prog.chk ∧
      frameAt (e.s'.th t) d = some g ∧ zone (T f.pid).prog g.l.pc = .abt

/-! ### Invariant of a call -/

structure AF (T : Nat → Site n) (t d : Nat) (f0 : Frame n) (es : List (Ev n)) (f : Frame n) : Prop where
  pid : f.pid = f0.pid
  fld : f.fld = f0.fld
  cpu : f.cpu = f0.cpu
  cause : (zone (T f0.pid).prog f.l.pc = .abt ∨ zone (T f0.pid).prog f.l.pc = .done (-1)) ↔
    ∃ e ∈ es, KernelAbort T t d e ∨ CpuMismatch T t d f0.fld f0.cpu e

theorem RCall.af (hn : 4 ≤ n) {t d : Nat} {f0 : Frame n} {s0 s : State n} {es : List (Ev n)}
    (hR : AnyReach T m0 s0) (hb : frameAt (s0.th t) d = some f0)
    (hz0 : zone (T f0.pid).prog f0.l.pc = .pre) (h : RCall T t d s0 es s) :
    AnyReach T m0 s ∧ ∃ f, frameAt (s.th t) d = some f ∧ AF T t d f0 es f := by
  induction h with
  | nil =>
    refine ⟨hR, f0, hb, rfl, rfl, rfl, ?_⟩
    rw [hz0]; simp
  | @cons es s s' u lab hcall hs hin ih =>
    obtain ⟨hR, f, hf, hA⟩ := ih
    refine ⟨hR.step hs, ?_⟩
    have hI := hR.inv hn
    have Z := (T f.pid).facts
    have hpid := hA.pid
    rcases frame_step hs hf hin with ⟨ho, hg⟩ | ⟨ho, hrun, ht, i, ins, l', m', g, hp, hc, he, hg, g1, g2, g3, g4, g5⟩ |
      ⟨rfl, hl, ht, g, hg, hfix⟩
    · -- nothing happens to the call
      refine ⟨f, hg, hA.pid, hA.fld, hA.cpu, ?_⟩
      rw [hA.cause]
      constructor
      · rintro ⟨e, he, hx⟩
        exact ⟨e, List.mem_cons_of_mem _ he, hx⟩
      · rintro ⟨e, he, hx⟩
        rcases List.mem_cons.1 he with rfl | he
        · exfalso
          rcases hx with ⟨-, -, -, f', g', j, h1, h2, h3, h4, h5, h6⟩ | ⟨h1, -⟩
          · dsimp only at h1 h5
            rw [hf] at h1; cases h1
            rw [hg] at h5; cases h5
            rw [h2] at h6
            have := Z.ca
            injection h6 with h6
            omega
          · exact ho h1
        · exact ⟨e, he, hx⟩
    · -- an instruction of the call
      have hi := (hI.th t).top f ht
      have hl' : l' = (exec (T f.pid).prog ((s.th t).fv f.fld) i ins f.l s.mem).1 := by rw [he]
      refine ⟨g, hg, g1.trans hA.pid, g2.trans hA.fld, g3.trans hA.cpu, ?_⟩
      have hnk : ¬ KernelAbort T t d ⟨s, u, lab, s'⟩ := by
        rintro ⟨-, hk, -⟩
        have := ho.2.1
        dsimp only at hk this
        rcases hk with rfl | rfl <;> exact this
      rw [g5, ← hpid]
      have hcause := hA.cause
      rw [← hpid, hp] at hcause
      have hdone : zone (T f.pid).prog (.at i) ≠ .done (-1) := by
        rcases zone_at_cases Z (i := i) with h'|h'|h'|h'|h'|h'|h' <;> simp [h'.1]
      have old : (∃ e ∈ (⟨s, u, lab, s'⟩ :: es), KernelAbort T t d e ∨ CpuMismatch T t d f0.fld f0.cpu e) ↔
          zone (T f.pid).prog (.at i) = .abt ∨ CpuMismatch T t d f0.fld f0.cpu ⟨s, u, lab, s'⟩ := by
        rw [exists_cons_iff, ← hcause]
        constructor
        · rintro ((h | h) | (h | h))
          · exact (hnk h).elim
          · exact .inr h
          · exact .inl h
          · exact (hdone h).elim
        · rintro (h | h)
          · exact .inr (.inl h)
          · exact .inl (.inr h)
      rw [old]
      by_cases hza : zone (T f.pid).prog (.at i) = .abt
      · refine ⟨fun _ => .inl hza, fun _ => ?_⟩
        rw [hl']
        exact (abt_step Z hc hza).2.2
      · by_cases hzc : zone (T f.pid).prog (.at i) = .chk
        · -- the CPU check
          have hpos : (T f.pid).prog.start ≤ i ∧ i < (T f.pid).prog.chk := by
            rcases zone_at_cases Z (i := i) with h|h|h|h|h|h|h
            · rw [h.1] at hzc; cases hzc
            · exact h.2
            all_goals (rw [h.1] at hzc; cases hzc)
          have hstep := (chk_step Z hc hzc (fv := (s.th t).fv f.fld) (l := f.l) (m := s.mem))
          rw [← hl'] at hstep
          have hin := hi.chk (by rw [hp]; exact hzc)
          have hrep : ∀ m, Rep (T f.pid).prog ((s.th t).fv f.fld) m f.l0 f.l f.foot := by
            cases hreg : (s.th t).reg with
            | true => exact ((hin.regd hreg).2.2 hrun).2
            | false => exact hin.unreg hreg
          have hne : zone (T f.pid).prog l'.pc = .abt → ¬ On t f0.fld f0.cpu s := by
            intro hz hon
            have hmem := (exec_memFree hstep.1 (T f.pid).prog ((s.th t).fv f.fld) i f.l s.mem s.mem).1
            rw [he] at hmem
            have hrep' := Rep.step (hrep s.mem) hp hc (by rw [he]; exact Prod.ext rfl hmem)
            have := Rep.cpu_ne Z (hi.base.impl hn) hi.base.setup hrep' hz
            apply this
            have hfl := (hI.th t).flds hon.reg hon.run
            rw [hA.fld, hA.cpu, ← hon.kv]
            cases f0.fld
            · exact hfl.1
            · exact hfl.2
          constructor
          · rintro (h | h)
            · refine .inr ⟨ho, hne h, f, g, i, hf, hp, hpos.1, hpos.2, hg, ?_⟩
              rw [g5]; exact h
            · rcases hstep.2.2 with h'|h'|h' <;> rw [h] at h' <;> cases h'
          · rintro (h | ⟨-, -, f', g', j, h1, -, -, -, h5, h6⟩)
            · exact (hza h).elim
            · dsimp only at h1 h5
              rw [hf] at h1; cases h1
              rw [hg] at h5; cases h5
              rw [g5] at h6
              exact .inl h6
        · -- elsewhere
          have hnot : ¬ (zone (T f.pid).prog l'.pc = .abt ∨ zone (T f.pid).prog l'.pc = .done (-1)) := by
            intro h
            rw [hl'] at h
            rcases zone_at_cases Z (i := i) with h'|h'|h'|h'|h'|h'|h'
            · have h1 := pre_step Z hc h'.1 (fv := (s.th t).fv f.fld) (l := f.l) (m := s.mem)
              rw [h1.2.2.2.1, h1.2.2.2.2] at h
              split at h <;> simp at h
            · exact hzc h'.1
            · have h1 := body_step Z hc h'.1 (fv := (s.th t).fv f.fld) (l := f.l) (m := s.mem)
              by_cases hcm : i + 1 = (T f.pid).prog.commit
              · rw [(h1.2.2.1 hcm).2] at h; simp at h
              · rcases (h1.2.2.2 hcm).2 with h2 | h2 | h2 <;> rw [h2] at h <;> simp at h
            · rcases (post_step Z hc h'.1 (fv := (s.th t).fv f.fld) (l := f.l) (m := s.mem)).2.2 with h2 | h2 <;>
                rw [h2] at h <;> simp at h
            · exact hza h'.1
            · rcases (neq_step Z hc h'.1 (fv := (s.th t).fv f.fld) (l := f.l) (m := s.mem)).2.2 with h2 | h2 <;>
                rw [h2] at h <;> simp at h
            · have := (List.getElem?_eq_some_iff.1 hc).1; omega
          refine ⟨fun h => (hnot h).elim, ?_⟩
          rintro (h | ⟨-, -, f', g', j, h1, h2, h3, h4, -⟩)
          · exact (hza h).elim
          · exfalso
            dsimp only at h1
            rw [hf] at h1; cases h1
            rw [hp] at h2; cases h2
            rcases zone_at_cases Z (i := i) with h'|h'|h'|h'|h'|h'|h' <;>
              first | exact hzc h'.1 | (have := Z.cc; have := Z.ca; have := Z.an; have := Z.nl; omega)
    · -- the kernel's rule
      have hi := (hI.th u).top f ht
      have hno : ¬ Own u d ⟨s, u, lab, s'⟩ := by
        rintro ⟨-, h, -⟩
        dsimp only at h
        rcases hl with rfl | rfl <;> exact h
      have old : (∃ e ∈ (⟨s, u, lab, s'⟩ :: es), KernelAbort T u d e ∨ CpuMismatch T u d f0.fld f0.cpu e) ↔
          (zone (T f0.pid).prog f.l.pc = .abt ∨ zone (T f0.pid).prog f.l.pc = .done (-1)) ∨
            KernelAbort T u d ⟨s, u, lab, s'⟩ := by
        rw [exists_cons_iff, ← hA.cause]
        constructor
        · rintro ((h | h) | h)
          · exact .inr h
          · exact (hno h.1).elim
          · exact .inl h
        · rintro (h | h)
          · exact .inr h
          · exact .inl (.inl h)
      have keep : g = f → ∃ f, frameAt (s'.th u) d = some f ∧ AF T u d f0 (⟨s, u, lab, s'⟩ :: es) f := by
        rintro rfl
        refine ⟨g, hg, hA.pid, hA.fld, hA.cpu, ?_⟩
        rw [old]
        refine ⟨.inl, ?_⟩
        rintro (h | ⟨-, -, -, f', g', j, h1, h2, h3, h4, h5, h6⟩)
        · exact h
        · exfalso
          dsimp only at h1 h5
          rw [hf] at h1; cases h1
          rw [hg] at h5; cases h5
          rw [h2] at h6
          have := Z.ca
          injection h6 with h6
          omega
      have hfix' := hfix
      unfold fixTop at hfix
      rw [ht] at hfix
      dsimp only at hfix
      cases hp : f.l.pc with
      | ret r => rw [hp] at hfix; simp only [Option.some.injEq] at hfix; exact keep hfix.symm
      | «at» i =>
        rw [hp] at hfix
        dsimp only at hfix
        split at hfix
        · rename_i hcnd
          simp only [Option.some.injEq] at hfix
          refine ⟨g, hg, ?_, ?_, ?_, ?_⟩
          · rw [← hfix]; exact hA.pid
          · rw [← hfix]; exact hA.fld
          · rw [← hfix]; exact hA.cpu
          · rw [old]
            have hz : zone (T f0.pid).prog g.l.pc = .abt := by
              rw [← hfix, ← hpid]; exact zone_abort Z
            refine ⟨fun _ => .inr ⟨rfl, hl, hcnd.1, f, g, i, hf, hp, hcnd.2.2.1, hcnd.2.2.2, hg, by rw [← hfix]⟩,
              fun _ => .inl hz⟩
        · simp only [Option.some.injEq] at hfix; exact keep hfix.symm

end Verif.Rseq
