import Verif.RseqRaceVal
/-
One call of a helper in an execution in which other threads may race with it on its data.
-/

namespace Verif.Rseq

variable {n : Nat}

/-- The part of an execution in which thread `t`, interrupted `d` deep, is inside one call, as `Call` but
with arbitrary steps of the other threads. -/
inductive RCall (T : Nat → Site n) (t d : Nat) (s0 : State n) : List (Ev n) → State n → Prop
  | nil : RCall T t d s0 [] s0
  | cons {es : List (Ev n)} {s s' : State n} {u : Nat} {lab : Lab n} (h : RCall T t d s0 es s)
      (hs : Step T s u lab s') (hin : (frameAt (s'.th t) d).isSome) :
      RCall T t d s0 (⟨s, u, lab, s'⟩ :: es) s'

variable {T : Nat → Site n} {m0 : Mem n}

theorem Call.race {t d : Nat} {s0 s1 : State n} {es : List (Ev n)} (h : Call T t d s0 es s1) :
    RCall T t d s0 es s1 := by
  induction h with
  | nil => exact .nil
  | cons _ hs _ hin ih => exact .cons ih hs hin

theorem AnyReach.run {s s' : State n} {t d : Nat} {es : List (Ev n)} (h : AnyReach T m0 s)
    (hc : RCall T t d s es s') : AnyReach T m0 s' := by
  induction hc with
  | nil => exact h
  | cons _ hs _ ih => exact ih.step hs

/-- What an instruction writes. -/
theorem exec_writes (hn : 4 ≤ n) {x : Thread n} {f : Frame n} {P : Prop} (h : GInv T x P f)
    (hk : FrameKeeps T f) {i : Nat} {ins : Instr} (hp : f.l.pc = .at i)
    (hc : (T f.pid).prog.code[i]? = some ins) (fv : BitVec 32) (m : Mem n) (a : W n)
    (ha : (Rseq.exec (T f.pid).prog fv i ins f.l m).2 a ≠ m a) :
    zone (T f.pid).prog (.at i) = .body ∧
    (i + 1 ≠ (T f.pid).prog.commit → targets f.op a) ∧
    (i + 1 = (T f.pid).prog.commit → ∀ v, f.op.v = some v → InWord v a) := by
  have hst : stores ins f.l a := by
    apply Classical.byContradiction
    intro hs
    exact ha (exec_frame _ _ _ _ _ a hs)
  have hz : zone (T f.pid).prog (.at i) = .body := by
    apply Decidable.byContradiction
    intro hz
    have := (exec_memFree (stores_body hc hz) (T f.pid).prog fv i f.l m m).1
    rw [this] at ha
    exact ha rfl
  exact ⟨hz, fun h1 => attempt_store hn h hp hc hz h1 a hst,
    fun h1 v hv => final_store h hk hp hc h1 v hv a hst⟩

/-- What the steps of the call have done so far. -/
structure RF (T : Nat → Site n) (t d : Nat) (f0 : Frame n) (es : List (Ev n)) (f : Frame n) : Prop where
  pid : f.pid = f0.pid
  fld : f.fld = f0.fld
  cpu : f.cpu = f0.cpu
  op : f.op = f0.op
  still : (zone (T f0.pid).prog f.l.pc = .pre ∨ zone (T f0.pid).prog f.l.pc = .chk ∨
      zone (T f0.pid).prog f.l.pc = .neq ∨ zone (T f0.pid).prog f.l.pc = .done 1 ∨
      ∃ i, f.l.pc = .at i ∧ zone (T f0.pid).prog f.l.pc = .body ∧ i < cut (T f0.pid).prog) →
    ∀ e ∈ es, Own t d e → e.s'.mem = e.s.mem
  only : f.commits = 0 → ∀ e ∈ es, Own t d e → ∀ a, ¬ targets f0.op a → e.s'.mem a = e.s.mem a
  comm : f.commits = 1 → ∃ es1 e es2, es = es1 ++ e :: es2 ∧ Own t d e ∧ On t f0.fld f0.cpu e.s ∧
    (∀ v, f0.op.v = some v → ∀ a, ¬ InWord v a → e.s'.mem a = e.s.mem a) ∧
    (∀ v w, f0.op.v = some v → f0.op.val .newv = some w →
      e.s'.mem = stw (T f0.pid).prog.be e.s.mem v w) ∧
    (∀ e' ∈ es1, Own t d e' → e'.s'.mem = e'.s.mem) ∧
    (∀ e' ∈ es2, Own t d e' → ∀ a, ¬ targets f0.op a → e'.s'.mem a = e'.s.mem a)
  seen : zone (T f0.pid).prog f.l.pc = .neq ∨ zone (T f0.pid).prog f.l.pc = .done 1 →
    ∃ e ∈ es, Own t d e ∧ On t f0.fld f0.cpu e.s

/-- A step that is not one of the call. -/
theorem RF.skip {t d : Nat} {f0 : Frame n} {es : List (Ev n)} {f : Frame n}
    (h : RF T t d f0 es f) {e : Ev n} (he : ¬ Own t d e) : RF T t d f0 (e :: es) f := by
  refine ⟨h.pid, h.fld, h.cpu, h.op, ?_, ?_, ?_, ?_⟩
  · intro hz e' he' ho
    rcases List.mem_cons.1 he' with rfl | he'
    · exact absurd ho he
    · exact h.still hz e' he' ho
  · intro hz e' he' ho
    rcases List.mem_cons.1 he' with rfl | he'
    · exact absurd ho he
    · exact h.only hz e' he' ho
  · intro hc
    obtain ⟨es1, e1, es2, h1, h2, h3, h4, h7, h5, h6⟩ := h.comm hc
    refine ⟨e :: es1, e1, es2, by rw [h1]; rfl, h2, h3, h4, h7, ?_, h6⟩
    intro e' he' ho
    rcases List.mem_cons.1 he' with rfl | he'
    · exact absurd ho he
    · exact h5 e' he' ho
  · intro hz
    obtain ⟨e', h1, h2⟩ := h.seen hz
    exact ⟨e', List.mem_cons_of_mem _ h1, h2⟩

/-- The kernel's rule on a frame of the call. -/
theorem RF.fix {t d : Nat} {f0 : Frame n} {es : List (Ev n)}
    {f g : Frame n} {x : Thread n} {P : Prop} (h : RF T t d f0 es f)
    (hi : GInv T x P f) (ht : x.top = some f) (hg : fixTop T x = some g) {e : Ev n}
    (he : ¬ Own t d e) : RF T t d f0 (e :: es) g := by
  have Z := (T f.pid).facts
  have hpid := h.pid
  have h' := h.skip he
  rcases hi.fixCases ht hg with ⟨rfl, hz⟩ | ⟨hcm, rfl⟩
  · exact h'
  · have ha := zone_abort Z
    rw [hpid] at ha
    refine ⟨h'.pid, h'.fld, h'.cpu, h'.op, ?_, h'.only, h'.comm, ?_⟩
    all_goals (dsimp only; rw [hpid, ha]; simp)

theorem RF.exec (hn : 4 ≤ n) {t d : Nat} {f0 : Frame n} {s : State n} {es : List (Ev n)}
    {f : Frame n} {m' : Mem n} (hI : AInv T s) (hK : FrameKeeps T f) (hL : Loaded T f)
    (h : RF T t d f0 es f) (hrun : (s.th t).run = true)
    (ht : (s.th t).top = some f) {i : Nat} {ins : Instr} {l' : LSt n}
    (hp : f.l.pc = .at i) (hc : (T f.pid).prog.code[i]? = some ins)
    (he : Rseq.exec (T f.pid).prog ((s.th t).fv f.fld) i ins f.l s.mem = (l', m')) {e : Ev n}
    (hes : e.s = s) (hes' : e.s'.mem = m') (hon : Own t d e) :
    RF T t d f0 (e :: es) { f with
          l := l'
          foot := fun x => touched ins f.l x ∨ f.foot x
          last := if memFree ins = true then f.last else m'
          commits := if i + 1 = (T f.pid).prog.commit then f.commits + 1 else f.commits
          ep := if isCs ins = true then (s.th t).ev else f.ep } := by
  have Z := (T f.pid).facts
  have hi := (hI.th t).top f ht
  have hl' : l' = (Rseq.exec (T f.pid).prog ((s.th t).fv f.fld) i ins f.l s.mem).1 := by rw [he]
  have hm' : m' = (Rseq.exec (T f.pid).prog ((s.th t).fv f.fld) i ins f.l s.mem).2 := by rw [he]
  have e1 := h.pid
  have e2 := h.op
  have e4 := h.cpu
  have e5 := h.fld
  have hw := exec_writes hn hi hK hp hc ((s.th t).fv f.fld) s.mem
  rw [← hm'] at hw
  have hcommit : ∀ z, zone (T f.pid).prog (.at i) = z → z ≠ .body → i + 1 ≠ (T f.pid).prog.commit := by
    intro z hz hne heq
    have := Z.sc; have := Z.cc; have := Z.ca; have := Z.an; have := Z.nl
    rcases zone_at_cases Z (i := i) with h'|h'|h'|h'|h'|h'|h' <;>
      first | omega | exact hne (hz ▸ h'.1)
  have hfree : zone (T f.pid).prog (.at i) ≠ .body → e.s'.mem = e.s.mem := by
    intro hz
    rw [hes', hes]
    funext a
    apply Decidable.byContradiction
    intro ha
    exact hz (hw a ha).1
  have hstill : ∀ {es : List (Ev n)}, (∀ e' ∈ es, Own t d e' → e'.s'.mem = e'.s.mem) →
      e.s'.mem = e.s.mem → ∀ e' ∈ e :: es, Own t d e' → e'.s'.mem = e'.s.mem := by
    intro es h1 h2 e' he' ho
    rcases List.mem_cons.1 he' with rfl | he'
    · exact h2
    · exact h1 e' he' ho
  -- everything for instructions outside the body
  have plain : zone (T f.pid).prog (.at i) ≠ .body →
      (zone (T f.pid).prog l'.pc = .pre ∨ zone (T f.pid).prog l'.pc = .chk ∨
        zone (T f.pid).prog l'.pc = .body →
        zone (T f.pid).prog f.l.pc = .pre ∨ zone (T f.pid).prog f.l.pc = .chk) →
      (zone (T f.pid).prog l'.pc = .neq ∨ zone (T f.pid).prog l'.pc = .done 1 →
        zone (T f.pid).prog f.l.pc = .neq) →
      RF T t d f0 (e :: es) { f with
          l := l'
          foot := fun x => touched ins f.l x ∨ f.foot x
          last := if memFree ins = true then f.last else m'
          commits := if i + 1 = (T f.pid).prog.commit then f.commits + 1 else f.commits
          ep := if isCs ins = true then (s.th t).ev else f.ep } := by
    intro hnb hp1 hp3
    have hnc := hcommit _ rfl hnb
    have hm := hfree hnb
    rw [e1] at hp1 hp3
    refine ⟨e1, e5, e4, e2, ?_, ?_, ?_, ?_⟩ <;> dsimp only
    · intro hz
      refine hstill (h.still ?_) hm
      have two : zone (T f0.pid).prog f.l.pc = .pre ∨ zone (T f0.pid).prog f.l.pc = .chk →
          (zone (T f0.pid).prog f.l.pc = .pre ∨ zone (T f0.pid).prog f.l.pc = .chk ∨
          zone (T f0.pid).prog f.l.pc = .neq ∨ zone (T f0.pid).prog f.l.pc = .done 1 ∨
          ∃ i, f.l.pc = .at i ∧ zone (T f0.pid).prog f.l.pc = .body ∧ i < cut (T f0.pid).prog) :=
        fun h => h.elim .inl (fun h => .inr (.inl h))
      rcases hz with hz | hz | hz | hz | ⟨j, -, hz, -⟩
      · exact two (hp1 (.inl hz))
      · exact two (hp1 (.inr (.inl hz)))
      · exact .inr (.inr (.inl (hp3 (.inl hz))))
      · exact .inr (.inr (.inl (hp3 (.inr hz))))
      · exact two (hp1 (.inr (.inr hz)))
    · rw [if_neg hnc]
      intro hcm e' he' ho a ha
      rcases List.mem_cons.1 he' with rfl | he'
      · rw [hm]
      · exact h.only hcm e' he' ho a ha
    · rw [if_neg hnc]
      intro hcm
      obtain ⟨es1, e1, es2, h1, h2, h3, h4, h7, h5, h6⟩ := h.comm hcm
      exact ⟨e :: es1, e1, es2, by rw [h1]; rfl, h2, h3, h4, h7, hstill h5 hm, h6⟩
    · intro hz
      obtain ⟨e', h1, h2⟩ := h.seen (.inl (hp3 hz))
      exact ⟨e', List.mem_cons_of_mem _ h1, h2⟩
  rcases zone_at_cases Z (i := i) with hz|hz|hz|hz|hz|hz|hz
  · obtain ⟨hz, -⟩ := hz
    obtain ⟨q1, q2, q3, q4, q5⟩ := pre_step Z hc hz (fv := (s.th t).fv f.fld) (l := f.l) (m := s.mem)
    rw [← hl'] at q4
    refine plain (by rw [hz]; simp) ?_ ?_
    · intro _; rw [hp]; exact .inl hz
    · rw [q4, q5]; split <;> simp
  · obtain ⟨hz, -⟩ := hz
    obtain ⟨q1, q2, q3⟩ := chk_step Z hc hz (fv := (s.th t).fv f.fld) (l := f.l) (m := s.mem)
    rw [← hl'] at q3
    refine plain (by rw [hz]; simp) ?_ ?_
    · intro _; rw [hp]; exact .inr hz
    · rcases q3 with q3 | q3 | q3 <;> rw [q3] <;> simp
  · -- body
    obtain ⟨hz, -⟩ := hz
    have hb := hi.body (by rw [hp]; exact hz)
    have hfl := (hI.th t).flds hb.reg hrun
    have hOn : On t f0.fld f0.cpu e.s := by
      rw [hes]
      refine ⟨hrun, hb.reg, ?_⟩
      have := (hb.here hrun).2
      rw [← e5, ← e4, ← this]
      cases f.fld <;> simp [Thread.fv, Thread.kv, hfl.1, hfl.2]
    obtain ⟨q1, q2, q3, q4⟩ := body_step Z hc hz (fv := (s.th t).fv f.fld) (l := f.l) (m := s.mem)
    rw [← hl'] at q3 q4
    by_cases hcm : i + 1 = (T f.pid).prog.commit
    · obtain ⟨-, q3⟩ := q3 hcm
      rw [e1] at q3
      refine ⟨e1, e5, e4, e2, ?_, ?_, ?_, ?_⟩ <;> dsimp only
      · rw [q3]; intro h; simp at h
      · rw [if_pos hcm]; intro h; simp at h
      · intro _
        refine ⟨[], e, es, rfl, hon, hOn, ?_, ?_, by simp, h.only hb.commits⟩
        · intro v hv a ha
          rw [hes', hes]
          apply Decidable.byContradiction
          intro hne
          exact ha ((hw a hne).2.2 hcm v (by rw [e2]; exact hv))
        · intro v w hv hw'
          rw [hes', hes, hm', ← e1]
          exact final_value hi hK hL hp hc hcm v w (by rw [e2]; exact hv) (by rw [e2]; exact hw') _ _
      · rw [q3]; intro h; simp at h
    · obtain ⟨q4, q5⟩ := q4 hcm
      have hcut := cut_step Z (program_cutOK (T f.pid).al (T f.pid).be (T f.pid).csa (T f.pid).arch
        (T f.pid).kind (T f.pid).rel (T f.pid).prog (T f.pid).ok) hc hz hcm
      have hlt : ¬ cut (T f0.pid).prog ≤ i → ∀ e' ∈ e :: es, Own t d e' → e'.s'.mem = e'.s.mem := by
        intro hlt
        refine hstill (h.still ?_) ?_
        · exact .inr (.inr (.inr (.inr ⟨i, hp, by rw [hp, ← e1]; exact hz, by omega⟩)))
        · rw [hes', hes, hm']
          exact exec_wr (hcut.1 (by rw [e1]; omega)) _ _ _ _ _
      refine ⟨e1, e5, e4, e2, ?_, ?_, ?_, ?_⟩ <;> dsimp only
      · intro hzz
        by_cases hle : cut (T f.pid).prog ≤ i
        · obtain ⟨j, hj1, hj2, hj3⟩ := hcut.2 hle ((s.th t).fv f.fld) f.l s.mem
          rw [← hl'] at hj1
          rw [e1] at hj2 hj3
          rw [hj1, hj3] at hzz
          rcases hzz with hzz | hzz | hzz | hzz | ⟨j', h1, h2, h3⟩
          all_goals first | (simp at hzz; done) | skip
          injection h1 with h1
          omega
        · exact hlt (by rw [← e1]; exact hle)
      · rw [if_neg hcm]
        intro hcm0 e' he' ho a ha
        rcases List.mem_cons.1 he' with rfl | he'
        · rw [hes', hes]
          apply Decidable.byContradiction
          intro hne
          exact ha (e2 ▸ (hw a hne).2.1 hcm)
        · exact h.only hcm0 e' he' ho a ha
      · rw [if_neg hcm, hb.commits]; intro h; simp at h
      · intro _; exact ⟨e, by simp, hon, hOn⟩
  · obtain ⟨hz, -⟩ := hz
    obtain ⟨q1, q2, q3⟩ := post_step Z hc hz (fv := (s.th t).fv f.fld) (l := f.l) (m := s.mem)
    rw [← hl'] at q3
    refine plain (by rw [hz]; simp) ?_ ?_ <;>
      (rcases q3 with q3 | q3 <;> rw [q3] <;> simp)
  · obtain ⟨hz, -⟩ := hz
    obtain ⟨q1, q2, q3⟩ := abt_step Z hc hz (fv := (s.th t).fv f.fld) (l := f.l) (m := s.mem)
    rw [← hl'] at q3
    refine plain (by rw [hz]; simp) ?_ ?_ <;>
      (rcases q3 with q3 | q3 <;> rw [q3] <;> simp)
  · obtain ⟨hz, -⟩ := hz
    obtain ⟨q1, q2, q3⟩ := neq_step Z hc hz (fv := (s.th t).fv f.fld) (l := f.l) (m := s.mem)
    rw [← hl'] at q3
    refine plain (by rw [hz]; simp) ?_ ?_
    · rcases q3 with q3 | q3 <;> rw [q3] <;> simp
    · intro _; rw [hp]; exact hz
  · exact absurd (by rw [hp]; exact hz.1) hi.out

/-- The call as a whole. -/
theorem RCall.rf (hn : 4 ≤ n) {t d : Nat} {f0 : Frame n} {s0 s : State n} {es : List (Ev n)}
    (hR : AnyReach T m0 s0) (hb : frameAt (s0.th t) d = some f0)
    (hz0 : zone (T f0.pid).prog f0.l.pc = .pre) (hc0 : f0.commits = 0) (h : RCall T t d s0 es s) :
    AnyReach T m0 s ∧ ∃ f, frameAt (s.th t) d = some f ∧ RF T t d f0 es f := by
  induction h with
  | nil =>
    refine ⟨hR, f0, hb, rfl, rfl, rfl, rfl, ?_, ?_, ?_, ?_⟩
    · intro _ e he; simp at he
    · intro _ e he; simp at he
    · rw [hc0]; intro h; simp at h
    · rw [hz0]; intro h; simp at h
  | @cons es s s' u lab hcall hs hin ih =>
    obtain ⟨hR, f, hf, hcf⟩ := ih
    refine ⟨hR.step hs, ?_⟩
    have hI := hR.inv hn
    by_cases hu : u = t
    · subst hu
      have hsame : d ≠ (s.th u).saved.length → (s'.th u).saved = (s.th u).saved →
          ∃ f, frameAt (s'.th u) d = some f ∧ RF T u d f0 (⟨s, u, lab, s'⟩ :: es) f := by
        intro hd he
        refine ⟨f, ?_, hcf.skip ?_⟩
        · rw [frameAt_saved (by rw [he]; exact hd), he, ← frameAt_saved hd]; exact hf
        · intro ho; exact hd ho.2.2.symm
      cases hs with
      | invoke g hr ht hg hg' =>
        refine hsame ?_ (by simp [State.set, upd])
        intro hd; rw [frameAt_top hd, ht] at hf; simp at hf
      | exec g i ins l' m' hr ht hp' hc he =>
        by_cases hd : d = (s.th u).saved.length
        · rw [frameAt_top hd, ht] at hf
          injection hf with hf
          subst hf
          refine ⟨_, (frameAt_top (by simpa [upd] using hd)).trans (congrArg Thread.top (updT_same _ _ _)), ?_⟩
          exact RF.exec hn hI ((hR.keep u).1 g ht) (hR.loaded u ht) hcf hr ht hp' hc he rfl rfl ⟨rfl, trivial, hd.symm⟩
        · exact hsame hd (by simp [upd])
      | ret g r hr ht hp' =>
        refine hsame ?_ (by simp [State.set, upd])
        intro hd
        rw [frameAt_top (by simpa [State.set, upd] using hd)] at hin
        simp [State.set, upd] at hin
      | user m' hr ht =>
        refine hsame ?_ rfl
        intro hd; rw [frameAt_top hd, ht] at hf; simp at hf
      | preempt hr =>
        refine ⟨f, ?_, hcf.skip (fun h => h.2.1)⟩
        rw [← hf]; simp [State.set, upd, frameAt]
      | resume c k hr hd =>
        by_cases hd : d = (s.th u).saved.length
        · rw [frameAt_top hd] at hf
          rw [frameAt_top (by simpa [State.set, upd] using hd)] at hin ⊢
          simp only [State.set, updT_same] at hin ⊢
          obtain ⟨g, hg⟩ := Option.isSome_iff_exists.1 hin
          exact ⟨g, hg, hcf.fix ((hI.th u).top f hf) hf hg (fun h => h.2.1)⟩
        · exact hsame hd (by simp [State.set, upd])
      | signal hr =>
        by_cases hd : d = (s.th u).saved.length
        · rw [frameAt_top hd] at hf
          have hsv : ((s.set u { s.th u with
              top := none, saved := fixTop T (s.th u) :: (s.th u).saved, cs := fixCs (s.th u),
              ev := (s.th u).ev + 1 }).th u).saved = fixTop T (s.th u) :: (s.th u).saved := by
            simp [State.set, upd]
          have hne : d ≠ (fixTop T (s.th u) :: (s.th u).saved).length := by simp; omega
          rw [frameAt_saved (by rw [hsv]; exact hne), hsv] at hin ⊢
          have hget : ((fixTop T (s.th u) :: (s.th u).saved).reverse[d]?).join = fixTop T (s.th u) := by
            rw [List.reverse_cons, List.getElem?_append_right (by simp [hd])]
            simp [hd]
          rw [hget] at hin ⊢
          obtain ⟨g, hg⟩ := Option.isSome_iff_exists.1 hin
          exact ⟨g, hg, hcf.fix ((hI.th u).top f hf) hf hg (fun h => h.2.1)⟩
        · have hlt : d < (s.th u).saved.length := by
            rw [frameAt_saved hd, Option.join_eq_some_iff] at hf
            have := (List.getElem?_eq_some_iff.1 hf).1
            simpa using this
          refine ⟨f, ?_, hcf.skip (fun h => h.2.1)⟩
          rw [frameAt_saved (by simp [State.set, upd]; omega)]
          rw [frameAt_saved hd] at hf
          rw [← hf]
          simp only [State.set, updT_same]
          rw [List.reverse_cons, List.getElem?_append_left (by simpa using hlt)]
      | sigret g rest hr ht hs' =>
        have hd : d ≠ (s.th u).saved.length := by
          intro hd; rw [frameAt_top hd, ht] at hf; simp at hf
        have hlt : d < (s.th u).saved.length := by
          rw [frameAt_saved hd, Option.join_eq_some_iff] at hf
          have := (List.getElem?_eq_some_iff.1 hf).1
          simpa using this
        refine ⟨f, ?_, hcf.skip (fun h => h.2.1)⟩
        rw [frameAt_saved hd, hs'] at hf
        rw [hs'] at hlt
        by_cases hd' : d = rest.length
        · rw [frameAt_top (by simp [State.set, upd, hd'])]
          simp only [State.set, updT_same]
          rw [← hf, List.reverse_cons, List.getElem?_append_right (by simp [hd'])]
          simp [hd']
        · rw [frameAt_saved (by simpa [State.set, upd] using hd')]
          simp only [State.set, updT_same]
          rw [← hf, List.reverse_cons, List.getElem?_append_left (by simp at hlt ⊢; omega)]
      | register hr ht hs' hn' =>
        exfalso
        by_cases hd : d = (s.th u).saved.length
        · rw [frameAt_top hd, ht] at hf; simp at hf
        · have := hs' _ (frameAt_mem hd hf); simp at this
      | unregister hr ht hs' hn' =>
        exfalso
        by_cases hd : d = (s.th u).saved.length
        · rw [frameAt_top hd, ht] at hf; simp at hf
        · have := hs' _ (frameAt_mem hd hf); simp at this
      | clear hr ht =>
        refine hsame ?_ (by simp [State.set, upd])
        intro hd; rw [frameAt_top hd, ht] at hf; simp at hf
    · have ho := hs.other hu
      exact ⟨f, by rw [ho]; exact hf, hcf.skip (fun h => hu h.1)⟩

end Verif.Rseq
