import Verif.RseqInv
import Verif.RseqCut
/-
One call of a helper, from its invocation to its return, in an arbitrary concurrent execution.
-/

namespace Verif.Rseq

variable {n : Nat}

/-- A step of an execution: who did what, and the states before and after. -/
structure Ev (n : Nat) where
  s : State n
  who : Nat
  lab : Lab n
  s' : State n

/-- The helper that thread `x` executes below `d` pending signal handlers. -/
def frameAt (x : Thread n) (d : Nat) : Option (Frame n) :=
  if d = x.saved.length then x.top else (x.saved.reverse[d]?).join

variable (T : Nat → Site n)

/-- The part of an execution in which thread `t`, interrupted `d` deep, is inside one call: from state `s0`
(the call has just begun) to `s`, with the steps in between, latest first. -/
inductive Call (t d : Nat) (s0 : State n) : List (Ev n) → State n → Prop
  | nil : Call t d s0 [] s0
  | cons {es : List (Ev n)} {s s' : State n} {u : Nat} {lab : Lab n} (h : Call t d s0 es s)
      (hs : Step T s u lab s') (hp : Polite T s u s') (hin : (frameAt (s'.th t) d).isSome) :
      Call t d s0 (⟨s, u, lab, s'⟩ :: es) s'

/-- The step is an instruction of the call itself. -/
def Own (t d : Nat) (e : Ev n) : Prop :=
  e.who = t ∧ (match e.lab with | .exec => True | _ => False) ∧ (e.s.th t).saved.length = d

/-- Thread `t` is running, registered, and the value of the kernel for field `fl` is `cpu`. -/
structure On (t : Nat) (fl : Fld) (cpu : BitVec 32) (s : State n) : Prop where
  run : (s.th t).run = true
  reg : (s.th t).reg = true
  kv : (s.th t).kv fl = cpu

/-- The states of a piece of execution. -/
def sts (s0 : State n) (es : List (Ev n)) : List (State n) := es.map (·.s') ++ [s0]

/-- What the steps of the call have done so far. -/
structure CF (t d : Nat) (f0 : Frame n) (s0 : State n) (es : List (Ev n)) (b : Prop) (f : Frame n) :
    Prop where
  pid : f.pid = f0.pid
  fld : f.fld = f0.fld
  cpu : f.cpu = f0.cpu
  op : f.op = f0.op
  l0 : f.l0 = f0.l0
  still : (zone (T f0.pid).prog f.l.pc = .pre ∨ zone (T f0.pid).prog f.l.pc = .chk ∨
      zone (T f0.pid).prog f.l.pc = .neq ∨ zone (T f0.pid).prog f.l.pc = .done 1 ∨
      ∃ i, f.l.pc = .at i ∧ zone (T f0.pid).prog f.l.pc = .body ∧ i < cut (T f0.pid).prog) →
    ∀ e ∈ es, Own t d e → e.s'.mem = e.s.mem
  only : f.commits = 0 → ∀ e ∈ es, Own t d e → ∀ a, ¬ targets f0.op a → e.s'.mem a = e.s.mem a
  comm : f.commits = 1 → ∃ es1 e es2, es = es1 ++ e :: es2 ∧ Own t d e ∧
    pseudo (T f0.pid).prog.be f0.op e.s.mem = (0, e.s'.mem) ∧ On t f0.fld f0.cpu e.s ∧
    (∀ e' ∈ es1, Own t d e' → e'.s'.mem = e'.s.mem) ∧
    (∀ e' ∈ es2, Own t d e' → ∀ a, ¬ targets f0.op a → e'.s'.mem a = e'.s.mem a)
  moment : b → zone (T f0.pid).prog f.l.pc = .body → ∃ sx ∈ sts s0 es, On t f0.fld f0.cpu sx ∧
    Rep (T f0.pid).prog f0.cpu sx.mem f0.l0 f.l f.foot
  neq : zone (T f0.pid).prog f.l.pc = .neq ∨ zone (T f0.pid).prog f.l.pc = .done 1 →
    ∃ sx ∈ sts s0 es, On t f0.fld f0.cpu sx ∧
      pseudo (T f0.pid).prog.be f0.op sx.mem = (1, sx.mem)

variable {T}

/-- A step that is not one of the call. -/
theorem CF.skip {t d : Nat} {f0 : Frame n} {s0 : State n} {es : List (Ev n)} {b b' : Prop} {f : Frame n}
    (h : CF T t d f0 s0 es b f) {e : Ev n} (he : ¬ Own t d e)
    (hb : b' → b ∨ zone (T f0.pid).prog f.l.pc ≠ .body) : CF T t d f0 s0 (e :: es) b' f := by
  refine ⟨h.pid, h.fld, h.cpu, h.op, h.l0, ?_, ?_, ?_, ?_, ?_⟩
  · intro hz e' he' ho
    rcases List.mem_cons.1 he' with rfl | he'
    · exact absurd ho he
    · exact h.still hz e' he' ho
  · intro hz e' he' ho
    rcases List.mem_cons.1 he' with rfl | he'
    · exact absurd ho he
    · exact h.only hz e' he' ho
  · intro hc
    obtain ⟨es1, e1, es2, h1, h2, h3, h4, h5, h6⟩ := h.comm hc
    refine ⟨e :: es1, e1, es2, by rw [h1]; rfl, h2, h3, h4, ?_, h6⟩
    intro e' he' ho
    rcases List.mem_cons.1 he' with rfl | he'
    · exact absurd ho he
    · exact h5 e' he' ho
  · intro hb' hz
    rcases hb hb' with hb | hb
    · obtain ⟨sx, a, c⟩ := h.moment hb hz
      exact ⟨sx, List.mem_cons_of_mem _ a, c⟩
    · exact absurd hz hb
  · intro hz
    obtain ⟨sx, a, c⟩ := h.neq hz
    exact ⟨sx, List.mem_cons_of_mem _ a, c⟩

theorem CF.mono {t d : Nat} {f0 : Frame n} {s0 : State n} {es : List (Ev n)} {b b' : Prop} {f : Frame n}
    (hb : b' → b) (h : CF T t d f0 s0 es b f) : CF T t d f0 s0 es b' f :=
  ⟨h.pid, h.fld, h.cpu, h.op, h.l0, h.still, h.only, h.comm, fun h' => h.moment (hb h'), h.neq⟩

theorem Step.other {s s' : State n} {t u : Nat} {lab : Lab n} (h : Step T s u lab s') (hu : u ≠ t) :
    s'.th t = s.th t := by
  have : t ≠ u := fun e => hu e.symm
  cases h <;> simp [State.set, upd, this]

theorem frameAt_top {x : Thread n} {d : Nat} (h : d = x.saved.length) : frameAt x d = x.top := by
  simp [frameAt, h]

theorem frameAt_saved {x : Thread n} {d : Nat} (h : d ≠ x.saved.length) :
    frameAt x d = (x.saved.reverse[d]?).join := by simp [frameAt, h]

/-- A frame that is not on top is a saved one. -/
theorem frameAt_mem {x : Thread n} {d : Nat} {f : Frame n} (h : d ≠ x.saved.length)
    (hf : frameAt x d = some f) : some f ∈ x.saved := by
  rw [frameAt_saved h, Option.join_eq_some_iff] at hf
  exact List.mem_reverse.1 (List.mem_of_getElem? hf)

/-- The kernel's rule on a frame of the call. -/
theorem CF.fix {t d : Nat} {f0 : Frame n} {s0 : State n} {es : List (Ev n)} {b b' : Prop}
    {f g : Frame n} {mem : Mem n} {x : Thread n} {P : Prop} (h : CF T t d f0 s0 es b f)
    (hi : FInv T mem x P f) (ht : x.top = some f) (hg : fixTop T x = some g) {e : Ev n}
    (he : ¬ Own t d e) : CF T t d f0 s0 (e :: es) b' g := by
  have Z := (T f.pid).facts
  have hpid := h.pid
  rcases hi.fixCases ht hg with ⟨rfl, hz⟩ | ⟨hcm, rfl⟩
  · refine h.skip he fun _ => .inr ?_
    intro hzb
    rw [← hpid] at hzb
    cases hr : x.reg with
    | true => exact (hz hr).2 hzb
    | false => have := ((hi.rng (.inr hzb)).unreg hr).1; rw [hzb] at this; simp at this
  · have ha := zone_abort Z
    rw [hpid] at ha
    have h' := h.skip (b' := False) he (fun h => h.elim)
    refine ⟨h'.pid, h'.fld, h'.cpu, h'.op, h'.l0, ?_, h'.only, h'.comm, ?_, ?_⟩
    all_goals (dsimp only; rw [hpid, ha]; simp)

theorem CF.exec (hn : 4 ≤ n) {t d : Nat} {f0 : Frame n} {s0 s : State n} {es : List (Ev n)}
    {f : Frame n} {m' : Mem n} (hI : Inv T s)
    (h : CF T t d f0 s0 es ((s.th t).run = true) f) (hrun : (s.th t).run = true)
    (ht : (s.th t).top = some f) {i : Nat} {ins : Instr} {l' : LSt n}
    (hp : f.l.pc = .at i) (hc : (T f.pid).prog.code[i]? = some ins)
    (he : Rseq.exec (T f.pid).prog ((s.th t).fv f.fld) i ins f.l s.mem = (l', m')) {e : Ev n}
    (hes : e.s = s) (hes' : e.s'.mem = m') (hon : Own t d e)
    (hth : (e.s'.th t).run = true ∧ (e.s'.th t).reg = (s.th t).reg ∧
      (e.s'.th t).kcpu = (s.th t).kcpu ∧ (e.s'.th t).kcid = (s.th t).kcid)
    (hst : ∀ fl, (s.th t).reg = true → (s.th t).fv fl = (s.th t).kv fl) :
    CF T t d f0 s0 (e :: es) True { f with
          l := l'
          foot := fun x => touched ins f.l x ∨ f.foot x
          last := if memFree ins = true then f.last else m'
          commits := if i + 1 = (T f.pid).prog.commit then f.commits + 1 else f.commits
          ep := if isCs ins = true then (s.th t).ev else f.ep } := by
  have Z := (T f.pid).facts
  have hi := (hI.th t).top f ht
  have himp := hi.base.impl hn
  have hl' : l' = (Rseq.exec (T f.pid).prog ((s.th t).fv f.fld) i ins f.l s.mem).1 := by rw [he]
  have hm' : m' = (Rseq.exec (T f.pid).prog ((s.th t).fv f.fld) i ins f.l s.mem).2 := by rw [he]
  have e1 := h.pid
  have e2 := h.op
  have e3 := h.l0
  have e4 := h.cpu
  have e5 := h.fld
  have hcommit : ∀ z, zone (T f.pid).prog (.at i) = z → z ≠ .body → i + 1 ≠ (T f.pid).prog.commit := by
    intro z hz hne heq
    have := Z.sc; have := Z.cc; have := Z.ca; have := Z.an; have := Z.nl
    rcases zone_at_cases Z (i := i) with h'|h'|h'|h'|h'|h'|h' <;>
      first | omega | exact hne (hz ▸ h'.1)
  have hfree : memFree ins = true → e.s'.mem = e.s.mem := by
    intro hm
    rw [hes', hes, hm']
    exact (exec_memFree hm (T f.pid).prog ((s.th t).fv f.fld) i f.l s.mem s.mem).1
  have hstill : ∀ {es : List (Ev n)}, (∀ e' ∈ es, Own t d e' → e'.s'.mem = e'.s.mem) →
      e.s'.mem = e.s.mem → ∀ e' ∈ e :: es, Own t d e' → e'.s'.mem = e'.s.mem := by
    intro es h1 h2 e' he' ho
    rcases List.mem_cons.1 he' with rfl | he'
    · exact h2
    · exact h1 e' he' ho
  have hOn : (s.th t).reg = true → (s.th t).fv f.fld = f.cpu → On t f0.fld f0.cpu s := by
    intro hr hf
    exact ⟨hrun, hr, by rw [← hst _ hr, ← e5, hf, e4]⟩
  have hOn' : On t f0.fld f0.cpu s → On t f0.fld f0.cpu e.s' := by
    intro ho
    refine ⟨hth.1, by rw [hth.2.1]; exact ho.reg, ?_⟩
    have := ho.kv
    revert this
    cases f0.fld <;> simp [Thread.kv, hth.2.2.1, hth.2.2.2]
  -- everything for instructions that access no memory and stay outside the body
  have plain : memFree ins = true → i + 1 ≠ (T f.pid).prog.commit →
      (zone (T f.pid).prog l'.pc = .pre ∨ zone (T f.pid).prog l'.pc = .chk → 
        zone (T f.pid).prog f.l.pc = .pre ∨ zone (T f.pid).prog f.l.pc = .chk) →
      zone (T f.pid).prog l'.pc ≠ .body →
      (zone (T f.pid).prog l'.pc = .neq ∨ zone (T f.pid).prog l'.pc = .done 1 → 
        zone (T f.pid).prog f.l.pc = .neq) →
      CF T t d f0 s0 (e :: es) True { f with
          l := l'
          foot := fun x => touched ins f.l x ∨ f.foot x
          last := if memFree ins = true then f.last else m'
          commits := if i + 1 = (T f.pid).prog.commit then f.commits + 1 else f.commits
          ep := if isCs ins = true then (s.th t).ev else f.ep } := by
    intro hm hnc hp1 hp2 hp3
    rw [e1] at hp1 hp2 hp3
    refine ⟨e1, e5, e4, e2, e3, ?_, ?_, ?_, ?_, ?_⟩ <;> dsimp only
    · intro hz
      refine hstill (h.still ?_) (hfree hm)
      rcases hz with hz | hz | hz | hz | ⟨j, -, hz, -⟩
      · rcases hp1 (.inl hz) with h | h
        · exact .inl h
        · exact .inr (.inl h)
      · rcases hp1 (.inr hz) with h | h
        · exact .inl h
        · exact .inr (.inl h)
      · exact .inr (.inr (.inl (hp3 (.inl hz))))
      · exact .inr (.inr (.inl (hp3 (.inr hz))))
      · exact absurd hz hp2
    · rw [if_neg hnc]
      intro hcm e' he' ho a ha
      rcases List.mem_cons.1 he' with rfl | he'
      · rw [hfree hm]
      · exact h.only hcm e' he' ho a ha
    · rw [if_neg hnc]
      intro hcm
      obtain ⟨es1, e1, es2, h1, h2, h3, h4, h5, h6⟩ := h.comm hcm
      exact ⟨e :: es1, e1, es2, by rw [h1]; rfl, h2, h3, h4, hstill h5 (hfree hm), h6⟩
    · intro _ hz; exact absurd hz hp2
    · intro hz
      obtain ⟨sx, a, c⟩ := h.neq (.inl (hp3 hz))
      exact ⟨sx, List.mem_cons_of_mem _ a, c⟩
  rcases zone_at_cases Z (i := i) with hz|hz|hz|hz|hz|hz|hz
  · obtain ⟨hz, -⟩ := hz
    obtain ⟨q1, q2, q3, q4, q5⟩ := pre_step Z hc hz (fv := (s.th t).fv f.fld) (l := f.l) (m := s.mem)
    rw [← hl'] at q4
    refine plain q1 (hcommit _ hz (by simp)) ?_ ?_ ?_
    · intro _; rw [hp]; exact .inl hz
    · rw [q4, q5]; split <;> simp
    · rw [q4, q5]; split <;> simp
  · obtain ⟨hz, -⟩ := hz
    obtain ⟨q1, q2, q3⟩ := chk_step Z hc hz (fv := (s.th t).fv f.fld) (l := f.l) (m := s.mem)
    rw [← hl'] at q3
    have hnc := hcommit _ hz (by simp)
    by_cases hb : zone (T f.pid).prog l'.pc = .body
    · -- the check succeeded
      have hrng := hi.rng (by rw [hp]; exact .inl hz)
      have hrep : ∀ m, Rep (T f.pid).prog ((s.th t).fv f.fld) m f.l0 l'
          (fun x => touched ins f.l x ∨ f.foot x) := by
        intro m
        have hx : Rseq.exec (T f.pid).prog ((s.th t).fv f.fld) i ins f.l m = (l', m) := by
          have h1 := exec_memFree q1 (T f.pid).prog ((s.th t).fv f.fld) i f.l m s.mem
          exact Prod.ext (by rw [hl']; exact h1.2) h1.1
        refine Rep.step ?_ hp hc hx
        cases hr : (s.th t).reg with
        | true =>
          exact ((hrng.regd hr).2.2 hrun).2.1.agree
            fun a ha => absurd ha (hrng.chk (by rw [hp]; exact hz) a)
        | false => exact (hrng.unreg hr).2 m
      have hfv := Rep.cpu_eq Z himp hi.base.setup (hrep s.mem) (.inl hb)
      have hreg : (s.th t).reg = true := by
        cases hr : (s.th t).reg with
        | true => rfl
        | false => exact absurd hfv (hi.guard hr)
      rw [e1] at hb
      refine ⟨e1, e5, e4, e2, e3, ?_, ?_, ?_, ?_, ?_⟩ <;> dsimp only
      · intro _
        refine hstill (h.still ?_) (hfree q1)
        rw [hp, ← e1]; exact .inr (.inl hz)
      · rw [if_neg hnc]
        intro hcm e' he' ho a ha
        rcases List.mem_cons.1 he' with rfl | he'
        · rw [hfree q1]
        · exact h.only hcm e' he' ho a ha
      · rw [if_neg hnc, hrng.commits]; intro h; simp at h
      · intro _ _
        refine ⟨e.s', by simp [sts], hOn' (hOn hreg hfv), ?_⟩
        have := hrep e.s'.mem
        rw [hfv, e1, e4, e3] at this
        exact this
      · rw [hb]; simp
    · refine plain q1 hnc ?_ hb ?_
      · intro _; rw [hp]; exact .inr hz
      · rcases q3 with q3 | q3 | q3 <;> rw [q3] <;> simp
  · -- body
    obtain ⟨hz, -⟩ := hz
    have hrng := hi.rng (by rw [hp]; exact .inr hz)
    have hreg : (s.th t).reg = true := by
      cases hx : (s.th t).reg with
      | true => rfl
      | false => have := (hrng.unreg hx).1; rw [hp, hz] at this; simp at this
    obtain ⟨-, r2, r3⟩ := hrng.regd hreg
    obtain ⟨r4, r5, r6⟩ := r3 hrun
    have hfv := Rep.cpu_eq Z himp hi.base.setup r5 (.inl (by rw [hp]; exact hz))
    have hon := hOn hreg hfv
    obtain ⟨q1, q2, q3, q4⟩ := body_step Z hc hz (fv := (s.th t).fv f.fld) (l := f.l) (m := s.mem)
    rw [← hl'] at q3 q4
    by_cases hcm : i + 1 = (T f.pid).prog.commit
    · obtain ⟨hst', q3⟩ := q3 hcm
      rcases r6 with r6 | r6
      · have hps := Rep.commit Z himp hi.base.setup (r5.agree r6) hp hcm hc he
        rw [e1] at q3
        refine ⟨e1, e5, e4, e2, e3, ?_, ?_, ?_, ?_, ?_⟩ <;> dsimp only
        · rw [q3]; intro h; simp at h
        · rw [if_pos hcm]; intro h; simp at h
        · intro _
          refine ⟨[], e, es, rfl, ‹Own t d e›, ?_, by rw [hes]; exact hon, by simp, ?_⟩
          · rw [hes, hes', ← e1, ← e2]; exact hps
          · exact h.only hrng.commits
        · rw [q3]; intro _ h; simp at h
        · rw [q3]; intro h; simp at h
      · cases r6 with
        | done hd => rw [hp] at hd; simp at hd
        | @step l2 l3 j ins2 hp2 hc2 hm2 hf2 he2 hq2 =>
          rw [hp] at hp2
          injection hp2 with hp2
          subst hp2
          rw [hc] at hc2
          injection hc2 with hc2
          subst hc2
          cases ins <;> simp [isStore, memFree] at hst' hm2
    · obtain ⟨q4, q5⟩ := q4 hcm
      have hcut := cut_step Z (program_cutOK (T f.pid).al (T f.pid).be (T f.pid).csa (T f.pid).arch
        (T f.pid).kind (T f.pid).rel (T f.pid).prog (T f.pid).ok) hc hz hcm
      -- the replay on some moment
      have hmom : ∃ sx ∈ sts s0 (e :: es), On t f0.fld f0.cpu sx ∧
          Rep (T f0.pid).prog f0.cpu sx.mem f0.l0 l' (fun x => touched ins f.l x ∨ f.foot x) := by
        rcases r6 with r6 | r6
        · have hsok := (hi.base.foot hn).rep hi.base.setup (r5.agree r6)
          unfold SOK at hsok
          rw [hp] at hsok
          dsimp only at hsok
          rw [hc] at hsok
          dsimp only at hsok
          refine ⟨e.s', by simp [sts], hOn' hon, ?_⟩
          have := (r5.agree r6).own hp hc he (fun a ha => by
            rcases hsok.2 with h' | h'
            · exact absurd h' hcm
            · exact (h' a ha).2) q4
          rw [hfv, e1, e4, e3] at this
          rw [hes']; exact this
        · cases r6 with
          | done hd => rw [hp] at hd; simp at hd
          | @step l2 l3 j ins2 hp2 hc2 hm2 hf2 he2 hq2 =>
            rw [hp] at hp2
            injection hp2 with hp2
            subst hp2
            rw [hc] at hc2
            injection hc2 with hc2
            subst hc2
            obtain ⟨sx, a1, a2, a3⟩ := h.moment hrun (by rw [hp, ← e1]; exact hz)
            refine ⟨sx, List.mem_cons_of_mem _ a1, a2, a3.step hp (by rw [← e1]; exact hc) ?_⟩
            rw [← e1]
            have h1 := exec_memFree hm2 (T f.pid).prog f0.cpu i f.l sx.mem s.mem
            have h2 := exec_cpuFree q1 (T f.pid).prog f0.cpu ((s.th t).fv f.fld) i f.l s.mem
            exact Prod.ext (by rw [hl', h1.2, h2]) h1.1
      -- what it writes
      have honly : ∀ a, ¬ targets f0.op a → e.s'.mem a = e.s.mem a := by
        intro a ha
        rcases r6 with r6 | r6
        · have hsok := (hi.base.foot hn).rep hi.base.setup (r5.agree r6)
          unfold SOK at hsok
          rw [hp] at hsok
          dsimp only at hsok
          rw [hc] at hsok
          dsimp only at hsok
          rw [hes', hes, hm']
          refine exec_frame _ _ _ _ _ a fun hs => ?_
          rcases hsok.2 with h' | h'
          · exact absurd h' hcm
          · exact ha (e2 ▸ (h' a hs).1)
        · cases r6 with
          | done hd => rw [hp] at hd; simp at hd
          | @step l2 l3 j ins2 hp2 hc2 hm2 hf2 he2 hq2 =>
            rw [hp] at hp2
            injection hp2 with hp2
            subst hp2
            rw [hc] at hc2
            injection hc2 with hc2
            subst hc2
            rw [hfree hm2]
      have hlt : ¬ cut (T f0.pid).prog ≤ i → ∀ e' ∈ e :: es, Own t d e' → e'.s'.mem = e'.s.mem := by
        intro hlt
        refine hstill (h.still ?_) ?_
        · exact .inr (.inr (.inr (.inr ⟨i, hp, by rw [hp, ← e1]; exact hz, by omega⟩)))
        · rw [hes', hes, hm']
          exact exec_wr (hcut.1 (by rw [e1]; omega)) _ _ _ _ _
      refine ⟨e1, e5, e4, e2, e3, ?_, ?_, ?_, ?_, ?_⟩ <;> dsimp only
      · intro hzz
        by_cases hle : cut (T f.pid).prog ≤ i
        · obtain ⟨j, hj1, hj2, hj3⟩ := hcut.2 hle ((s.th t).fv f.fld) f.l s.mem
          rw [← hl'] at hj1
          rw [e1] at hj2 hj3
          rw [hj1, hj3] at hzz
          rcases hzz with hzz | hzz | hzz | hzz | ⟨j', h1, h2, h3⟩
          all_goals first | (simp at hzz; done) | skip
          injection h1 with h1
          omega
        · exact hlt (by rw [← e1]; exact hle)
      · rw [if_neg hcm]
        intro hcm0 e' he' ho a ha
        rcases List.mem_cons.1 he' with rfl | he'
        · exact honly a ha
        · exact h.only hcm0 e' he' ho a ha
      · rw [if_neg hcm, hrng.commits]; intro h; simp at h
      · intro _ _; exact hmom
      · intro hzz
        obtain ⟨sx, a1, a2, a3⟩ := hmom
        refine ⟨sx, a1, a2, ?_⟩
        rw [← e1, ← e2]
        rw [← e1, ← e3, ← e4] at a3
        rw [← e1] at hzz
        exact Rep.fails Z himp hi.base.setup a3 hzz
  · obtain ⟨hz, -⟩ := hz
    obtain ⟨q1, q2, q3⟩ := post_step Z hc hz (fv := (s.th t).fv f.fld) (l := f.l) (m := s.mem)
    rw [← hl'] at q3
    refine plain q1 (hcommit _ hz (by simp)) ?_ ?_ ?_ <;>
      (rcases q3 with q3 | q3 <;> rw [q3] <;> simp)
  · obtain ⟨hz, -⟩ := hz
    obtain ⟨q1, q2, q3⟩ := abt_step Z hc hz (fv := (s.th t).fv f.fld) (l := f.l) (m := s.mem)
    rw [← hl'] at q3
    refine plain q1 (hcommit _ hz (by simp)) ?_ ?_ ?_ <;>
      (rcases q3 with q3 | q3 <;> rw [q3] <;> simp)
  · obtain ⟨hz, -⟩ := hz
    obtain ⟨q1, q2, q3⟩ := neq_step Z hc hz (fv := (s.th t).fv f.fld) (l := f.l) (m := s.mem)
    rw [← hl'] at q3
    refine plain q1 (hcommit _ hz (by simp)) ?_ ?_ ?_
    · rcases q3 with q3 | q3 <;> rw [q3] <;> simp
    · rcases q3 with q3 | q3 <;> rw [q3] <;> simp
    · intro _; rw [hp]; exact hz
  · exact absurd (by rw [hp]; exact hz.1) hi.out

/-- The call as a whole. -/
theorem Call.cf (hn : 4 ≤ n) {t d : Nat} {f0 : Frame n} {s0 s : State n} {es : List (Ev n)}
    (hI : Inv T s0) (hb : frameAt (s0.th t) d = some f0)
    (hz0 : zone (T f0.pid).prog f0.l.pc = .pre) (hc0 : f0.commits = 0) (h : Call T t d s0 es s) :
    Inv T s ∧ ∃ f, frameAt (s.th t) d = some f ∧
      CF T t d f0 s0 es (d = (s.th t).saved.length ∧ (s.th t).run = true) f := by
  induction h with
  | nil =>
    refine ⟨hI, f0, hb, rfl, rfl, rfl, rfl, rfl, ?_, ?_, ?_, ?_, ?_⟩
    · intro _ e he; simp at he
    · intro _ e he; simp at he
    · rw [hc0]; intro h; simp at h
    · rw [hz0]; intro _ h; simp at h
    · rw [hz0]; intro h; simp at h
  | @cons es s s' u lab hcall hs hp hin ih =>
    obtain ⟨hI, f, hf, hcf⟩ := ih
    have hI' := hI.step hn hs hp
    refine ⟨hI', ?_⟩
    by_cases hu : u = t
    · subst hu
      -- frames that are not on top, when the stack of handlers is unchanged
      have hsav : d ≠ (s.th u).saved.length → (s'.th u).saved = (s.th u).saved →
          (∀ g, frameAt (s'.th u) d = some g → ∀ e : Ev n, ¬ Own u d e →
            g = f → ∃ f, frameAt (s'.th u) d = some f ∧ CF T u d f0 s0 (e :: es)
              (d = (s'.th u).saved.length ∧ (s'.th u).run = true) f) := by
        intro hd he g hg e ho hgf
        subst hgf
        refine ⟨g, hg, hcf.skip ho ?_⟩
        intro h; rw [he] at h; exact absurd h.1 hd
      have hsame : d ≠ (s.th u).saved.length → (s'.th u).saved = (s.th u).saved →
          ∃ f, frameAt (s'.th u) d = some f ∧ CF T u d f0 s0 (⟨s, u, lab, s'⟩ :: es)
              (d = (s'.th u).saved.length ∧ (s'.th u).run = true) f := by
        intro hd he
        refine hsav hd he f ?_ _ ?_ rfl
        · rw [frameAt_saved (by rw [he]; exact hd), he, ← frameAt_saved hd]; exact hf
        · intro ho; exact hd ho.2.2.symm
      cases hs with
      | invoke g hr ht hg hg' =>
        refine hsame ?_ (by simp [State.set, upd])
        intro hd; rw [frameAt_top hd, ht] at hf; simp at hf
      | exec g i ins l' m' hr ht hp' hc he =>
        by_cases hd : d = (s.th u).saved.length
        · rw [frameAt_top hd, ht] at hf
          injection hf with hf
          subst hf
          refine ⟨_, (frameAt_top (by simpa [upd] using hd)).trans (congrArg Thread.top (updT_same _ _ _)), ?_⟩
          have hb : CF T u d f0 s0 es ((s.th u).run = true) g := by
            refine ⟨hcf.pid, hcf.fld, hcf.cpu, hcf.op, hcf.l0, hcf.still, hcf.only, hcf.comm, ?_,
              hcf.neq⟩
            intro h; exact hcf.moment ⟨hd, h⟩
          refine CF.mono (fun _ => trivial) (CF.exec hn hI hb hr ht hp' hc he rfl rfl
            ⟨rfl, trivial, hd.symm⟩ ?_ ?_)
          · dsimp only; rw [updT_same]; exact ⟨hr, rfl, rfl, rfl⟩
          · intro fl hreg
            have := (hI.th u).flds hreg hr
            cases fl <;> simp [Thread.fv, Thread.kv, this.1, this.2]
        · exact hsame hd (by simp [upd])
      | ret g r hr ht hp' =>
        refine hsame ?_ (by simp [State.set, upd])
        intro hd
        rw [frameAt_top (by simpa [State.set, upd] using hd)] at hin
        simp [State.set, upd] at hin
      | user m' hr ht =>
        refine hsame ?_ rfl
        intro hd; rw [frameAt_top hd, ht] at hf; simp at hf
      | preempt hr =>
        refine ⟨f, ?_, hcf.skip (fun h => h.2.1) ?_⟩
        · rw [← hf]; simp [State.set, upd, frameAt]
        · intro h; simp [State.set, upd] at h
      | resume c k hr hd =>
        by_cases hd : d = (s.th u).saved.length
        · rw [frameAt_top hd] at hf
          rw [frameAt_top (by simpa [State.set, upd] using hd)] at hin ⊢
          simp only [State.set, updT_same] at hin ⊢
          obtain ⟨g, hg⟩ := Option.isSome_iff_exists.1 hin
          exact ⟨g, hg, hcf.fix ((hI.th u).top f hf) hf hg (fun h => h.2.1)⟩
        · exact hsame hd (by simp [State.set, upd])
      | signal hr =>
        by_cases hd : d = (s.th u).saved.length
        · rw [frameAt_top hd] at hf
          have hsv : ((s.set u { s.th u with
              top := none, saved := fixTop T (s.th u) :: (s.th u).saved, cs := fixCs (s.th u),
              ev := (s.th u).ev + 1 }).th u).saved = fixTop T (s.th u) :: (s.th u).saved := by
            simp [State.set, upd]
          have hne : d ≠ (fixTop T (s.th u) :: (s.th u).saved).length := by simp; omega
          rw [frameAt_saved (by rw [hsv]; exact hne), hsv] at hin ⊢
          have hget : ((fixTop T (s.th u) :: (s.th u).saved).reverse[d]?).join = fixTop T (s.th u) := by
            rw [List.reverse_cons, List.getElem?_append_right (by simp [hd])]
            simp [hd]
          rw [hget] at hin ⊢
          obtain ⟨g, hg⟩ := Option.isSome_iff_exists.1 hin
          exact ⟨g, hg, hcf.fix ((hI.th u).top f hf) hf hg (fun h => h.2.1)⟩
        · have hlt : d < (s.th u).saved.length := by
            rw [frameAt_saved hd, Option.join_eq_some_iff] at hf
            have := (List.getElem?_eq_some_iff.1 hf).1
            simpa using this
          refine ⟨f, ?_, hcf.skip (fun h => h.2.1) ?_⟩
          · rw [frameAt_saved (by simp [State.set, upd]; omega)]
            rw [frameAt_saved hd] at hf
            rw [← hf]
            simp only [State.set, updT_same]
            rw [List.reverse_cons, List.getElem?_append_left (by simpa using hlt)]
          · intro h; simp [State.set, upd] at h; omega
      | sigret g rest hr ht hs' =>
        have hd : d ≠ (s.th u).saved.length := by
          intro hd; rw [frameAt_top hd, ht] at hf; simp at hf
        have hmem := frameAt_mem hd hf
        have hfi := (hI.th u).saved f hmem
        have hnb : zone (T f0.pid).prog f.l.pc ≠ .body := by
          rw [← hcf.pid]
          intro hzb
          have := hfi.rng (.inr hzb)
          cases hr : (s.th u).reg with
          | true => exact (this.regd hr).1
          | false => have := (this.unreg hr).1; rw [hzb] at this; simp at this
        have hlt : d < (s.th u).saved.length := by
          rw [frameAt_saved hd, Option.join_eq_some_iff] at hf
          have := (List.getElem?_eq_some_iff.1 hf).1
          simpa using this
        refine ⟨f, ?_, hcf.skip (fun h => h.2.1) (fun _ => .inr hnb)⟩
        rw [frameAt_saved hd, hs'] at hf
        rw [hs'] at hlt
        by_cases hd' : d = rest.length
        · rw [frameAt_top (by simp [State.set, upd, hd'])]
          simp only [State.set, updT_same]
          rw [← hf, List.reverse_cons, List.getElem?_append_right (by simp [hd'])]
          simp [hd']
        · rw [frameAt_saved (by simpa [State.set, upd] using hd')]
          simp only [State.set, updT_same]
          rw [← hf, List.reverse_cons, List.getElem?_append_left (by simp at hlt ⊢; omega)]
      | register hr ht hs' hn' =>
        exfalso
        by_cases hd : d = (s.th u).saved.length
        · rw [frameAt_top hd, ht] at hf; simp at hf
        · have := hs' _ (frameAt_mem hd hf); simp at this
      | unregister hr ht hs' hn' =>
        exfalso
        by_cases hd : d = (s.th u).saved.length
        · rw [frameAt_top hd, ht] at hf; simp at hf
        · have := hs' _ (frameAt_mem hd hf); simp at this
      | clear hr ht =>
        refine hsame ?_ (by simp [State.set, upd])
        intro hd; rw [frameAt_top hd, ht] at hf; simp at hf
    · have ho := hs.other hu
      refine ⟨f, by rw [ho]; exact hf, hcf.skip (fun h => hu h.1) ?_⟩
      rw [ho]; intro h; exact .inl h

end Verif.Rseq
