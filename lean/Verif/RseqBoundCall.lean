import Verif.RseqBoundLocal
import Verif.RseqInjectCall
/-
The bound in the concurrent machine.
-/

namespace Verif.Rseq

variable {n : Nat}

/-- Bytes a call copies. -/
def Op.copyLen : Op n → Nat
  | .cbneMemcpyStore _ _ _ _ len _ => len.toNat
  | _ => 0

/-- A number that limits how many more instructions a program executes. -/
structure Fueled (P : Prog n) (V : LSt n → Prop) (φ : LSt n → Nat) : Prop where
  live : ∀ l i, V l → l.pc = .at i → i < P.code.length
  exec : ∀ fv i ins l m, V l → l.pc = .at i → P.code[i]? = some ins →
    V (Rseq.exec P fv i ins l m).1 ∧ φ (Rseq.exec P fv i ins l m).1 + 1 ≤ φ l
  abort : ∀ l i, V l → l.pc = .at i → i < P.commit →
    V { l with pc := .at P.abort } ∧ φ { l with pc := .at P.abort } ≤ φ l
  ahead : ∀ fv i ins l m, P.code[i]? = some ins → P.commit ≤ i → ∀ j,
    (Rseq.exec P fv i ins l m).1.pc = .at j → P.commit ≤ j
  back : P.commit ≤ P.abort

theorem bcheck_fueled {own : Bool} {clob : List Nat} {al : Opnd → Nat} {p : Prog n} (len : W n)
    (hb : bcheck own clob p = true) (hE : (loopOf p.code).isSome = true → CopyRegs own clob al) :
    Fueled (p.ren (rn al)) (Alive al len p.code) (fuel al len p.code) := by
  refine ⟨?_, ?_, ?_, ?_, ?_⟩
  · intro l i h hi
    unfold Alive at h
    rw [hi] at h
    simpa [Prog.ren] using h.1
  · intro fv i ins l m h hi hc
    exact bcheck_exec hb hE _ fv i ins l m hi hc h
  · intro l i _ hi hlt
    exact bcheck_abort hb l hi hlt
  · intro fv i ins l m hc hle j hj
    exact bcheck_ahead (al := al) hb _ fv i ins l m hc hle j hj
  · simp only [bcheck, Bool.and_eq_true, decide_eq_true_eq] at hb
    exact hb.2.2.2.1

/-- A program over symbolic registers that passes the check, for one call. -/
theorem bcheck_call {a : Arch} {k : Kind} {al : Opnd → Nat} {q : Prog n} {op : Op n} {cpu : BitVec 32}
    {l : LSt n} {sx : Bool} (hk : k = op.kind)
    (hb : bcheck (modifiesInputs a) (clobbers a k) q = true)
    (hl : (loopOf q.code).isSome = (k == .cbneMemcpyStore))
    (hs : Setup (clobbers a op.kind) sx al op cpu l) (ho : CallOK a al op) :
    ∃ V φ, Fueled (q.ren (rn al)) V φ ∧ V l ∧ φ l ≤ (q.ren (rn al)).code.length + 6 * op.copyLen := by
  subst hk
  have hlen : (q.ren (rn al)).code.length = q.code.length := by simp [Prog.ren]
  rw [hlen]
  by_cases hm : op.kind = .cbneMemcpyStore
  · cases op <;> simp [Op.kind] at hm
    rename_i v e dst src len w
    have hE : CopyRegs (modifiesInputs a)
        (clobbers a (Op.cbneMemcpyStore v e dst src len w).kind) al :=
      ⟨clobbers_small _ _, hs.free .len _ rfl, hs.free .src _ rfl, hs.free .dst _ rfl,
        fun h => ⟨(ho.2 h).sl, (ho.2 h).dl⟩⟩
    refine ⟨_, _, bcheck_fueled len hb (fun _ => hE), ?_⟩
    have := bcheck_start (al := al) (len := len) hb l hs.pc
      (fun _ => ⟨hs.reg .len _ rfl, hs.slot .len _ rfl (by decide)⟩)
    refine ⟨this.1, Nat.le_trans this.2 ?_⟩
    simp only [Op.copyLen]
    split <;> omega
  · have hl' : (loopOf q.code).isSome = false := by rw [hl]; simpa using hm
    refine ⟨_, _, bcheck_fueled (0#(8 * n)) hb (fun h => by rw [hl'] at h; cases h), ?_⟩
    have := bcheck_start (al := al) (len := 0#(8 * n)) hb l hs.pc
      (fun h => by rw [hl'] at h; cases h)
    refine ⟨this.1, Nat.le_trans this.2 ?_⟩
    rw [hl']
    simp

theorem Site.fueled (S : Site n) {op : Op n} {cpu : BitVec 32} {l : LSt n} {sx : Bool} (hk : S.kind = op.kind)
    (hs : Setup (clobbers S.arch op.kind) sx S.al op cpu l) (ho : CallOK S.arch S.al op) :
    ∃ V φ, Fueled S.prog V φ ∧ V l ∧ φ l ≤ S.prog.code.length + 6 * op.copyLen := by
  obtain ⟨q, hq, e⟩ := S.symbolic
  have hc := all_bcheck8 _ _ _ q hq
  simp only [Bool.and_eq_true, beq_iff_eq] at hc
  rw [e]
  exact bcheck_call (q := q.like S.be S.csa) hk hc.1 hc.2 hs ho

theorem Site.fueledTwice (S : Site n) {op : Op n} {cpu : BitVec 32} {l : LSt n} {sx : Bool}
    (hk : S.kind = op.kind) (hs : Setup (clobbers S.arch op.kind) sx S.al op cpu l)
    (ho : CallOK S.arch S.al op) :
    ∃ V φ, Fueled S.twice V φ ∧ V l ∧ φ l ≤ S.twice.code.length + 6 * op.copyLen := by
  obtain ⟨q, hq, e⟩ := S.symbolic
  have hc := all_bcheckTwice8 _ _ _ q hq
  simp only [Bool.and_eq_true, beq_iff_eq] at hc
  have ht : S.twice = (twiceOf sym S.arch S.kind (q.like S.be S.csa)).ren (rn S.al) := by
    unfold Site.twice; rw [e]; exact twiceOf_ren _ _ _ _
  rw [ht]
  exact bcheck_call (q := twiceOf sym S.arch S.kind (q.like S.be S.csa)) hk hc.1 hc.2 hs ho

/-! ### Calls in the concurrent machine -/

/-- One call, with arbitrary steps of the other threads, of the program `P i` at site `i`. -/
inductive XCall (T : Nat → Site n) (P : Nat → Prog n) (t d : Nat) (s0 : State n) : List (Ev n) → State n → Prop
  | nil : XCall T P t d s0 [] s0
  | cons {es : List (Ev n)} {s s' : State n} {u : Nat} {lab : Lab n} (h : XCall T P t d s0 es s)
      (hs : TStep T P s u lab s') (hin : (frameAt (s'.th t) d).isSome) :
      XCall T P t d s0 (⟨s, u, lab, s'⟩ :: es) s'

/-- The step is an instruction of the call. -/
def ownB (t d : Nat) (e : Ev n) : Bool :=
  decide (e.who = t) && ((match e.lab with | .exec => true | _ => false) &&
    decide ((e.s.th t).saved.length = d))

theorem ownB_iff {t d : Nat} {e : Ev n} : ownB t d e = true ↔ Own t d e := by
  unfold ownB Own
  rw [Bool.and_eq_true, Bool.and_eq_true, decide_eq_true_eq, decide_eq_true_eq]
  cases e.lab <;> simp

/-- How many instructions the call has executed. -/
def ownCount (t d : Nat) (es : List (Ev n)) : Nat := (es.filter (ownB t d)).length

theorem ownCount_skip {t d : Nat} {e : Ev n} {es : List (Ev n)} (h : ¬ Own t d e) :
    ownCount t d (e :: es) = ownCount t d es := by
  have : ownB t d e = false := by
    cases hb : ownB t d e with
    | false => rfl
    | true => exact absurd (ownB_iff.1 hb) h
  simp [ownCount, this]

theorem ownCount_own {t d : Nat} {e : Ev n} {es : List (Ev n)} (h : Own t d e) :
    ownCount t d (e :: es) = ownCount t d es + 1 := by
  simp [ownCount, ownB_iff.2 h]

/-- The kernel has moved the call to its abort handler in this step. -/
def Redirected (t d : Nat) (e : Ev n) : Prop :=
  ¬ Own t d e ∧ ∃ f g, frameAt (e.s.th t) d = some f ∧ frameAt (e.s'.th t) d = some g ∧ f.l.pc ≠ g.l.pc

/-- The position is not in the part of the program that the descriptor protects. -/
def Past (P : Prog n) (l : LSt n) : Prop := ∀ i, l.pc = .at i → P.commit ≤ i

/-- What is known of a call under way. -/
structure BF (P : Prog n) (V : LSt n → Prop) (φ : LSt n → Nat) (t d : Nat) (f0 : Frame n) (es : List (Ev n))
    (f : Frame n) : Prop where
  pid : f.pid = f0.pid
  op : f.op = f0.op
  v : V f.l
  count : ownCount t d es + φ f.l ≤ φ f0.l
  past : (∃ e ∈ es, Redirected t d e) → Past P f.l
  once : ∀ es1 e es2, es = es1 ++ e :: es2 → Redirected t d e → ∀ e' ∈ es1, ¬ Redirected t d e'

variable {T : Nat → Site n} {P : Nat → Prog n} {V : LSt n → Prop} {φ : LSt n → Nat} {t d : Nat}
  {f0 : Frame n} {es : List (Ev n)} {f : Frame n}

/-- A step that is not one of the call and leaves it where it is. -/
theorem BF.skip {Q : Prog n} (h : BF Q V φ t d f0 es f) {e : Ev n} (he : ¬ Own t d e)
    (hs : frameAt (e.s'.th t) d = frameAt (e.s.th t) d) : BF Q V φ t d f0 (e :: es) f := by
  have hr : ¬ Redirected t d e := by
    rintro ⟨-, f, g, h1, h2, h3⟩
    rw [hs, h1] at h2
    injection h2 with h2
    exact h3 (by rw [h2])
  refine ⟨h.pid, h.op, h.v, by rw [ownCount_skip he]; exact h.count, ?_, ?_⟩
  · rintro ⟨e', he', hd⟩
    rcases List.mem_cons.1 he' with rfl | he'
    · exact absurd hd hr
    · exact h.past ⟨e', he', hd⟩
  · intro es1 e1 es2 heq hd e' he'
    cases es1 with
    | nil => simp at he'
    | cons a es1 =>
      simp only [List.cons_append, List.cons.injEq] at heq
      obtain ⟨rfl, heq⟩ := heq
      rcases List.mem_cons.1 he' with rfl | he'
      · exact hr
      · exact h.once es1 e1 es2 heq hd e' he'

/-- The kernel's rule on the helper of the call. -/
theorem BF.fix (F : Fueled (P f0.pid) V φ) (h : BF (P f0.pid) V φ t d f0 es f) {x : Thread n} {g : Frame n}
    (ht : x.top = some f) (hg : tfixTop P x = some g) {e : Ev n} (he : ¬ Own t d e)
    (h1 : frameAt (e.s.th t) d = some f) (h2 : frameAt (e.s'.th t) d = some g) :
    BF (P f0.pid) V φ t d f0 (e :: es) g := by
  have same : g = f → BF (P f0.pid) V φ t d f0 (e :: es) g := by
    rintro rfl
    exact h.skip he (by rw [h1, h2])
  unfold tfixTop at hg
  rw [ht] at hg
  dsimp only at hg
  cases hp : f.l.pc with
  | ret r => rw [hp] at hg; simp only [Option.some.injEq] at hg; exact same hg.symm
  | «at» i =>
    rw [hp] at hg
    dsimp only at hg
    split at hg
    · rename_i hc
      simp only [Option.some.injEq] at hg
      subst hg
      rw [h.pid] at hc
      have ha := F.abort f.l i h.v hp hc.2.2.2
      have hold : ∀ e' ∈ es, ¬ Redirected t d e' := by
        intro e' he' hd
        have := h.past ⟨e', he', hd⟩ i hp
        omega
      refine ⟨h.pid, h.op, ?_, ?_, ?_, ?_⟩
      · dsimp only; rw [h.pid]; exact ha.1
      · rw [ownCount_skip he]; dsimp only; rw [h.pid]; have := h.count; have := ha.2; omega
      · rintro - j hj
        dsimp only at hj
        injection hj with hj
        rw [← hj, h.pid]
        exact F.back
      · intro es1 e1 es2 heq hd e' he'
        cases es1 with
        | nil => simp at he'
        | cons a es1 =>
          simp only [List.cons_append, List.cons.injEq] at heq
          obtain ⟨rfl, heq⟩ := heq
          exact absurd hd (hold e1 (by rw [heq]; simp))
    · simp only [Option.some.injEq] at hg; exact same hg.symm

/-- An instruction of the call. -/
theorem BF.exec (F : Fueled (P f0.pid) V φ) (h : BF (P f0.pid) V φ t d f0 es f) {fv : BitVec 32} {m m' : Mem n}
    {i : Nat} {ins : Instr} {l' : LSt n} (hp : f.l.pc = .at i) (hc : (P f.pid).code[i]? = some ins)
    (hx : Rseq.exec (P f.pid) fv i ins f.l m = (l', m')) {g : Frame n} (g1 : g.pid = f.pid) (g2 : g.op = f.op)
    (g3 : g.l = l') {e : Ev n} (he : Own t d e) : BF (P f0.pid) V φ t d f0 (e :: es) g := by
  rw [h.pid] at hc hx
  have hl : l' = (Rseq.exec (P f0.pid) fv i ins f.l m).1 := by rw [hx]
  have hF := F.exec fv i ins f.l m h.v hp hc
  rw [← hl, ← g3] at hF
  refine ⟨by rw [g1, h.pid], by rw [g2, h.op], hF.1, ?_, ?_, ?_⟩
  · rw [ownCount_own he]; have := h.count; have := hF.2; omega
  · rintro ⟨e', he', hd⟩ j hj
    rcases List.mem_cons.1 he' with rfl | he'
    · exact absurd he hd.1
    · have := h.past ⟨e', he', hd⟩ i hp
      rw [g3, hl] at hj
      exact F.ahead fv i ins f.l m hc this j hj
  · intro es1 e1 es2 heq hd e' he'
    cases es1 with
    | nil => simp at he'
    | cons a es1 =>
      simp only [List.cons_append, List.cons.injEq] at heq
      obtain ⟨rfl, heq⟩ := heq
      rcases List.mem_cons.1 he' with rfl | he'
      · exact fun h => h.1 he
      · exact h.once es1 e1 es2 heq hd e' he'

theorem TStep.other' {s s' : State n} {u : Nat} {lab : Lab n} (h : TStep T P s u lab s') (hu : u ≠ t) :
    s'.th t = s.th t := by
  have : t ≠ u := fun e => hu e.symm
  cases h <;> simp [State.set, upd, this]

/-- The bound holds all along the call. -/
theorem XCall.bf {s0 s : State n} (F : Fueled (P f0.pid) V φ) (hv : V f0.l)
    (hb : frameAt (s0.th t) d = some f0) (h : XCall T P t d s0 es s) :
    ∃ f, frameAt (s.th t) d = some f ∧ BF (P f0.pid) V φ t d f0 es f := by
  induction h with
  | nil =>
    refine ⟨f0, hb, rfl, rfl, hv, by simp [ownCount], ?_, ?_⟩
    · rintro ⟨e, he, -⟩; simp at he
    · intro es1 e es2 heq; simp at heq
  | @cons es s s' u lab hcall hs hin ih =>
    obtain ⟨f, hf, hcf⟩ := ih
    by_cases hu : u = t
    · subst hu
      have hsame : d ≠ (s.th u).saved.length → (s'.th u).saved = (s.th u).saved →
          ∃ f, frameAt (s'.th u) d = some f ∧ BF (P f0.pid) V φ u d f0 (⟨s, u, lab, s'⟩ :: es) f := by
        intro hd he
        have heq : frameAt (s'.th u) d = frameAt (s.th u) d := by
          rw [frameAt_saved (by rw [he]; exact hd), he, ← frameAt_saved hd]
        refine ⟨f, by rw [heq]; exact hf, hcf.skip ?_ heq⟩
        intro ho; exact hd ho.2.2.symm
      cases hs with
      | invoke g hr ht hg hg' =>
        refine hsame ?_ (by simp [State.set, upd])
        intro hd; rw [frameAt_top hd, ht] at hf; simp at hf
      | exec g i ins l' m' hr ht hp' hc he =>
        by_cases hd : d = (s.th u).saved.length
        · rw [frameAt_top hd, ht] at hf
          injection hf with hf
          subst hf
          refine ⟨_, (frameAt_top (by simpa [upd] using hd)).trans (congrArg Thread.top (updT_same _ _ _)), ?_⟩
          apply BF.exec F hcf hp' hc he
          · rfl
          · rfl
          · rfl
          · exact ⟨rfl, trivial, hd.symm⟩
        · exact hsame hd (by simp [upd])
      | ret g r hr ht hp' =>
        refine hsame ?_ (by simp [State.set, upd])
        intro hd
        rw [frameAt_top (by simpa [State.set, upd] using hd)] at hin
        simp [State.set, upd] at hin
      | user m' hr ht =>
        refine hsame ?_ rfl
        intro hd; rw [frameAt_top hd, ht] at hf; simp at hf
      | preempt hr =>
        have heq : frameAt ((s.set u { s.th u with run := false }).th u) d = frameAt (s.th u) d := by
          simp [State.set, upd, frameAt]
        exact ⟨f, by rw [heq]; exact hf, hcf.skip (fun h => h.2.1) heq⟩
      | resume c k hr hd =>
        by_cases hd : d = (s.th u).saved.length
        · have h1 := hf
          rw [frameAt_top hd] at hf
          rw [frameAt_top (by simpa [State.set, upd] using hd)] at hin
          simp only [State.set, updT_same] at hin
          obtain ⟨g, hg⟩ := Option.isSome_iff_exists.1 hin
          have h2 : frameAt ((s.set u { s.th u with
            run := true, top := tfixTop P (s.th u), cs := fixCs (s.th u), kcpu := c, kcid := k,
            cpuId := if (s.th u).reg = true then c else (s.th u).cpuId,
            mmCid := if (s.th u).reg = true then k else (s.th u).mmCid,
            ev := (s.th u).ev + 1 }).th u) d = some g := by
            rw [frameAt_top (by simpa [State.set, upd] using hd)]
            simp only [State.set, updT_same]
            exact hg
          exact ⟨g, h2, hcf.fix F hf hg (fun h => h.2.1) h1 h2⟩
        · exact hsame hd (by simp [State.set, upd])
      | signal hr =>
        by_cases hd : d = (s.th u).saved.length
        · have h1 := hf
          rw [frameAt_top hd] at hf
          have hsv : ((s.set u { s.th u with
              top := none, saved := tfixTop P (s.th u) :: (s.th u).saved, cs := fixCs (s.th u),
              ev := (s.th u).ev + 1 }).th u).saved = tfixTop P (s.th u) :: (s.th u).saved := by
            simp [State.set, upd]
          have hne : d ≠ (tfixTop P (s.th u) :: (s.th u).saved).length := by simp; omega
          have hget : ((tfixTop P (s.th u) :: (s.th u).saved).reverse[d]?).join = tfixTop P (s.th u) := by
            rw [List.reverse_cons, List.getElem?_append_right (by simp [hd])]
            simp [hd]
          have hfr : frameAt ((s.set u { s.th u with
              top := none, saved := tfixTop P (s.th u) :: (s.th u).saved, cs := fixCs (s.th u),
              ev := (s.th u).ev + 1 }).th u) d = tfixTop P (s.th u) := by
            rw [frameAt_saved (by rw [hsv]; exact hne), hsv, hget]
          rw [hfr] at hin
          obtain ⟨g, hg⟩ := Option.isSome_iff_exists.1 hin
          exact ⟨g, hfr.trans hg, hcf.fix F hf hg (fun h => h.2.1) h1 (hfr.trans hg)⟩
        · have hlt : d < (s.th u).saved.length := by
            rw [frameAt_saved hd, Option.join_eq_some_iff] at hf
            have := (List.getElem?_eq_some_iff.1 hf).1
            simpa using this
          have heq : frameAt ((s.set u { s.th u with
              top := none, saved := tfixTop P (s.th u) :: (s.th u).saved, cs := fixCs (s.th u),
              ev := (s.th u).ev + 1 }).th u) d = frameAt (s.th u) d := by
            rw [frameAt_saved (by simp [State.set, upd]; omega), frameAt_saved hd]
            simp only [State.set, updT_same]
            rw [List.reverse_cons, List.getElem?_append_left (by simpa using hlt)]
          exact ⟨f, by rw [heq]; exact hf, hcf.skip (fun h => h.2.1) heq⟩
      | sigret g rest hr ht hs' =>
        have hd : d ≠ (s.th u).saved.length := by
          intro hd; rw [frameAt_top hd, ht] at hf; simp at hf
        have hlt : d < (s.th u).saved.length := by
          rw [frameAt_saved hd, Option.join_eq_some_iff] at hf
          have := (List.getElem?_eq_some_iff.1 hf).1
          simpa using this
        have heq : frameAt ((s.set u { s.th u with top := g, saved := rest }).th u) d = frameAt (s.th u) d := by
          rw [frameAt_saved hd, hs']
          rw [hs'] at hlt
          by_cases hd' : d = rest.length
          · rw [frameAt_top (by simp [State.set, upd, hd'])]
            simp only [State.set, updT_same]
            rw [List.reverse_cons, List.getElem?_append_right (by simp [hd'])]
            simp [hd']
          · rw [frameAt_saved (by simpa [State.set, upd] using hd')]
            simp only [State.set, updT_same]
            rw [List.reverse_cons, List.getElem?_append_left (by simp at hlt ⊢; omega)]
        exact ⟨f, by rw [heq]; exact hf, hcf.skip (fun h => h.2.1) heq⟩
      | register hr ht hs' hn' =>
        exfalso
        by_cases hd : d = (s.th u).saved.length
        · rw [frameAt_top hd, ht] at hf; simp at hf
        · have := hs' _ (frameAt_mem hd hf); simp at this
      | unregister hr ht hs' hn' =>
        exfalso
        by_cases hd : d = (s.th u).saved.length
        · rw [frameAt_top hd, ht] at hf; simp at hf
        · have := hs' _ (frameAt_mem hd hf); simp at this
      | clear hr ht =>
        refine hsame ?_ (by simp [State.set, upd])
        intro hd; rw [frameAt_top hd, ht] at hf; simp at hf
    · have ho := hs.other' hu
      exact ⟨f, by rw [ho]; exact hf, hcf.skip (fun h => hu h.1) (by dsimp only; rw [ho])⟩

/-- Left alone, the helper returns. -/
theorem Fueled.returns {Q : Prog n} (F : Fueled Q V φ) (fv : BitVec 32) : ∀ (k : Nat) (l : LSt n) (m : Mem n),
    V l → φ l ≤ k → ∃ j, j ≤ φ l ∧ ∃ r, (run Q fv j (l, m)).1.pc = .ret r := by
  intro k
  induction k with
  | zero =>
    intro l m hv hk
    cases hp : l.pc with
    | ret r => exact ⟨0, by omega, r, hp⟩
    | «at» i =>
      have := F.live l i hv hp
      have := F.exec fv i _ l m hv hp (List.getElem?_eq_getElem this)
      omega
  | succ k ih =>
    intro l m hv hk
    cases hp : l.pc with
    | ret r => exact ⟨0, by omega, r, hp⟩
    | «at» i =>
      have hlt := F.live l i hv hp
      have hc := List.getElem?_eq_getElem hlt
      have hx := F.exec fv i _ l m hv hp hc
      obtain ⟨j, h1, r, h2⟩ := ih _ (Rseq.exec Q fv i Q.code[i] l m).2 hx.1 (by omega)
      refine ⟨j + 1, by omega, r, ?_⟩
      rw [run]
      have : step Q fv (l, m) = Rseq.exec Q fv i Q.code[i] l m := by
        simp only [step, hp, hc]
      rw [this]
      exact h2

end Verif.Rseq
