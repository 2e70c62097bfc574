import Verif.RseqRace
/-
What the final store writes, in every execution: also when other threads race with the helper.
-/

namespace Verif.Rseq

variable {n : Nat} {T : Nat → Site n} {m0 : Mem n}

/-- A predicate on helpers in execution that the start, the instructions and the kernel's intervention
establish and keep is true of all helpers in execution, running or interrupted. -/
theorem AnyReach.frames {F : Frame n → Prop} (hstart : ∀ f m, Starts T f m → F f)
    (hexec : ∀ (f f' : Frame n) i ins fv (m : Mem n), F f → f.l.pc = .at i →
      (T f.pid).prog.code[i]? = some ins → f'.pid = f.pid →
      f'.l = (exec (T f.pid).prog fv i ins f.l m).1 → F f')
    (habort : ∀ (f : Frame n) i, F f → f.l.pc = .at i → (T f.pid).prog.start ≤ i →
      i < (T f.pid).prog.commit → F { f with l := { f.l with pc := .at (T f.pid).prog.abort } })
    {s : State n} (h : AnyReach T m0 s) (t : Nat) :
    (∀ f, (s.th t).top = some f → F f) ∧ ∀ f, some f ∈ (s.th t).saved → F f := by
  have fix : ∀ x : Thread n, (∀ f, x.top = some f → F f) → ∀ f, fixTop T x = some f → F f := by
    intro x hx f hf
    unfold fixTop at hf
    split at hf
    · cases hf
    · rename_i g hg
      have hk := hx g hg
      split at hf
      · injection hf with hf; subst hf; exact hk
      · rename_i i hi
        split at hf
        · rename_i hc
          injection hf with hf; subst hf
          exact habort _ i hk hi hc.2.2.1 hc.2.2.2
        · injection hf with hf; subst hf; exact hk
  induction h generalizing t with
  | init => constructor <;> intro f hf <;> simp [thread0] at hf
  | @step s s' u lab h hs ih =>
    by_cases hu : u = t
    · subst hu
      have ih := ih u
      cases hs with
      | invoke f hr ht hf hu =>
        refine ⟨fun g hg => ?_, fun g hg => ?_⟩
        · simp [State.set, upd] at hg; subst hg; exact hstart _ _ hf
        · simp [State.set, upd] at hg; exact ih.2 g hg
      | exec f i ins l' m' hr ht hp hc he =>
        refine ⟨fun g hg => ?_, fun g hg => ?_⟩
        · simp [upd] at hg; subst hg
          exact hexec f _ i ins _ _ (ih.1 f ht) hp hc rfl (by rw [he])
        · simp [upd] at hg; exact ih.2 g hg
      | ret f r hr ht hp =>
        refine ⟨fun g hg => ?_, fun g hg => ?_⟩
        · simp [State.set, upd] at hg
        · simp [State.set, upd] at hg; exact ih.2 g hg
      | user m' hr ht => exact ih
      | preempt hr =>
        refine ⟨fun g hg => ?_, fun g hg => ?_⟩
        · simp [State.set, upd] at hg; exact ih.1 g hg
        · simp [State.set, upd] at hg; exact ih.2 g hg
      | resume c k hr hd =>
        refine ⟨fun g hg => ?_, fun g hg => ?_⟩
        · simp [State.set, upd] at hg; exact fix _ ih.1 _ hg
        · simp [State.set, upd] at hg; exact ih.2 g hg
      | signal hr =>
        refine ⟨fun g hg => ?_, fun g hg => ?_⟩
        · simp [State.set, upd] at hg
        · simp [State.set, upd] at hg
          rcases hg with hg | hg
          · exact fix _ ih.1 _ hg.symm
          · exact ih.2 g hg
      | sigret f rest hr ht hs =>
        refine ⟨fun g hg => ?_, fun g hg => ?_⟩
        · simp [State.set, upd] at hg; exact ih.2 g (by rw [hs, hg]; simp)
        · simp [State.set, upd] at hg; exact ih.2 g (by rw [hs]; simp [hg])
      | register hr ht hs hn =>
        refine ⟨fun g hg => ?_, fun g hg => ?_⟩
        · simp [State.set, upd] at hg; exact ih.1 g hg
        · simp [State.set, upd] at hg; exact ih.2 g hg
      | unregister hr ht hs hn =>
        refine ⟨fun g hg => ?_, fun g hg => ?_⟩
        · simp [State.set, upd] at hg; exact ih.1 g hg
        · simp [State.set, upd] at hg; exact ih.2 g hg
      | clear hr ht =>
        refine ⟨fun g hg => ?_, fun g hg => ?_⟩
        · simp [State.set, upd] at hg; exact ih.1 g hg
        · simp [State.set, upd] at hg; exact ih.2 g hg
    · rw [Step.other hs hu]
      exact ih t

/-- Kinds with a new value as argument. -/
def Kind.hasNew : Kind → Bool
  | .cbneStore | .cbneCbneStore | .cbneStoreStore | .cbneMemcpyStore => true
  | _ => false

/-- The final store takes its value from the register of `newv`, or from the register that the instruction
just before it (the only predecessor) loads from the local `newv`. -/
def valOK (k : Kind) (p : Prog n) : Bool :=
  !k.hasNew ||
  match p.code[p.commit - 1]? with
  | some (.st a _) | some (.stl a _) =>
      a == sym .newv ||
      (decide (2 ≤ p.commit) && p.code[p.commit - 2]? == some (.ldS a 1) &&
        p.code.zipIdx.all fun x => x.2 == p.commit - 2 || !(decide (Pc.at (p.commit - 1) ∈ succs x.2 x.1)))
  | _ => false

theorem all_val8 : ∀ (arch : Arch) (k : Kind) (rel : Bool),
    ∀ p ∈ program sym false (0 : W 8) arch k rel, valOK k p = true := by
  intro arch k rel
  cases arch <;> cases k <;> cases rel <;> intro p hp <;>
    first | (cases hp; done) | (cases hp; decide +kernel)

theorem all_val (be : Bool) (csa : W n) (arch : Arch) (k : Kind) (rel : Bool) :
    ∀ p ∈ program sym be csa arch k rel, valOK k p = true := by
  intro p hp
  rw [like_program] at hp
  obtain ⟨q, hq, rfl⟩ := Option.map_eq_some_iff.1 hp
  exact all_val8 arch k rel q hq

/-- Before the final store, the value just loaded from a local is in its register. -/
def Loaded (T : Nat → Site n) (f : Frame n) : Prop :=
  ∀ q, (T f.pid).IsSym q → ∀ a, q.code[q.commit - 2]? = some (.ldS a 1) → 2 ≤ q.commit →
    (∀ x ∈ q.code.zipIdx, x.2 = q.commit - 2 ∨ Pc.at (q.commit - 1) ∉ succs x.2 x.1) →
    f.l.pc = .at (q.commit - 1) → f.l.regs (rn (T f.pid).al a) = f.l.slots 1

theorem AnyReach.loaded {s : State n} (h : AnyReach T m0 s) (t : Nat) {f : Frame n}
    (hf : (s.th t).top = some f) : Loaded T f := by
  refine (AnyReach.frames (F := Loaded T) ?_ ?_ ?_ h t).1 f hf
  · intro f m hs q hq a _ h2 _ hp
    rw [hs.l, hs.setup.pc] at hp
    injection hp with hp
    omega
  · intro f f' i ins fv m _ hp hc e1 hl q hq a ha h2 hpred hp'
    rw [e1] at hq ⊢
    have hpq := Site.sym_prog hq
    have hmem := exec_succs (T f.pid).prog fv i ins f.l m
    rw [← hl, hp'] at hmem
    rw [hpq] at hc
    simp only [Prog.ren, List.getElem?_map, Option.map_eq_some_iff] at hc
    obtain ⟨ins0, hc0, rfl⟩ := hc
    rw [succs_ren] at hmem
    have hin : (ins0, i) ∈ q.code.zipIdx := by
      rw [List.mem_zipIdx_iff_getElem?]; exact hc0
    rcases hpred _ hin with hi | hi
    · dsimp only at hi
      subst hi
      rw [ha] at hc0
      injection hc0 with hc0
      subst hc0
      rw [hl]
      simp [Instr.ren, exec, LSt.setR, upd]
    · exact absurd hmem hi
  · intro f i _ hp h1 h2 q hq a _ h3 _ hp'
    have Z := (T f.pid).facts
    have hpq := Site.sym_prog hq
    dsimp only at hp'
    injection hp' with hp'
    have : q.commit = (T f.pid).prog.commit := by rw [hpq]; rfl
    have := Z.ca
    omega

/-- The final store of a helper with a new value stores that value into the variable. -/
theorem final_value {x : Thread n} {f : Frame n} {P : Prop} (h : GInv T x P f) (hk : FrameKeeps T f)
    (hld : Loaded T f) {i : Nat} {ins : Instr} (hp : f.l.pc = .at i)
    (hc : (T f.pid).prog.code[i]? = some ins) (hcm : i + 1 = (T f.pid).prog.commit) (v w : W n)
    (hv : f.op.v = some v) (hw : f.op.val .newv = some w) (fv : BitVec 32) (m : Mem n) :
    (exec (T f.pid).prog fv i ins f.l m).2 = stw (T f.pid).prog.be m v w := by
  obtain ⟨q, hq, hpq⟩ := (T f.pid).exSym
  have hval := all_val _ _ _ _ _ q hq
  have hkw : (T f.pid).kind.hasNew = true := by
    rw [h.base.kind]
    cases hop : f.op <;> rw [hop] at hw <;> simp_all [Op.kind, Op.val, Kind.hasNew]
  have hdir := final_reg h hk hp hcm hq
  have hqc : q.commit - 1 = i := by
    have : q.commit = (T f.pid).prog.commit := by rw [hpq]; rfl
    omega
  have hvv : f.op.val .v = some v := by
    cases hop : f.op <;> rw [hop] at hv <;> simp_all [Op.v, Op.val]
  have hv' := hdir .v v hvv (.inl rfl)
  have hw' := hdir .newv w hw (.inr rfl)
  have hslot : f.l.slots 1 = w := by
    have hs := (hk q hq).1.slots 1 (by decide)
    rw [hs]
    exact h.base.setup.slot .newv w hw (by decide)
  obtain ⟨hfin, -⟩ := all_fin _ _ _ _ _ q hq
  simp only [finOK, hqc, Bool.and_eq_true] at hfin
  have f1 := hfin.1.1.1
  rw [hpq] at hc
  simp only [Prog.ren, List.getElem?_map, Option.map_eq_some_iff] at hc
  obtain ⟨ins1, hc1, rfl⟩ := hc
  simp only [valOK, hkw, Bool.not_true, Bool.false_or, hqc, hc1] at hval
  rw [hc1] at f1
  have hnk : ((T f.pid).kind == .addLoadLoadAddStore) = false := by
    revert hkw; cases (T f.pid).kind <;> simp [Kind.hasNew]
  have src : ∀ a, (a == sym .newv || (decide (2 ≤ q.commit) && q.code[q.commit - 2]? == some (.ldS a 1) &&
        q.code.zipIdx.all fun x => x.2 == q.commit - 2 ||
          !(decide (Pc.at i ∈ succs x.2 x.1)))) = true →
      f.l.regs (rn (T f.pid).al a) = w := by
    intro a ha
    simp only [Bool.or_eq_true, Bool.and_eq_true, beq_iff_eq, decide_eq_true_eq, List.all_eq_true,
      Bool.not_eq_true', decide_eq_false_iff_not] at ha
    rcases ha with rfl | ⟨⟨h2, h3⟩, h4⟩
    · exact hw'
    · rw [hld q hq a h3 h2 (by rw [hqc]; exact h4) (by rw [hqc]; exact hp)]
      exact hslot
  cases ins1 <;> simp only [Bool.false_eq_true] at hval <;> dsimp only at f1 <;>
    rw [hnk, Bool.false_or, beq_iff_eq] at f1 <;> subst f1 <;>
    simp only [Instr.ren, exec] <;> rw [src _ hval] <;> rw [show rn (T f.pid).al (sym .v) = (T f.pid).al .v from rfl, hv']

end Verif.Rseq
