import Verif.RseqBoundCall
import Verif.RseqRaceProps
import Verif.RseqInjectEx
/-
C82: every helper call ends after a bounded number of its own instructions.
-/

namespace Verif.Rseq

variable {n : Nat} {T : Nat → Site n} {P : Nat → Prog n} {t d : Nat} {f0 : Frame n} {sb s0 s1 : State n}
  {es : List (Ev n)}

theorem RCall.xcall {s : State n} (h : RCall T t d s0 es s) : XCall T (plainP T) t d s0 es s := by
  induction h with
  | nil => exact .nil
  | cons _ hs hin ih => exact .cons ih (step_eq.2 hs) hin

theorem tinvoke_frame (h : TStep T P sb t (.invoke f0) s0) (hd : (sb.th t).saved.length = d) :
    frameAt (s0.th t) d = some f0 ∧ Starts T f0 sb.mem := by
  cases h with
  | invoke _ hr ht hf hu =>
    refine ⟨?_, hf⟩
    rw [frameAt_top (by simp [State.set, upd, hd])]
    simp [State.set, upd]

/-- What the sections below use: the build's program at the site of the call can be bounded. -/
def Bounded (T : Nat → Site n) (P : Nat → Prog n) : Prop :=
  ∀ (f : Frame n) (m : Mem n), Starts T f m → ∃ V φ, Fueled (P f.pid) V φ ∧ V f.l ∧
    φ f.l ≤ (P f.pid).code.length + 6 * f.op.copyLen

theorem plain_bounded : Bounded T (plainP T) := fun f m h => by
  have := (T f.pid).fueled h.kind h.setup h.ok
  rwa [← h.l] at this

theorem twice_bounded : Bounded T (tw T) := fun f m h => by
  have := (T f.pid).fueledTwice h.kind h.setup h.ok
  rwa [← h.l] at this

theorem Bounded.facts (B : Bounded T P) (hb : TStep T P sb t (.invoke f0) s0)
    (hd : (sb.th t).saved.length = d) (h : XCall T P t d s0 es s1) :
    ∃ V φ f, Fueled (P f0.pid) V φ ∧ φ f0.l ≤ (P f0.pid).code.length + 6 * f0.op.copyLen ∧
      frameAt (s1.th t) d = some f ∧ BF (P f0.pid) V φ t d f0 es f := by
  obtain ⟨h1, h2⟩ := tinvoke_frame hb hd
  obtain ⟨V, φ, F, hv, hl⟩ := B f0 _ h2
  obtain ⟨f, hf, hB⟩ := h.bf F hv h1
  exact ⟨V, φ, f, F, hl, hf, hB⟩

/-- **C82.** However the call is interrupted and whatever other threads do to its data, the number of
instructions it executes is at most the length of the helper plus six per byte to copy. -/
theorem call_instructions_bounded (hb : Step T sb t (.invoke f0) s0) (hd : (sb.th t).saved.length = d)
    (h : RCall T t d s0 es s1) :
    ownCount t d es ≤ (T f0.pid).prog.code.length + 6 * f0.op.copyLen := by
  obtain ⟨V, φ, f, -, hl, -, hB⟩ := plain_bounded.facts (step_eq.2 hb) hd h.xcall
  have := hB.count
  exact Nat.le_trans (Nat.le_trans (Nat.le_add_right _ _) this) hl

/-- The same in `RSEQ_COMPARE_TWICE` builds. -/
theorem twice_call_instructions_bounded (hb : TStep T (tw T) sb t (.invoke f0) s0)
    (hd : (sb.th t).saved.length = d) (h : XCall T (tw T) t d s0 es s1) :
    ownCount t d es ≤ (T f0.pid).twice.code.length + 6 * f0.op.copyLen := by
  obtain ⟨V, φ, f, -, hl, -, hB⟩ := twice_bounded.facts hb hd h
  have := hB.count
  exact Nat.le_trans (Nat.le_trans (Nat.le_add_right _ _) this) hl

set_option maxRecDepth 4000 in
theorem program_length : ∀ (a : Arch) (k : Kind) (rel : Bool), ∀ p ∈ program sym false (0 : W 8) a k rel,
    (decide (p.code.length ≤ 29) && decide ((twiceOf sym a k p).code.length ≤ 41)) = true := by
  intro a k rel
  cases a <;> cases k <;> cases rel <;> intro p hp <;>
    first | (cases hp; done) | (cases hp; decide +kernel)

/-- In numbers. -/
theorem helper_length (S : Site n) : S.prog.code.length ≤ 29 ∧ S.twice.code.length ≤ 41 := by
  obtain ⟨q, hq, e⟩ := S.symbolic
  have h := program_length _ _ _ q hq
  simp only [Bool.and_eq_true, decide_eq_true_eq] at h
  have ht : S.twice = (twiceOf sym S.arch S.kind (q.like S.be S.csa)).ren (rn S.al) := by
    unfold Site.twice; rw [e]; exact twiceOf_ren _ _ _ _
  constructor
  · rw [e]; simp only [Prog.ren, List.length_map]; exact h.1
  · rw [ht]; simp only [Prog.ren, List.length_map]; exact h.2

/-- The kernel moves a call to its abort handler at most once. -/
theorem call_aborted_at_most_once (hb : Step T sb t (.invoke f0) s0) (hd : (sb.th t).saved.length = d)
    (h : RCall T t d s0 es s1) {es1 es2 : List (Ev n)} {e : Ev n} (he : es = es1 ++ e :: es2)
    (hr : Redirected t d e) : ∀ e' ∈ es1, ¬ Redirected t d e' := by
  obtain ⟨V, φ, f, -, -, -, hB⟩ := plain_bounded.facts (step_eq.2 hb) hd h.xcall
  exact hB.once es1 e es2 he hr

theorem twice_call_aborted_at_most_once (hb : TStep T (tw T) sb t (.invoke f0) s0)
    (hd : (sb.th t).saved.length = d) (h : XCall T (tw T) t d s0 es s1) {es1 es2 : List (Ev n)} {e : Ev n}
    (he : es = es1 ++ e :: es2) (hr : Redirected t d e) : ∀ e' ∈ es1, ¬ Redirected t d e' := by
  obtain ⟨V, φ, f, -, -, -, hB⟩ := twice_bounded.facts hb hd h
  exact hB.once es1 e es2 he hr

/-- A running thread that is executing a call can always go on with it: it can execute its next instruction
or return. -/
theorem call_never_stuck (hb : Step T sb t (.invoke f0) s0) (hd : (sb.th t).saved.length = d)
    (h : RCall T t d s0 es s1) (hr : (s1.th t).run = true) (ht : (s1.th t).saved.length = d) :
    (∃ s', Step T s1 t .exec s') ∨ ∃ s', Step T s1 t .ret s' := by
  obtain ⟨V, φ, f, F, -, hf, hB⟩ := plain_bounded.facts (step_eq.2 hb) hd h.xcall
  rw [frameAt_top ht.symm] at hf
  cases hp : f.l.pc with
  | ret r => exact .inr ⟨_, .ret f r hr hf hp⟩
  | «at» i =>
    have hlt := F.live f.l i hB.v hp
    rw [← hB.pid] at hlt
    exact .inl ⟨_, .exec f i _ _ _ hr hf hp (List.getElem?_eq_getElem hlt) rfl⟩

theorem twice_call_never_stuck (hb : TStep T (tw T) sb t (.invoke f0) s0)
    (hd : (sb.th t).saved.length = d) (h : XCall T (tw T) t d s0 es s1) (hr : (s1.th t).run = true)
    (ht : (s1.th t).saved.length = d) :
    (∃ s', TStep T (tw T) s1 t .exec s') ∨ ∃ s', TStep T (tw T) s1 t .ret s' := by
  obtain ⟨V, φ, f, F, -, hf, hB⟩ := twice_bounded.facts hb hd h
  rw [frameAt_top ht.symm] at hf
  cases hp : f.l.pc with
  | ret r => exact .inr ⟨_, .ret f r hr hf hp⟩
  | «at» i =>
    have hlt := F.live f.l i hB.v hp
    rw [← hB.pid] at hlt
    exact .inl ⟨_, .exec f i _ _ _ hr hf hp (List.getElem?_eq_getElem hlt) rfl⟩

/-- From every state of the call, also in the middle of its section after arbitrary interference: left
alone, it returns, and within what remains of the bound. -/
theorem call_returns_if_left_alone (hb : Step T sb t (.invoke f0) s0) (hd : (sb.th t).saved.length = d)
    (h : RCall T t d s0 es s1) (fv : BitVec 32) (m : Mem n) :
    ∃ f j r, frameAt (s1.th t) d = some f ∧ (run (T f0.pid).prog fv j (f.l, m)).1.pc = .ret r ∧
      ownCount t d es + j ≤ (T f0.pid).prog.code.length + 6 * f0.op.copyLen := by
  obtain ⟨V, φ, f, F, hl, hf, hB⟩ := plain_bounded.facts (step_eq.2 hb) hd h.xcall
  obtain ⟨j, h1, r, h2⟩ := F.returns fv _ f.l m hB.v (Nat.le_refl _)
  have := hB.count
  refine ⟨f, j, r, hf, h2, Nat.le_trans ?_ hl⟩
  omega

theorem twice_call_returns_if_left_alone (hb : TStep T (tw T) sb t (.invoke f0) s0)
    (hd : (sb.th t).saved.length = d) (h : XCall T (tw T) t d s0 es s1) (fv : BitVec 32) (m : Mem n) :
    ∃ f j r, frameAt (s1.th t) d = some f ∧ (run (T f0.pid).twice fv j (f.l, m)).1.pc = .ret r ∧
      ownCount t d es + j ≤ (T f0.pid).twice.code.length + 6 * f0.op.copyLen := by
  obtain ⟨V, φ, f, F, hl, hf, hB⟩ := twice_bounded.facts hb hd h
  obtain ⟨j, h1, r, h2⟩ := F.returns fv _ f.l m hB.v (Nat.le_refl _)
  have := hB.count
  refine ⟨f, j, r, hf, h2, Nat.le_trans ?_ hl⟩
  omega

/-! ### The hypotheses are met, and needed -/

/-- A register assignment in which `src` and `len`, which have the same value, share a register. -/
def lenAl : Opnd → Nat
  | .src => 63
  | o => exAl o

def lenOp : Op 8 := .cbneMemcpyStore 0x1000#64 0#64 0x2000#64 0x3000#64 0x3000#64 0x55#64

theorem len_setup :
    Setup (clobbers .x86_64 .cbneMemcpyStore) (signExt .x86_64) lenAl lenOp 0#32 (entry exInv lenOp 0#32) where
  pc := rfl
  reg := by
    intro o x h
    cases o <;> first
      | (rw [op_val_cpu] at h; exact absurd h (by simp))
      | (simp [lenOp, Op.val] at h; done)
      | (simp [entry, lenAl, exAl, exInv, h]; done)
      | (simp only [lenOp, Op.val, Option.some.injEq] at h; subst h; rfl)
  slot := by
    intro o x h h5
    cases o <;> first | (simp [slotOf] at h5; done) | simp [entry, slotOf, h]
  free := by
    intro o x _
    cases o <;> decide
  freeCpu := by decide
  cpuV := by decide
  cpuS := by intro _; rfl

/-- The copy loop of `x86/bits.h:451-456` when one register is both source and length. -/
def InLoop (l : LSt 8) : Prop :=
  (l.pc = .at 10 ∨ l.pc = .at 11 ∨ l.pc = .at 12) ∧ l.regs 63 = 0x3000#64 ∨
  (l.pc = .at 13 ∨ l.pc = .at 14) ∧ l.regs 63 = 0x3001#64 ∨
  l.pc = .at 15 ∧ l.regs 63 = 0x3000#64 ∧ l.zf = false

theorem inLoop_step (csa : W 8) (be : Bool) (fv : BitVec 32) (l : LSt 8) (m : Mem 8) (h : InLoop l) :
    InLoop (step (x86_64_cbneMemcpyStore lenAl be csa) fv (l, m)).1 := by
  rcases h with ⟨h | h | h, h1⟩ | ⟨h | h, h1⟩ | ⟨h, h1, h2⟩ <;>
    simp [step, h, x86_64_cbneMemcpyStore, exec, InLoop, LSt.setR, LSt.nx, LSt.br, upd, lenAl, exAl, rax, *]

/-- **The bound needs `OwnRegs`** (F24): with `src` and `len` in one register the copy loop of x86-64 adds one
and subtracts one, and the helper never returns, even uninterrupted. -/
theorem shared_register_never_returns (k : Nat) (r : Int) :
    (run (x86_64_cbneMemcpyStore lenAl false 0#64) 0#32 k (entry exInv lenOp 0#32, fun _ => 0#8)).1.pc ≠ .ret r := by
  have key : ∀ (j : Nat) (s : LSt 8 × Mem 8), InLoop s.1 →
      InLoop (run (x86_64_cbneMemcpyStore lenAl false 0#64) 0#32 j s).1 := by
    intro j
    induction j with
    | zero => exact fun _ h => h
    | succ j ih => exact fun s h => ih _ (inLoop_step _ _ _ _ _ h)
  have hin : InLoop (run (x86_64_cbneMemcpyStore lenAl false 0#64) 0#32 10
      (entry exInv lenOp 0#32, fun _ => 0#8)).1 := by
    refine .inl ⟨.inl ?_, ?_⟩ <;> decide
  intro h
  have e1 := run_add (x86_64_cbneMemcpyStore lenAl false 0#64) 0#32 k 10 (entry exInv lenOp 0#32, fun _ => 0#8)
  rw [run_ret _ _ 10 _ _ h] at e1
  have e2 := run_add (x86_64_cbneMemcpyStore lenAl false 0#64) 0#32 10 k (entry exInv lenOp 0#32, fun _ => 0#8)
  rw [Nat.add_comm] at e2
  have h2 := key k _ hin
  rw [← e2, e1] at h2
  rcases h2 with ⟨h3 | h3 | h3, -⟩ | ⟨h3 | h3, -⟩ | ⟨h3, -⟩ <;> rw [h] at h3 <;> exact absurd h3 (by simp)

/-- The execution of `ex_race`: it satisfies the hypotheses, and its call executes instructions. -/
example : ∃ s0 es s1, Step (fun _ => exSite) (st1 exMem true 3#32 1#32) 0
      (.invoke (frame0 0 .cpuId 3#32 exOp exMem)) s0 ∧
    ((st1 exMem true 3#32 1#32 : State 8).th 0).saved.length = 0 ∧ RCall (fun _ => exSite) 0 0 s0 es s1 ∧
    ownCount 0 0 es ≤ 35 := by
  obtain ⟨s0, es, s1, h, -⟩ := ex_race
  refine ⟨s0, es, s1, h.begin_, h.depth, h.mid, ?_⟩
  have := call_instructions_bounded h.begin_ h.depth h.mid
  exact Nat.le_trans this (by decide)

theorem TCall.xcall {s : State n} (h : TCall T P t d s0 es s) : XCall T P t d s0 es s := by
  induction h with
  | nil => exact .nil
  | cons _ hs _ hin ih => exact .cons ih hs hin

/-- A whole call of the `RSEQ_COMPARE_TWICE` build meets the hypotheses too. -/
example : ∃ s0 es s1, TStep (fun _ => exSite) (tw fun _ => exSite) (st1 exMem true 3#32 1#32) 0
      (.invoke (frame0 0 .cpuId 3#32 exOp exMem)) s0 ∧
    ((st1 exMem true 3#32 1#32 : State 8).th 0).saved.length = 0 ∧
    XCall (fun _ => exSite) (tw fun _ => exSite) 0 0 s0 es s1 ∧
    (∃ f, (s1.th 0).top = some f ∧ f.l.pc = .ret 0) ∧ ownCount 0 0 es ≤ 53 := by
  obtain ⟨s0, es, s1, r, h, hr⟩ := tcall_exists (T := fun _ => exSite) (n := 8) (by decide) 0 .cpuId 3#32 exOp
    exMem true 3#32 1#32 rfl rfl (exOp_ok _) exOp_tidy (by intro h; cases h)
  have h0 : r = 0 := by
    rw [if_pos (by rfl)] at hr
    have := congrArg Prod.fst hr
    exact this.trans (by decide)
  subst h0
  refine ⟨s0, es, s1, h.begin_, h.depth, h.mid.xcall, h.ret, ?_⟩
  have := twice_call_instructions_bounded h.begin_ h.depth h.mid.xcall
  have h2 := (helper_length exSite).2
  have h3 : 6 * (frame0 0 .cpuId 3#32 exOp exMem).op.copyLen ≤ 12 := by decide
  exact Nat.le_trans this (Nat.add_le_add h2 h3)

theorem Call.xcall {s : State n} (h : Call T t d s0 es s) : XCall T (plainP T) t d s0 es s := by
  induction h with
  | nil => exact .nil
  | cons _ hs _ hin ih => exact .cons ih (step_eq.2 hs) hin

set_option maxRecDepth 2000 in
/-- A call that is moved to its abort handler: the thread of `ex_call_migrated` at the moment it resumes on
CPU 5. -/
theorem ex_redirected : ∃ s0 e es s1, Step (fun _ => exSite) (st1 exMem true 3#32 1#32) 0
      (.invoke (frame0 0 .cpuId 3#32 exOp exMem)) s0 ∧
    ((st1 exMem true 3#32 1#32 : State 8).th 0).saved.length = 0 ∧
    RCall (fun _ => exSite) 0 0 s0 (e :: es) s1 ∧ Redirected 0 0 e := by
  have a1 : Alone (st1 exMem true 3#32 1#32 : State 8) 0 := by
    intro u hu; simp [st1, upd, hu, thread0]
  have hset := entry_setup (n := 8) (by decide) .aarch64 exOp 3#32
  have hb : Step (fun _ => exSite) (st1 exMem true 3#32 1#32) 0
      (.invoke (frame0 0 .cpuId 3#32 exOp exMem))
      ((st1 exMem true 3#32 1#32).set 0 { (st1 exMem true 3#32 1#32 : State 8).th 0 with
        top := some (frame0 0 .cpuId 3#32 exOp exMem) }) := by
    refine .invoke _ ?_ ?_ ?_ ?_
    · simp [st1, upd, th1]
    · simp [st1, upd, th1, thread0]
    · exact ⟨rfl, rfl, rfl, rfl, rfl, hset, exOp_ok _, exOp_tidy⟩
    · intro h; simp [st1, upd, th1] at h
  have hI := ((st1_reach (T := fun _ => exSite) exMem true 3#32 1#32).inv (by decide)).step (by decide) hb
    a1.polite
  obtain ⟨es, s1, f', b1, b2, b3, b4, b5, b6, b7, b8, b9⟩ := solo (T := fun _ => exSite) (t := 0) (d := 0)
    (fv := 3#32) (p := exSite.prog)
    (s0 := (st1 exMem true 3#32 1#32).set 0 { (st1 exMem true 3#32 1#32 : State 8).th 0 with
        top := some (frame0 0 .cpuId 3#32 exOp exMem) }) 17
    ((st1 exMem true 3#32 1#32).set 0 { (st1 exMem true 3#32 1#32 : State 8).th 0 with
        top := some (frame0 0 .cpuId 3#32 exOp exMem) }) [] (frame0 0 .cpuId 3#32 exOp exMem) _ _ .nil
    (by intro u hu; simp [State.set, upd, hu, st1, thread0])
    (by simp [State.set, upd, st1, th1]) (by simp [State.set, upd, st1, th1, thread0])
    (by simp [State.set, upd]) rfl rfl rfl
  have hpc : f'.l.pc = .at 13 := by rw [b6]; decide
  have hz : zone exSite.prog (.at 13) = .body := by decide
  have hI1 := (b1.events (by decide) hI).1
  have hrng := ((hI1.th 0).top f' b5).rng (.inr (by rw [hpc]; exact hz))
  have hreg : (s1.th 0).reg = true := by
    cases hx : (s1.th 0).reg with
    | true => rfl
    | false => have := (hrng.unreg hx).1; rw [hpc, hz] at this; simp at this
  have hcs := (hrng.regd hreg).2.1
  -- preempted, resumed on CPU 5
  have c1 := b1.cons (Step.preempt b3) b2.polite (by
    rw [frameAt_top (by simp [State.set, upd, b4])]; simp [State.set, upd, b5])
  have al2 : Alone (s1.set 0 { s1.th 0 with run := false }) 0 := by
    intro u hu; simp [State.set, upd, hu, b2 u hu]
  have hfix : ∀ x : Thread 8, x.top = some f' → x.reg = true → x.cs = some f'.pid →
      fixTop (fun _ => exSite) x =
        some { f' with l := { f'.l with pc := .at 15 } } := by
    intro x h1 h2 h3
    unfold fixTop
    rw [h1]
    dsimp only
    rw [hpc]
    dsimp only
    rw [if_pos ⟨h2, h3, by decide, by decide⟩]
    rfl
  have c2 := c1.cons (Step.resume 5#32 1#32 (by simp [State.set, upd]) (by
    intro u hu hr; rw [al2 u hu] at hr; simp at hr)) al2.polite (by
    rw [frameAt_top (by simp [State.set, upd, b4])]
    simp only [State.set, updT_same]
    rw [hfix { s1.th 0 with run := false } b5 hreg hcs]; rfl)
  refine ⟨_, _, _, _, hb, ?_, c2.race, ?_, ?_⟩
  · simp [st1, upd, th1, thread0]
  · intro h; exact absurd h.2.1 (by simp)
  · refine ⟨f', { f' with l := { f'.l with pc := .at 15 } }, ?_, ?_, ?_⟩
    rotate_left
    · rw [frameAt_top (by simp [State.set, upd, b4])]
      simp only [State.set, updT_same]
      exact hfix { s1.th 0 with run := false } b5 hreg hcs
    · rw [hpc]; simp
    · rw [frameAt_top (by simp [State.set, upd, b4])]
      simp only [State.set, updT_same]; exact b5

end Verif.Rseq
