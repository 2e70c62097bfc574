import Verif.RseqCtl
import Verif.RseqConcEx
/-
C60: whatever interrupts a helper, the registers outside its clobber list and the C locals it was given
have their old values when it returns.
-/

namespace Verif.Rseq

variable {n : Nat}

variable {T : Nat → Site n} {m0 : Mem n}

/-- All helpers in execution, running or interrupted. -/
def AllKeep (T : Nat → Site n) (x : Thread n) : Prop :=
  (∀ f, x.top = some f → FrameKeeps T f) ∧ ∀ f, some f ∈ x.saved → FrameKeeps T f

theorem AllKeep.fix {x : Thread n} (h : AllKeep T x) {f : Frame n} (hf : fixTop T x = some f) :
    FrameKeeps T f := by
  unfold fixTop at hf
  split at hf
  · cases hf
  · rename_i g hg
    have hk := h.1 g hg
    split at hf
    · injection hf with hf; subst hf; exact hk
    · rename_i i hi
      split at hf
      · rename_i hc
        injection hf with hf; subst hf
        exact hk.abort hi hc.2.2.1 hc.2.2.2
      · injection hf with hf; subst hf; exact hk

theorem AnyReach.keep {s : State n} (h : AnyReach T m0 s) : ∀ t, AllKeep T (s.th t) := by
  induction h with
  | init => intro t; constructor <;> intro f hf <;> simp [thread0] at hf
  | @step s s' t lab h hs ih =>
    intro u
    by_cases hu : u = t
    · subst hu
      have ih := ih u
      cases hs with
      | invoke f hr ht hf hu =>
        refine ⟨fun g hg => ?_, fun g hg => ?_⟩
        · simp [State.set, upd] at hg; subst hg; exact FrameKeeps.start hf
        · simp [State.set, upd] at hg; exact ih.2 g hg
      | exec f i ins l' m' hr ht hp hc he =>
        refine ⟨fun g hg => ?_, fun g hg => ?_⟩
        · simp [upd] at hg; subst hg
          exact (ih.1 f ht).exec hp hc rfl rfl (by rw [he])
        · simp [upd] at hg; exact ih.2 g hg
      | ret f r hr ht hp =>
        refine ⟨fun g hg => ?_, fun g hg => ?_⟩
        · simp [State.set, upd] at hg
        · simp [State.set, upd] at hg; exact ih.2 g hg
      | user m' hr ht => exact ih
      | preempt hr =>
        refine ⟨fun g hg => ?_, fun g hg => ?_⟩
        · simp [State.set, upd] at hg; exact ih.1 g hg
        · simp [State.set, upd] at hg; exact ih.2 g hg
      | resume c k hr hd =>
        refine ⟨fun g hg => ?_, fun g hg => ?_⟩
        · simp [State.set, upd] at hg; exact ih.fix hg
        · simp [State.set, upd] at hg; exact ih.2 g hg
      | signal hr =>
        refine ⟨fun g hg => ?_, fun g hg => ?_⟩
        · simp [State.set, upd] at hg
        · simp [State.set, upd] at hg
          rcases hg with hg | hg
          · exact ih.fix hg.symm
          · exact ih.2 g hg
      | sigret f rest hr ht hs =>
        refine ⟨fun g hg => ?_, fun g hg => ?_⟩
        · simp [State.set, upd] at hg; exact ih.2 g (by rw [hs, hg]; simp)
        · simp [State.set, upd] at hg; exact ih.2 g (by rw [hs]; simp [hg])
      | register hr ht hs hn =>
        refine ⟨fun g hg => ?_, fun g hg => ?_⟩
        · simp [State.set, upd] at hg; exact ih.1 g hg
        · simp [State.set, upd] at hg; exact ih.2 g hg
      | unregister hr ht hs hn =>
        refine ⟨fun g hg => ?_, fun g hg => ?_⟩
        · simp [State.set, upd] at hg; exact ih.1 g hg
        · simp [State.set, upd] at hg; exact ih.2 g hg
      | clear hr ht =>
        refine ⟨fun g hg => ?_, fun g hg => ?_⟩
        · simp [State.set, upd] at hg; exact ih.1 g hg
        · simp [State.set, upd] at hg; exact ih.2 g hg
    · rw [Step.other hs (Ne.symm hu)]
      exact ih u

theorem PReach.any {s : State n} (h : PReach T m0 s) : AnyReach T m0 s := by
  induction h with
  | init => exact .init
  | step _ hs _ ih => exact ih.step hs

/-- **C60.** In every execution (any number of threads, any interference with the data, preemption,
migration, nested signals, registration changes) a helper about to return, with whatever value, has the
registers of its caller outside the clobber list, and the C locals passed to it, as they were on entry.
No assumption that the compiler gave the operands different registers. -/
theorem registers_restored {s : State n} (h : AnyReach T m0 s) {t : Nat} {f : Frame n} {r : Int}
    (ht : (s.th t).top = some f) (hr : f.l.pc = .ret r) :
    (∀ x, x ∉ clobbers (T f.pid).arch (T f.pid).kind → f.l.regs x = f.l0.regs x) ∧
    (∀ i, i < 100 → f.l.slots i = f.l0.slots i) := by
  have hk := (h.keep t).1 f ht
  obtain ⟨q, hq⟩ : ∃ q, program sym (T f.pid).be (T f.pid).csa (T f.pid).arch (T f.pid).kind
      (T f.pid).rel = some q := by
    have := (T f.pid).ok
    rw [rename_program] at this
    obtain ⟨q, hq, -⟩ := Option.map_eq_some_iff.1 this
    exact ⟨q, hq⟩
  obtain ⟨hk, -⟩ := hk q hq
  rw [hr] at hk
  exact ⟨fun x hx => hk.regs x hx (by simp), hk.slots⟩

/-- The same for a complete call: on return the caller finds its registers as at the call. -/
theorem call_restores (hn : 4 ≤ n) {t d : Nat} {f0 : Frame n} {sb s0 s1 : State n} {es : List (Ev n)}
    {r : Int} (h : WholeCall T m0 t d f0 sb s0 es s1 r) :
    ∃ f, (s1.th t).top = some f ∧ f.l.pc = .ret r ∧
      ∀ x, x ∉ clobbers (T f0.pid).arch f0.op.kind → f.l.regs x = f0.l.regs x := by
  obtain ⟨hI, f, hf, hr, hcf⟩ := h.facts hn
  obtain ⟨-, -, hs, -, -⟩ := invoke_frame h.begin_
  have hreach : AnyReach T m0 s1 := by
    have : ∀ {es s1}, Call T t d s0 es s1 → AnyReach T m0 s1 := by
      intro es s1 hc
      induction hc with
      | nil => exact (h.reach.any).step h.begin_
      | cons _ hs _ _ ih => exact ih.step hs
    exact this h.mid
  refine ⟨f, hf, hr, fun x hx => ?_⟩
  have := (registers_restored hreach hf hr).1 x
  rw [hcf.pid, hcf.l0, hs.kind, ← hs.l] at this
  exact this hx

/-- The hypotheses are met by the call that is migrated in the middle of its copy. -/
example : ∃ (s1 : State 8) (f : Frame 8), (s1.th 0).top = some f ∧ f.l.pc = .ret (-1) ∧
    s1.mem 0x2000#64 = 7#8 ∧
    ∀ x, x ∉ clobbers .aarch64 .cbneMemcpyStore → f.l.regs x = (entry exInv exOp 3#32).regs x := by
  obtain ⟨s0, es, s1, h, h1, -, -⟩ := ex_call_migrated
  obtain ⟨f, h2, h3, h4⟩ := call_restores (by decide) h
  exact ⟨s1, f, h2, h3, h1, h4⟩

/-- The x86-64 memory-copy program after `k` steps of a call that finds its CPU, comparison and copy
succeeding. -/
def exRun (k : Nat) : LSt 8 × Mem 8 :=
  run (x86_64_cbneMemcpyStore exAl false 0x8000#64) 3#32 k (entry exInv exOp 3#32, exMem)

set_option maxRecDepth 4000 in
/-- There is something to restore: two bytes copied, just before the final store, all three operand registers
differ from entry; the abort handler, entered there, puts them back. -/
example : (exRun 22).1.pc = .at 16 ∧
    (exRun 22).1.regs (exAl .src) ≠ (entry exInv exOp 3#32).regs (exAl .src) ∧
    (exRun 22).1.regs (exAl .dst) ≠ (entry exInv exOp 3#32).regs (exAl .dst) ∧
    (exRun 22).1.regs (exAl .len) ≠ (entry exInv exOp 3#32).regs (exAl .len) ∧
    (let s := run (x86_64_cbneMemcpyStore exAl false 0x8000#64) 3#32 4
        ({ (exRun 22).1 with pc := .at 21 }, (exRun 22).2)
     s.1.pc = .ret (-1) ∧
     ∀ o ∈ [Opnd.src, .dst, .len], s.1.regs (exAl o) = (entry exInv exOp 3#32).regs (exAl o)) := by
  decide +kernel

end Verif.Rseq
