import Verif.RseqWitness
import Verif.RseqTwiceProps
import Verif.RseqTwiceEx
import Verif.RseqInjectProps
import Verif.RseqInjectEx
import Verif.RseqBoundProps
import Verif.RseqConcProps
import Verif.RseqDispatchProps
import Verif.RseqTree
import Verif.RseqArchProps
import Verif.RseqOrderProps
import Verif.AsmTableProps
import Verif.AsmTableEx

/-!
Theorems about the helpers applied, by name, to concrete executions: one `example` for each theorem that the
modules themselves do not already apply.
-/

namespace Verif.Rseq

/-- During a call of any build the thread stays registered, or stays unregistered. -/
theorem TCall.reg {n : Nat} {T : Nat → Site n} {P : Nat → Prog n} {t d : Nat} {s0 s1 : State n}
    {es : List (Ev n)} (h : TCall T P t d s0 es s1) (hf : (frameAt (s0.th t) d).isSome) :
    (frameAt (s1.th t) d).isSome ∧ (∀ sx ∈ sts s0 es, (sx.th t).reg = (s0.th t).reg) ∧
    (s1.th t).reg = (s0.th t).reg := by
  induction h with
  | nil => exact ⟨hf, by simp [sts], rfl⟩
  | @cons es s s' u lab h hs hp hin ih =>
    obtain ⟨i1, i2, i3⟩ := ih
    have key : (s'.th t).reg = (s.th t).reg := by
      by_cases hu : u = t
      · subst hu
        have bad : (s.th u).top = none → (∀ f ∈ (s.th u).saved, f = none) → False := by
          intro h1 h2
          obtain ⟨f, hf⟩ := Option.isSome_iff_exists.1 i1
          by_cases hd : d = (s.th u).saved.length
          · rw [frameAt_top hd, h1] at hf; simp at hf
          · have := h2 _ (frameAt_mem hd hf); simp at this
        cases hs with
        | register hr ht hs hn => exact (bad ht hs).elim
        | unregister hr ht hs hn => exact (bad ht hs).elim
        | _ => simp [State.set, upd]
      · have hu' : t ≠ u := fun h => hu h.symm
        cases hs <;> simp [State.set, upd, hu']
    refine ⟨hin, ?_, key.trans i3⟩
    intro sx hx
    rcases List.mem_cons.1 hx with rfl | hx
    · exact key.trans i3
    · exact i2 sx hx

/-- A call by the unregistered thread of the examples: it is never on a CPU. -/
theorem ex_never_on {P : Nat → Prog 8} {m0 : Mem 8} {fld : Fld} {cpu : BitVec 32} {f0 : Frame 8} {s0 s1 : State 8}
    {es : List (Ev 8)} (hb : TStep (fun _ => exSite) P (st1 m0 false 3#32 1#32) 0 (.invoke f0) s0)
    (h : TCall (fun _ => exSite) P 0 0 s0 es s1) : ∀ sx ∈ sts s0 es, ¬ On 0 fld cpu sx := by
  intro sx hx ho
  have h1 := (tinvoke_frame hb (d := 0) (by simp [st1, upd, th1, thread0])).1
  have := (h.reg (by rw [h1]; rfl)).2.1 sx hx
  rw [ho.reg] at this
  cases hb with
  | invoke _ hr ht hf hu => simp [st1, upd, th1, State.set] at this

/-- `twice_never_on_cpu_aborts` -/
example : ∃ s0 es s1 r, TWholeCall (fun _ => exSite) (fun _ => 0#8) 0 0
      (frame0 0 .cpuId 2#32 exOp (fun _ => 0#8)) (st1 (fun _ => 0#8) false 3#32 1#32) s0 es s1 r ∧
    (∀ sx ∈ sts s0 es, ¬ On 0 .cpuId 2#32 sx) ∧ r = -1 := by
  obtain ⟨s0, es, s1, h⟩ := ex_tcall_abort false
  have hno : ∀ sx ∈ sts s0 es, ¬ On 0 .cpuId 2#32 sx := ex_never_on h.begin_ h.mid
  exact ⟨s0, es, s1, _, h, hno, twice_never_on_cpu_aborts (by decide) h hno⟩

/-- `inject_never_on_cpu_aborts`, `inject_twice_never_on_cpu_aborts` -/
example : (∃ s0 es s1 r, PWholeCall (fun _ => exSite) (injPlain fun _ => exSite) (fun _ => 0#8) 0 0
      (frameC 0 .cpuId 2#32 exOp (fun _ => 0#8) 7#64) (st1 (fun _ => 0#8) false 3#32 1#32) s0 es s1 r ∧ r = -1) ∧
    (∃ s0 es s1 r, PWholeCall (fun _ => exSite) (injTw fun _ => exSite) (fun _ => 0#8) 0 0
      (frameC 0 .cpuId 2#32 exOp (fun _ => 0#8) 7#64) (st1 (fun _ => 0#8) false 3#32 1#32) s0 es s1 r ∧ r = -1) := by
  obtain ⟨⟨s0, es, s1, h⟩, s0', es', s1', h'⟩ := ex_icall .cpuId 2#32 (fun _ => 0#8) false
    (by simp [th1, Thread.fv])
  exact ⟨⟨s0, es, s1, _, h, inject_never_on_cpu_aborts (by decide) exSite_injAll h (ex_never_on h.begin_ h.mid)⟩,
    s0', es', s1', _, h', inject_twice_never_on_cpu_aborts (by decide) exSite_injAll h'
      (ex_never_on h'.begin_ h'.mid)⟩

/-- `inject_implements`, `inject_twice_implements`: the delay-injection builds of the site of the examples. -/
example : Implements exSite.inj ((injOf .aarch64).reg :: clobbers .aarch64 .cbneMemcpyStore)
      (signExt .aarch64) exAl exOp ∧
    Implements exSite.injTwice ((injOf .aarch64).reg :: clobbers .aarch64 .cbneMemcpyStore)
      (signExt .aarch64) exAl exOp :=
  ⟨inject_implements (by decide) exSite exOp rfl (exOp_ok _),
    inject_twice_implements (by decide) exSite exOp rfl (exOp_ok _)⟩

/-- `step_eq`: the invocation by the registered thread of the examples. -/
example : ∃ s0, TStep (fun _ => exSite) (fun _ => exSite.prog) (st1 (fun _ => 0#8) true 3#32 1#32) 0
    (.invoke (frame0 0 .cpuId 3#32 exOp (fun _ => 0#8))) s0 := by
  obtain ⟨s0, es, s1, h⟩ := ex_call_zero
  exact ⟨s0, step_eq.2 h.begin_⟩

/-- `twice_call_aborted_at_most_once`, `twice_call_never_stuck`, `twice_call_returns_if_left_alone`: the whole
call that returns 0 (its last state is at the return, where the next step is `ret`). -/
example : ∃ (s0 : State 8) (es : List (Ev 8)) (s1 : State 8),
    TWholeCall (fun _ => exSite) (fun _ => 0#8) 0 0 (frame0 0 .cpuId 3#32 exOp (fun _ => 0#8))
      (st1 (fun _ => 0#8) true 3#32 1#32) s0 es s1 0 ∧
    (∀ es1 es2 (e : Ev 8), es = es1 ++ e :: es2 → Redirected 0 0 e → ∀ e' ∈ es1, ¬ Redirected 0 0 e') ∧
    ((s1.th 0).run = true → (∃ s', TStep (fun _ => exSite) (tw fun _ => exSite) s1 0 .exec s') ∨
      ∃ s', TStep (fun _ => exSite) (tw fun _ => exSite) s1 0 .ret s') ∧
    ∃ f j r, frameAt (s1.th 0) 0 = some f ∧ (run exSite.twice 3#32 j (f.l, fun _ => 0#8)).1.pc = .ret r ∧
      ownCount 0 0 es + j ≤ exSite.twice.code.length + 6 * exOp.copyLen := by
  obtain ⟨s0, es, s1, h⟩ := ex_tcall_zero
  exact ⟨s0, es, s1, h,
    fun es1 es2 e he hr => twice_call_aborted_at_most_once h.begin_ h.depth h.mid.xcall he hr,
    fun hr => twice_call_never_stuck h.begin_ h.depth h.mid.xcall hr h.top,
    twice_call_returns_if_left_alone h.begin_ h.depth h.mid.xcall 3#32 _⟩

/-- `pseudo_one_iff`: the variable contains 0, which is not 5. -/
example : pseudo false (.cbneStore 0x1000#64 5#64 9#64 : Op 8) (fun _ => 0#8) = (1, fun _ => 0#8) :=
  (pseudo_one_iff false _ _).2 (by decide)

/-- `outside_never_redirected`: a registered thread outside every helper. -/
example : fixTop (fun _ => exSite) (((st1 (fun _ => 0#8) true 3#32 1#32 : State 8)).th 0) = none :=
  outside_never_redirected (by simp [st1, upd, th1, thread0])

/-- `dispatch_iff`: a release memcpy by mm_cid exists, an acquire one does not. -/
example : (∃ i, dispatch exOp.kind moRelease modeMmCid = some i ∧ i.rel = true ∧ i.fld = .mmCid) ∧
    ∀ i, dispatch exOp.kind moAcquire modeMmCid ≠ some i := by
  refine ⟨⟨⟨true, .mmCid⟩, (dispatch_iff exOp moRelease modeMmCid _).2 (by simp [Supported, HasAttempt, exOp, moRelease, modeMmCid]), rfl, rfl⟩, fun i h => ?_⟩
  have := ((dispatch_iff exOp moAcquire modeMmCid i).1 h).1
  simp [Supported, moAcquire, modeMmCid] at this

/-- `helper_outcome`: on the concurrency id of the thread the release memcpy takes effect, on another one it
returns -1. -/
example : Helper .aarch64 false exAl 0x8000#64 (th1 true 3#32 1#32) moRelease modeMmCid exOp
      (entry exInv exOp 1#32) exMem 0 (pseudo false exOp exMem).2 ∧
    Helper .aarch64 false exAl 0x8000#64 (th1 true 3#32 1#32) moRelease modeMmCid exOp
      (entry exInv exOp 2#32) exMem (-1) exMem :=
  ⟨(helper_outcome (by decide) .aarch64 false exAl 0x8000#64 (th1 true 3#32 1#32) moRelease modeMmCid exOp
      (by decide) (exOp_ok _) 1#32 _ exMem (entry_setup (by decide) _ _ _) 0 _).2
      (.inl ⟨by simp [Supported, HasAttempt, exOp, moRelease, modeMmCid], rfl, Prod.ext (by decide +kernel) rfl⟩),
    (helper_outcome (by decide) .aarch64 false exAl 0x8000#64 (th1 true 3#32 1#32) moRelease modeMmCid exOp
      (by decide) (exOp_ok _) 2#32 _ exMem (entry_setup (by decide) _ _ _) (-1) _).2
      (.inr ⟨fun h => absurd h.2 (by decide), rfl, rfl⟩)⟩

/-- `tree_alone`: the copy of two bytes, backwards. -/
example : (exOp.tree true [1#64, 0#64]).alone false exMem = pseudo false exOp exMem :=
  tree_alone false true exOp [1#64, 0#64] (by show List.Perm _ _; decide) exMem (by
    intro v e dst src len w h
    have := (exOp_ok .aarch64).1
    cases h
    exact this)

/-- `helpers_implement_pseudocode`: the release memcpy helper of aarch64. -/
example : Implements exSite.prog (clobbers .aarch64 .cbneMemcpyStore) (signExt .aarch64) exAl exOp :=
  helpers_implement_pseudocode (n := 8) (by decide) .aarch64 true false exAl 0x8000#64 exOp _ exSite.ok (exOp_ok _)

/-- `program_exists_iff`: the plain increment of riscv exists, a double indirect one does not. -/
example : (program (n := 8) exAl false 0#64 .riscv .addStore false).isSome = true ∧
    ¬ (program (n := 8) exAl false 0#64 .riscv .addLoadLoadAddStore false).isSome = true :=
  ⟨(program_exists_iff (n := 8) exAl false 0#64 .riscv .addStore false).2 (by decide),
    fun h => absurd (((program_exists_iff (n := 8) exAl false 0#64 .riscv .addLoadLoadAddStore false).1 h).2 rfl)
      (by decide)⟩

/-- `shared_register_breaks_memcpy`: the x86-64 helper with newv in the register of dst. -/
example : ∃ p, program (n := 8) shareAl false 0#64 .x86_64 .cbneMemcpyStore false = some p ∧
    ¬ Implements p (clobbers .x86_64 .cbneMemcpyStore) (signExt .x86_64) shareAl shareOp :=
  ⟨_, rfl, shared_register_breaks_memcpy .x86_64 rfl false _ rfl⟩

/-- `shared_register_never_returns`: not after a thousand instructions. -/
example : (run (x86_64_cbneMemcpyStore lenAl false 0#64) 0#32 1000
    (entry exInv lenOp 0#32, fun _ => 0#8)).1.pc ≠ .ret 0 := shared_register_never_returns 1000 0

/-- `relaxed_may_reorder`: the relaxed helper of riscv. -/
example : ∃ p s, program (n := 8) exAl false 0#64 .riscv exPub.kind false = some p ∧
    OSteps (tso .riscv) p 0#32 (fun _ => False) ⟨entry exInv exPub 0#32, [], fun _ => 0#8⟩ s ∧
      ldw false s.mem 0x1000#64 = 0x55#64 ∧ ldw false s.mem 0x2000#64 = 0#64 := by
  obtain ⟨s, h⟩ := relaxed_may_reorder .riscv (by simp [KeepsStoreOrder]) _ rfl (fun _ => False)
  exact ⟨_, s, rfl, h⟩

end Verif.Rseq

namespace Verif.Asm.Ex
open Verif.Rseq KernelCs

/-- `kernel_sees_none`, `field_stays_small`, `wrong_signature_rejected`, `debug_arrays`: the x86_64 image. -/
example : ∃ P mem, rd false mem (area + 8) 8 < 256 ^ 8 ∧
    look false (storeCs x86 mem area 0) area 0x10000 0x53053053 = .none ∧
    rd false (storeCs x86 mem area 0x3020) (area + 8) 8 < 256 ^ 8 ∧
    look false (storeCs x86 mem area P) area 0x10000 0x11111111 = .bad ∧
    (∃ q, rd false (storeCs x86 mem area P) (base .ptrs) 8 = q ∧ 32 ∣ q) ∧
    rd false (storeCs x86 mem area P) (base .exits + 16 + 8) 8 = 0x7004 := by
  obtain ⟨hv, hk, P, hP, mem, hz, hl⟩ := demo_hyps (c := x86) px86_some demo_x86
  obtain ⟨⟨q, h1, h2, -⟩, h3⟩ := debug_arrays (c := x86) px86_some hv hk hP hl
  exact ⟨P, mem, hz, kernel_sees_none hv hz, field_stays_small hv (by decide) hz,
    wrong_signature_rejected (c := x86) px86_some hv hk hP hz hl (by decide), ⟨q, h1, h2⟩,
    (h3 [0x7000] 0x7004 [] rfl (by decide)).2⟩

end Verif.Asm.Ex

namespace Verif.Asm

/-- The addresses that the helpers of ppc, aarch64 and i386 put together, at addresses with the sign bit of the
lower half set. -/
example : ppc64Addr 0x123456789abcdef0#64 = 0x123456789abcdef0#64 ∧ ppc32Addr 0x9abc8def#32 = 0x9abc8def#32 ∧
    aarch64Addr 0x400ffc#64 0x411f80#64 = 0x411f80#64 ∧ i386Addr 0x8049000#32 0x804a020#32 = 0x804a020#32 :=
  ⟨ppc64_address _, ppc32_address _, aarch64_address _ _, i386_address _ _⟩

end Verif.Asm
