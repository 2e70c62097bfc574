import Verif.RseqInjectProps
import Verif.RseqTwiceEx
/-
The hypotheses of `RseqInjectProps.lean` are met by actual executions whose loops are executed, and the
clobber entry is needed: with an operand in the scratch register the helper stores to a wrong address.
-/

namespace Verif.Rseq

variable {n : Nat} {T : Nat → Site n}

/-- As `entry`, with the value `c` in every counter. -/
def entryC (op : Op n) (cpu : BitVec 32) (c : W n) : LSt n :=
  { entry exInv op cpu with slots := fun x => if 200 ≤ x then c else (entry exInv op cpu).slots x }

/-- As `frame0`, with the value `c` in every counter. -/
def frameC (pid : Nat) (fld : Fld) (cpu : BitVec 32) (op : Op n) (m : Mem n) (c : W n) : Frame n :=
  { frame0 pid fld cpu op m with l := entryC op cpu c, l0 := entryC op cpu c }

/-- No operand of the examples is in a clobbered or scratch register. -/
theorem exAl_free_inj (arch : Arch) (k : Kind) (o : Opnd) :
    exAl o ∉ (injOf arch).reg :: clobbers arch k := by
  cases o <;> cases arch <;> cases k <;> decide

theorem exAl_injOK (S : Site n) (h : S.al = exAl) : S.InjOK := by
  intro o _ he
  have := exAl_free_inj S.arch S.kind o
  rw [h] at he
  rw [he] at this
  simp at this

/-- Every call can be set up, with any counter values: the hypotheses of `inject_implements` and
`inject_twice_implements` are satisfiable for every architecture, helper, argument and CPU number. -/
theorem entryC_setup (hn : 4 ≤ n) (arch : Arch) (op : Op n) (cpu : BitVec 32) (c : W n) :
    Setup ((injOf arch).reg :: clobbers arch op.kind) (signExt arch) exAl op cpu (entryC op cpu c) := by
  have h := entry_setup hn arch op cpu
  refine ⟨rfl, h.reg, fun o x hx h5 => ?_, fun o _ _ => exAl_free_inj _ _ o, exAl_free_inj _ _ _, h.cpuV,
    h.cpuS⟩
  have := h.slot o x hx h5
  have hlt : ¬ 200 ≤ slotOf o := by cases o <;> decide
  simp only [entryC, if_neg hlt]
  exact this

/-- **Calls exist** for any family of programs of which one returns. -/
theorem pcall_exists {P : Nat → Prog n} (pid : Nat) (fld : Fld) (cpu : BitVec 32) (op : Op n) (m0 : Mem n)
    (reg : Bool) (c k : BitVec 32) (cnt : W n) (hk : (T pid).kind = op.kind)
    (hset : Setup (clobbers (T pid).arch op.kind) (signExt (T pid).arch) (T pid).al op cpu
      (entryC op cpu cnt))
    (hok : CallOK (T pid).arch (T pid).al op) (ht : Tidy op)
    (hu : reg = false → (th1 reg c k : Thread n).fv fld ≠ cpu) {clob : List Nat} {r : Int} {m' : Mem n}
    (hret : Returns (P pid) ((th1 reg c k : Thread n).fv fld) clob (entryC op cpu cnt) m0 r m') :
    ∃ s0 es s1, PWholeCall T P m0 0 0 (frameC pid fld cpu op m0 cnt) (st1 m0 reg c k) s0 es s1 r ∧
      s1.mem = m' := by
  obtain ⟨j, hj1, hj2, -⟩ := hret
  have hb : TStep T P (st1 m0 reg c k) 0 (.invoke (frameC pid fld cpu op m0 cnt))
      ((st1 m0 reg c k).set 0 { (st1 m0 reg c k : State n).th 0 with
        top := some (frameC pid fld cpu op m0 cnt) }) := by
    refine .invoke _ ?_ ?_ ?_ ?_
    · simp [st1, upd, th1]
    · simp [st1, upd, th1, thread0]
    · exact ⟨rfl, rfl, rfl, rfl, hk, hset, hok, ht⟩
    · intro h
      simp only [st1, updT_same, frameC, frame0] at h ⊢
      exact hu (by simpa [th1] using h)
  have a1 : Alone (st1 m0 reg c k : State n) 0 := by
    intro u hu; simp [st1, upd, hu, thread0]
  obtain ⟨es, s1, f', b1, b2, b3, b4, b5, b6, b9⟩ := tsolo (T := T) (P := P) (t := 0) (d := 0)
    (fv := (th1 reg c k : Thread n).fv fld) (p := P pid)
    (s0 := (st1 m0 reg c k).set 0 { (st1 m0 reg c k : State n).th 0 with
        top := some (frameC pid fld cpu op m0 cnt) }) j
    ((st1 m0 reg c k).set 0 { (st1 m0 reg c k : State n).th 0 with
        top := some (frameC pid fld cpu op m0 cnt) }) [] (frameC pid fld cpu op m0 cnt) _ _ .nil
    (by intro u hu; simp [State.set, upd, hu, st1, thread0])
    (by simp [State.set, upd, st1, th1]) (by simp [State.set, upd, st1, th1, thread0])
    (by simp [State.set, upd]) rfl
    (by simp only [State.set, updT_same, frameC, frame0, st1]; cases fld <;> rfl)
    rfl
  refine ⟨_, es, s1, ⟨st1_treach m0 reg c k, hb, a1.tpolite, ?_, b1, b4, f', b5, ?_⟩, ?_⟩
  · simp [st1, upd, th1, thread0]
  · rw [b6]; exact hj1
  · rw [b9]; exact hj2

theorem exSite_injAll : InjAll (fun _ => exSite) := fun _ => exAl_injOK exSite rfl

/-- The outcome of the example call. -/
def exOut (fld : Fld) (cpu : BitVec 32) (m0 : Mem 8) (reg : Bool) : Int × Mem 8 :=
  if (th1 reg 3#32 1#32 : Thread 8).fv fld = cpu then pseudo exSite.prog.be exOp m0 else (-1, m0)

/-- Complete calls of both kinds of build, with seven iterations in every loop. -/
theorem ex_icall (fld : Fld) (cpu : BitVec 32) (m0 : Mem 8) (reg : Bool)
    (hu : reg = false → (th1 reg 3#32 1#32 : Thread 8).fv fld ≠ cpu) :
    (∃ s0 es s1, PWholeCall (fun _ => exSite) (injPlain fun _ => exSite) m0 0 0
      (frameC 0 fld cpu exOp m0 7#64) (st1 m0 reg 3#32 1#32) s0 es s1 (exOut fld cpu m0 reg).1) ∧
    (∃ s0 es s1, PWholeCall (fun _ => exSite) (injTw fun _ => exSite) m0 0 0
      (frameC 0 fld cpu exOp m0 7#64) (st1 m0 reg 3#32 1#32) s0 es s1 (exOut fld cpu m0 reg).1) := by
  have hset := entryC_setup (by decide) exSite.arch exOp cpu 7#64
  have h1 := inject_implements (by decide) exSite exOp rfl (exOp_ok _) cpu
    ((th1 reg 3#32 1#32 : Thread 8).fv fld) _ m0 hset
  have h2 := inject_twice_implements (by decide) exSite exOp rfl (exOp_ok _) cpu
    ((th1 reg 3#32 1#32 : Thread 8).fv fld) _ m0 hset
  have sel : ∀ {p : Prog 8} {clob : List Nat} {fv : BitVec 32} {l : LSt 8},
      (fv = cpu → Returns p fv clob l m0 (pseudo p.be exOp m0).1 (pseudo p.be exOp m0).2) ∧
      (fv ≠ cpu → Returns p fv clob l m0 (-1) m0) →
      Returns p fv clob l m0 (if fv = cpu then pseudo p.be exOp m0 else (-1, m0)).1
        (if fv = cpu then pseudo p.be exOp m0 else (-1, m0)).2 := by
    intro p clob fv l h
    by_cases e : fv = cpu
    · rw [if_pos e]; exact h.1 e
    · rw [if_neg e]; exact h.2 e
  constructor
  · obtain ⟨s0, es, s1, h, -⟩ := pcall_exists (T := fun _ => exSite) (P := injPlain fun _ => exSite) 0 fld
      cpu exOp m0 reg 3#32 1#32 7#64 rfl hset.fewer (exOp_ok _) exOp_tidy hu (sel h1)
    exact ⟨s0, es, s1, h⟩
  · obtain ⟨s0, es, s1, h, -⟩ := pcall_exists (T := fun _ => exSite) (P := injTw fun _ => exSite) 0 fld
      cpu exOp m0 reg 3#32 1#32 7#64 rfl hset.fewer (exOp_ok _) exOp_tidy hu (sel h2)
    exact ⟨s0, es, s1, h⟩

/-- The three outcomes: the compare-and-store is done, the comparison fails, the thread is on another CPU
(registered or not). -/
example : (exOut .cpuId 3#32 (fun _ => 0#8) true).1 = 0 ∧ (exOut .mmCid 1#32 (fun _ => 1#8) true).1 = 1 ∧
    ∀ reg, (exOut .cpuId 2#32 (fun _ => 0#8) reg).1 = -1 := by
  refine ⟨rfl, rfl, fun reg => ?_⟩
  cases reg <;> rfl

/-- A site of `rseq_load_cbne_store__ptr` on RISC-V. -/
def storeSiteR (al : Opnd → Nat) (p : Prog 8)
    (ok : program al false 0x8000#64 .riscv .cbneStore false = some p) : Site 8 :=
  ⟨.riscv, .cbneStore, false, false, al, 0x8000#64, p, ok⟩

/-- The loops are executed: on RISC-V, `rseq_load_cbne_store__ptr` returns after 7 instructions; with two
iterations in each of the five loops on the way it takes 5 · 6 = 30 more. -/
theorem inject_delays :
    let S := storeSiteR exAl (riscv_cbneStore exAl false 0x8000#64) rfl
    let l := entryC storeOp 3#32 2#64
    (run S.prog 3#32 7 (l, fun _ => 0#8)).1.pc = .ret 0 ∧ (run S.prog 3#32 6 (l, fun _ => 0#8)).1.pc ≠ .ret 0 ∧
    (run S.inj 3#32 37 (l, fun _ => 0#8)).1.pc = .ret 0 ∧
    (run S.inj 3#32 36 (l, fun _ => 0#8)).1.pc ≠ .ret 0 := by
  refine ⟨?_, ?_, ?_, ?_⟩ <;> decide

/-- An allocation with the pointer `v` in the scratch register of RISC-V, x6. -/
def badAl (o : Opnd) : Nat := if o = .v then 6 else exAl o

/-- **The clobber entry is needed.**  If the compiler were not told of the scratch register and placed the
pointer `v` = 0x1000 in it, the helper would return 0 having stored the new value at address 0 instead.
Without the loops the same allocation is fine. -/
theorem inject_needs_clobber :
    let S := storeSiteR badAl (riscv_cbneStore badAl false 0x8000#64) rfl
    let l : LSt 8 := { entryC storeOp 3#32 2#64 with
      regs := fun x => if x = 6 then 0x1000#64 else (entryC storeOp 3#32 2#64).regs x }
    ¬ S.InjOK ∧ Setup (clobbers .riscv .cbneStore) (signExt .riscv) badAl storeOp 3#32 l ∧
    (run S.prog 3#32 7 (l, fun _ => 0#8)).1.pc = .ret 0 ∧
    (run S.prog 3#32 7 (l, fun _ => 0#8)).2 0x1000#64 = 5#8 ∧
    (run S.inj 3#32 37 (l, fun _ => 0#8)).1.pc = .ret 0 ∧
    (run S.inj 3#32 37 (l, fun _ => 0#8)).2 0x1000#64 = 0#8 ∧
    (run S.inj 3#32 37 (l, fun _ => 0#8)).2 0#64 = 5#8 := by
  refine ⟨fun h => h .v (.inl (by decide)) (by decide), ?_, ?_, ?_, ?_, ?_, ?_⟩
  · have h := entryC_setup (n := 8) (by decide) .riscv storeOp 3#32 2#64
    refine ⟨rfl, ?_, h.slot, ?_, by decide, by decide, fun _ => by decide⟩
    · intro o x hx
      cases o <;> simp only [storeOp, Op.val, Option.some.injEq, reduceCtorEq] at hx <;>
        subst hx <;> decide
    · intro o x _
      cases o <;> decide
  all_goals decide

end Verif.Rseq
