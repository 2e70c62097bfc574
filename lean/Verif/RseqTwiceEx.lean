import Verif.RseqTwiceProps
import Verif.RseqConcEx
import Verif.RseqTwiceTear
/-
The hypotheses of `RseqTwiceProps.lean` are met by actual executions, and the assumption about other
threads is needed: a store by another CPU between the two comparisons makes the helper call `rseq_bug()`.
-/

namespace Verif.Rseq

variable {n : Nat} {T : Nat → Site n}

theorem Alone.tpolite {P : Nat → Prog n} {s s' : State n} {t : Nat} (h : Alone s t) :
    TPolite P s t s' := by
  intro u f hu hr
  rw [h u hu] at hr
  simp at hr

/-- Uninterrupted execution of a helper by the only running thread, as `solo`. -/
theorem tsolo {P : Nat → Prog n} {t d : Nat} {s0 : State n} {fv : BitVec 32} {p : Prog n} :
    ∀ (k : Nat) (s : State n)
    (es : List (Ev n)) (f : Frame n) (l' : LSt n) (m' : Mem n), TCall T P t d s0 es s → Alone s t →
    (s.th t).run = true → (s.th t).saved.length = d → (s.th t).top = some f →
    P f.pid = p → (s.th t).fv f.fld = fv → run p fv k (f.l, s.mem) = (l', m') →
    ∃ es' s' f', TCall T P t d s0 es' s' ∧ Alone s' t ∧ (s'.th t).run = true ∧
      (s'.th t).saved.length = d ∧ (s'.th t).top = some f' ∧ f'.l = l' ∧ s'.mem = m' := by
  intro k
  induction k with
  | zero =>
    intro s es f l' m' hc ha hr hd ht hp hfv h
    simp only [run, Prod.mk.injEq] at h
    exact ⟨es, s, f, hc, ha, hr, hd, ht, h.1, h.2⟩
  | succ k ih =>
    intro s es f l' m' hc ha hr hd ht hp hfv h
    rw [run] at h
    have stay : step p fv (f.l, s.mem) = (f.l, s.mem) → ∃ es' s' f', TCall T P t d s0 es' s' ∧
        Alone s' t ∧ (s'.th t).run = true ∧ (s'.th t).saved.length = d ∧ (s'.th t).top = some f' ∧
        f'.l = l' ∧ s'.mem = m' := by
      intro hs
      rw [hs] at h
      exact ih s es f l' m' hc ha hr hd ht hp hfv h
    cases hpc : f.l.pc with
    | ret r => exact stay (by simp [step, hpc])
    | «at» i =>
      cases hcd : p.code[i]? with
      | none => exact stay (by simp [step, hpc, hcd])
      | some ins =>
        have hs : step p fv (f.l, s.mem) = exec p fv i ins f.l s.mem := by simp [step, hpc, hcd]
        rw [hs] at h
        obtain ⟨l1, m1, he⟩ : ∃ l1 m1, exec p fv i ins f.l s.mem = (l1, m1) := ⟨_, _, rfl⟩
        rw [he] at h
        have hstep := TStep.exec (T := T) (P := P) (s := s) (t := t) f i ins l1 m1 hr ht hpc
          (by rw [hp]; exact hcd) (by rw [hp, hfv]; exact he)
        have hcall := hc.cons hstep ha.tpolite (by
          rw [frameAt_top (by dsimp only; rw [updT_same]; exact hd.symm)]
          dsimp only; rw [updT_same]; rfl)
        exact ih _ _
          { f with
              l := l1
              foot := fun x => touched ins f.l x ∨ f.foot x
              last := if memFree ins = true then f.last else m1
              commits := if i + 1 = (P f.pid).commit then f.commits + 1 else f.commits
              ep := if isCs ins = true then (s.th t).ev else f.ep } l' m' hcall
          (by intro u hu; dsimp only; rw [updT_other _ _ hu]; exact ha u hu)
          (by dsimp only; rw [updT_same]; exact hr)
          (by dsimp only; rw [updT_same]; exact hd)
          (by dsimp only; rw [updT_same])
          hp (by dsimp only; rw [updT_same]; rw [← hfv]; cases f.fld <;> rfl) h

theorem st1_treach {P : Nat → Prog n} (m0 : Mem n) (reg : Bool) (c k : BitVec 32) :
    TReach T P m0 (st1 m0 reg c k) := by
  have h0 : TReach T P m0 { mem := m0, th := fun _ => thread0 } := .init
  have a0 : Alone ({ mem := m0, th := fun _ => thread0 } : State n) 0 := fun _ _ => rfl
  have h1 := h0.step (TStep.resume (t := 0) c k rfl (by intro u _ h; simp [thread0] at h)) a0.tpolite
  cases reg with
  | false => exact h1
  | true =>
    have a1 : Alone (st1 m0 false c k : State n) 0 := by
      intro u hu; simp [st1, upd, hu, thread0]
    have h2 := TReach.step (T := T) (P := P) (s := st1 m0 false c k) h1
      (TStep.register (t := 0) (by simp [st1, upd, th1]) (by simp [st1, upd, th1, thread0])
        (by simp [st1, upd, th1, thread0]) (by simp [st1, upd, th1])) a1.tpolite
    have e : (st1 m0 false c k : State n).set 0 { (st1 m0 false c k : State n).th 0 with
        reg := true, cpuId := ((st1 m0 false c k : State n).th 0).kcpu,
        mmCid := ((st1 m0 false c k : State n).th 0).kcid } = st1 m0 true c k := by
      simp only [State.set, st1, th1]
      congr 1
      funext u
      unfold upd
      split <;> simp
    rw [e] at h2
    exact h2

/-- **Calls exist**, as `call_exists`. -/
theorem tcall_exists (hn : 4 ≤ n) (pid : Nat) (fld : Fld) (cpu : BitVec 32) (op : Op n) (m0 : Mem n)
    (reg : Bool) (c k : BitVec 32) (hk : (T pid).kind = op.kind) (hal : (T pid).al = exAl)
    (hok : CallOK (T pid).arch (T pid).al op) (ht : Tidy op)
    (hu : reg = false → (th1 reg c k : Thread n).fv fld ≠ cpu) :
    ∃ s0 es s1 r, TWholeCall T m0 0 0 (frame0 pid fld cpu op m0) (st1 m0 reg c k) s0 es s1 r ∧
      (r, s1.mem) = if (th1 reg c k : Thread n).fv fld = cpu then pseudo (T pid).prog.be op m0
        else (-1, m0) := by
  have hset : Setup (clobbers (T pid).arch op.kind) (signExt (T pid).arch) (T pid).al op cpu
      (entry exInv op cpu) := by rw [hal]; exact entry_setup hn (T pid).arch op cpu
  have himp := compare_twice_implements hn (T pid) op hk hok cpu ((th1 reg c k : Thread n).fv fld) _ m0
    hset
  have hret : ∃ r m', Returns (T pid).twice ((th1 reg c k : Thread n).fv fld)
      (clobbers (T pid).arch op.kind) (entry exInv op cpu) m0 r m' ∧
      (r, m') = if (th1 reg c k : Thread n).fv fld = cpu then pseudo (T pid).prog.be op m0
        else (-1, m0) := by
    by_cases h : (th1 reg c k : Thread n).fv fld = cpu
    · rw [if_pos h]; exact ⟨_, _, himp.1 h, rfl⟩
    · rw [if_neg h]; exact ⟨_, _, himp.2 h, rfl⟩
  obtain ⟨r, m', ⟨j, hj1, hj2, -⟩, hrm⟩ := hret
  have hb : TStep T (tw T) (st1 m0 reg c k) 0 (.invoke (frame0 pid fld cpu op m0))
      ((st1 m0 reg c k).set 0 { (st1 m0 reg c k : State n).th 0 with
        top := some (frame0 pid fld cpu op m0) }) := by
    refine .invoke _ ?_ ?_ ?_ ?_
    · simp [st1, upd, th1]
    · simp [st1, upd, th1, thread0]
    · exact ⟨rfl, rfl, rfl, rfl, hk, hset, hok, ht⟩
    · intro h
      simp only [st1, updT_same, frame0] at h ⊢
      exact hu (by simpa [th1] using h)
  have a1 : Alone (st1 m0 reg c k : State n) 0 := by
    intro u hu; simp [st1, upd, hu, thread0]
  obtain ⟨es, s1, f', b1, b2, b3, b4, b5, b6, b9⟩ := tsolo (T := T) (P := tw T) (t := 0) (d := 0)
    (fv := (th1 reg c k : Thread n).fv fld) (p := (T pid).twice)
    (s0 := (st1 m0 reg c k).set 0 { (st1 m0 reg c k : State n).th 0 with
        top := some (frame0 pid fld cpu op m0) }) j
    ((st1 m0 reg c k).set 0 { (st1 m0 reg c k : State n).th 0 with
        top := some (frame0 pid fld cpu op m0) }) [] (frame0 pid fld cpu op m0) _ _ .nil
    (by intro u hu; simp [State.set, upd, hu, st1, thread0])
    (by simp [State.set, upd, st1, th1]) (by simp [State.set, upd, st1, th1, thread0])
    (by simp [State.set, upd]) rfl (by simp only [State.set, updT_same, frame0, st1]; cases fld <;> rfl)
    rfl
  refine ⟨_, es, s1, r, ⟨st1_treach m0 reg c k, hb, a1.tpolite, ?_, b1, b4, f', b5, ?_⟩, ?_⟩
  · simp [st1, upd, th1, thread0]
  · rw [b6]; exact hj1
  · rw [b9, ← hrm]; exact congrArg _ hj2

/-- A complete call that returns 0 (hypotheses of `twice_returns_zero_atomic`). -/
theorem ex_tcall_zero : ∃ s0 es s1, TWholeCall (fun _ => exSite) (fun _ => 0#8) 0 0
    (frame0 0 .cpuId 3#32 exOp (fun _ => 0#8)) (st1 (fun _ => 0#8) true 3#32 1#32) s0 es s1 0 := by
  obtain ⟨s0, es, s1, r, h, hr⟩ := tcall_exists (T := fun _ => exSite) (by decide) 0 .cpuId 3#32 exOp
    (fun _ => 0#8) true 3#32 1#32 rfl rfl (exOp_ok _) exOp_tidy (by simp)
  have : r = 0 := by
    have := congrArg Prod.fst hr
    rw [if_pos (by rfl)] at this
    exact this
  subst this
  exact ⟨s0, es, s1, h⟩

/-- A complete call that returns 1 (hypotheses of `twice_returns_one_compare_failed`). -/
theorem ex_tcall_one : ∃ s0 es s1, TWholeCall (fun _ => exSite) (fun _ => 1#8) 0 0
    (frame0 0 .mmCid 1#32 exOp (fun _ => 1#8)) (st1 (fun _ => 1#8) true 3#32 1#32) s0 es s1 1 := by
  obtain ⟨s0, es, s1, r, h, hr⟩ := tcall_exists (T := fun _ => exSite) (by decide) 0 .mmCid 1#32 exOp
    (fun _ => 1#8) true 3#32 1#32 rfl rfl (exOp_ok _) exOp_tidy (by simp)
  have : r = 1 := by
    have := congrArg Prod.fst hr
    rw [if_pos (by rfl)] at this
    exact this
  subst this
  exact ⟨s0, es, s1, h⟩

/-- A complete call on the wrong CPU, and one by a thread that is not registered: both return -1. -/
theorem ex_tcall_abort (reg : Bool) : ∃ s0 es s1, TWholeCall (fun _ => exSite) (fun _ => 0#8) 0 0
    (frame0 0 .cpuId 2#32 exOp (fun _ => 0#8)) (st1 (fun _ => 0#8) reg 3#32 1#32) s0 es s1 (-1) := by
  obtain ⟨s0, es, s1, r, h, hr⟩ := tcall_exists (T := fun _ => exSite) (by decide) 0 .cpuId 2#32 exOp
    (fun _ => 0#8) reg 3#32 1#32 rfl rfl (exOp_ok _) exOp_tidy
    (by intro h; subst h; simp [th1, Thread.fv])
  have : r = -1 := by
    have := congrArg Prod.fst hr
    rw [if_neg (by cases reg <;> simp [th1, Thread.fv])] at this
    exact this
  subst this
  exact ⟨s0, es, s1, h⟩

/-! ### What happens when another CPU stores into the variable -/

/-- A site of `rseq_load_cbne_store__ptr` on x86-64. -/
def storeSite : Site 8 where
  arch := .x86_64
  kind := .cbneStore
  rel := false
  be := false
  al := exAl
  csa := 0x8000#64
  prog := x86_64_cbneStore exAl false 0x8000#64
  ok := rfl

/-- Replace the word at 0x1000 by 5 if it is 0. -/
def storeOp : Op 8 := .cbneStore 0x1000#64 0#64 5#64

/-- **F29.**  The program of a normal build and that of a `RSEQ_COMPARE_TWICE` build run on CPU 3 up to
the point right after the (first) comparison of the variable, which succeeds; then another CPU stores 9
into it.  The normal build stores 5 and returns 0, which is what the documentation promises for a
compare-and-store that is atomic with respect to the same CPU only.  The other build reaches `error2` and
terminates the process. -/
theorem compare_twice_remote_store :
    let p := storeSite.prog
    let q := storeSite.twice
    let l := entry exInv storeOp 3#32
    let a := run p 3#32 5 (l, fun _ => 0#8)
    let b := run q 3#32 5 (l, fun _ => 0#8)
    let m9 : Mem 8 := fun x => if x = 0x1000#64 then 9#8 else 0#8
    a.1.pc = .at 5 ∧ b.1.pc = .at 5 ∧
    (run p 3#32 20 (a.1, m9)).1.pc = .ret 0 ∧ (run p 3#32 20 (a.1, m9)).2 0x1000#64 = 5#8 ∧
    (run q 3#32 20 (b.1, m9)).1.pc = .ret 3 ∧ (run q 3#32 20 (b.1, m9)).2 0x1000#64 = 9#8 := by
  refine ⟨?_, ?_, ?_, ?_, ?_, ?_⟩ <;> decide

/-- The call is one the theorems are about. -/
example : Setup (clobbers .x86_64 .cbneStore) (signExt .x86_64) exAl storeOp 3#32
    (entry exInv storeOp 3#32) ∧ Tidy storeOp :=
  ⟨entry_setup (by decide) .x86_64 storeOp 3#32, trivial⟩

/-- A site of the memory-copy helper on mips. -/
def tearSite : Site 8 where
  arch := .mips
  kind := .cbneMemcpyStore
  rel := false
  be := true
  al := exAl
  csa := 0x8000#64
  prog := mips_cbneMemcpyStore exAl true 0x8000#64
  ok := rfl

def tearOp : Op 8 := .cbneMemcpyStore 0x1000#64 0#64 0x2000#64 0x3000#64 4#64 5#64

/-- The hypotheses of `compare_twice_tear_down` are met: the helper has passed its comparisons on CPU 3 and the variable then
has the value 9; it leaves through `error2`. -/
example :
    let l := entry exInv tearOp 3#32
    let m9 : Mem 8 := fun x => if x = 0x1007#64 then 9#8 else 0#8
    Setup (clobbers .mips .cbneMemcpyStore) (signExt .mips) exAl tearOp 3#32 l ∧
    (run tearSite.prog 3#32 8 (l, fun _ => 0#8)).1.pc = .at 8 ∧ ldw tearSite.prog.be m9 0x1000#64 ≠ 0#64 ∧
    (run tearSite.twice 3#32 8 ((run tearSite.prog 3#32 8 (l, fun _ => 0#8)).1, m9)).1.pc = .ret 3 := by
  refine ⟨entry_setup (by decide) .mips tearOp 3#32, ?_, ?_, ?_⟩ <;> decide

end Verif.Rseq
