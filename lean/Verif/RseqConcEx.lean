import Verif.RseqConcProps
/-
The hypotheses of `RseqConcProps.lean` are met by actual executions: for every helper of every
architecture and every argument there are complete calls that return 0, 1 and -1.
Also the witnesses of F3 and F26.
-/

namespace Verif.Rseq

variable {n : Nat} {T : Nat → Site n}

/-- Only thread `t` is running. -/
def Alone (s : State n) (t : Nat) : Prop := ∀ u, u ≠ t → (s.th u).run = false

theorem Alone.polite {s s' : State n} {t : Nat} (h : Alone s t) : Polite T s t s' := by
  intro u f hu hr
  rw [h u hu] at hr
  simp at hr

/-- Uninterrupted execution of a helper by the only running thread is an execution of the machine. -/
theorem solo {t d : Nat} {s0 : State n} {fv : BitVec 32} {p : Prog n} : ∀ (k : Nat) (s : State n)
    (es : List (Ev n)) (f : Frame n) (l' : LSt n) (m' : Mem n), Call T t d s0 es s → Alone s t →
    (s.th t).run = true → (s.th t).saved.length = d → (s.th t).top = some f →
    (T f.pid).prog = p → (s.th t).fv f.fld = fv → run p fv k (f.l, s.mem) = (l', m') →
    ∃ es' s' f', Call T t d s0 es' s' ∧ Alone s' t ∧ (s'.th t).run = true ∧
      (s'.th t).saved.length = d ∧ (s'.th t).top = some f' ∧ f'.l = l' ∧ f'.pid = f.pid ∧
      f'.fld = f.fld ∧ s'.mem = m' := by
  intro k
  induction k with
  | zero =>
    intro s es f l' m' hc ha hr hd ht hp hfv h
    simp only [run, Prod.mk.injEq] at h
    exact ⟨es, s, f, hc, ha, hr, hd, ht, h.1, rfl, rfl, h.2⟩
  | succ k ih =>
    intro s es f l' m' hc ha hr hd ht hp hfv h
    rw [run] at h
    have stay : step p fv (f.l, s.mem) = (f.l, s.mem) → ∃ es' s' f', Call T t d s0 es' s' ∧ Alone s' t ∧
        (s'.th t).run = true ∧ (s'.th t).saved.length = d ∧ (s'.th t).top = some f' ∧ f'.l = l' ∧
        f'.pid = f.pid ∧ f'.fld = f.fld ∧ s'.mem = m' := by
      intro hs
      rw [hs] at h
      exact ih s es f l' m' hc ha hr hd ht hp hfv h
    cases hpc : f.l.pc with
    | ret r => exact stay (by simp [step, hpc])
    | «at» i =>
      cases hcd : p.code[i]? with
      | none => exact stay (by simp [step, hpc, hcd])
      | some ins =>
        have hs : step p fv (f.l, s.mem) = exec p fv i ins f.l s.mem := by simp [step, hpc, hcd]
        rw [hs] at h
        obtain ⟨l1, m1, he⟩ : ∃ l1 m1, exec p fv i ins f.l s.mem = (l1, m1) := ⟨_, _, rfl⟩
        rw [he] at h
        have hstep := Step.exec (T := T) (s := s) (t := t) f i ins l1 m1 hr ht hpc
          (by rw [hp]; exact hcd) (by rw [hp, hfv]; exact he)
        have hcall := hc.cons hstep ha.polite (by
          rw [frameAt_top (by dsimp only; rw [updT_same]; exact hd.symm)]
          dsimp only; rw [updT_same]; rfl)
        obtain ⟨es', s', f', a1, a2, a3, a4, a5, a6, a7, a8, a9⟩ := ih _ _
          { f with
              l := l1
              foot := fun x => touched ins f.l x ∨ f.foot x
              last := if memFree ins = true then f.last else m1
              commits := if i + 1 = (T f.pid).prog.commit then f.commits + 1 else f.commits
              ep := if isCs ins = true then (s.th t).ev else f.ep } l' m' hcall
          (by intro u hu; dsimp only; rw [updT_other _ _ hu]; exact ha u hu)
          (by dsimp only; rw [updT_same]; exact hr)
          (by dsimp only; rw [updT_same]; exact hd)
          (by dsimp only; rw [updT_same])
          hp (by dsimp only; rw [updT_same]; rw [← hfv]; cases f.fld <;> rfl) h
        exact ⟨es', s', f', a1, a2, a3, a4, a5, a6, a7, a8, a9⟩

/-- The frame of a call that is about to start. -/
def frame0 (pid : Nat) (fld : Fld) (cpu : BitVec 32) (op : Op n) (m : Mem n) : Frame n where
  pid := pid
  fld := fld
  cpu := cpu
  op := op
  l := entry exInv op cpu
  l0 := entry exInv op cpu
  foot := fun _ => False
  last := m
  commits := 0
  ep := 0

/-- Thread 0 runs on CPU `c`, holds concurrency id `k`, and is registered if `reg`; other threads sleep. -/
def th1 (reg : Bool) (c k : BitVec 32) : Thread n :=
  { thread0 with
    run := true, kcpu := c, kcid := k, reg := reg, ev := 1
    cpuId := if reg = true then c else BitVec.allOnes 32
    mmCid := if reg = true then k else 0#32 }

def st1 (m0 : Mem n) (reg : Bool) (c k : BitVec 32) : State n :=
  { mem := m0, th := upd (fun _ => thread0) 0 (th1 reg c k) }

theorem st1_reach (m0 : Mem n) (reg : Bool) (c k : BitVec 32) : PReach T m0 (st1 m0 reg c k) := by
  have h0 : PReach T m0 { mem := m0, th := fun _ => thread0 } := .init
  have a0 : Alone ({ mem := m0, th := fun _ => thread0 } : State n) 0 := fun _ _ => rfl
  have h1 := h0.step (Step.resume (t := 0) c k rfl (by intro u _ h; simp [thread0] at h)) a0.polite
  cases reg with
  | false => exact h1
  | true =>
    have a1 : Alone (st1 m0 false c k : State n) 0 := by
      intro u hu; simp [st1, upd, hu, thread0]
    have h2 := PReach.step (T := T) (s := st1 m0 false c k) h1
      (Step.register (t := 0) (by simp [st1, upd, th1]) (by simp [st1, upd, th1, thread0])
        (by simp [st1, upd, th1, thread0]) (by simp [st1, upd, th1])) a1.polite
    have e : (st1 m0 false c k : State n).set 0 { (st1 m0 false c k : State n).th 0 with
        reg := true, cpuId := ((st1 m0 false c k : State n).th 0).kcpu,
        mmCid := ((st1 m0 false c k : State n).th 0).kcid } = st1 m0 true c k := by
      simp only [State.set, st1, th1]
      congr 1
      funext u
      unfold upd
      split <;> simp
    rw [e] at h2
    exact h2

/-- **Calls exist.**  At any site, with any arguments that satisfy the calling conditions, from any memory,
a thread that is registered on CPU `c` (or not registered) executes a complete call whose result and memory
are those of the pseudo-code if the field contains `cpu`, and -1 otherwise. -/
theorem call_exists (hn : 4 ≤ n) (pid : Nat) (fld : Fld) (cpu : BitVec 32) (op : Op n) (m0 : Mem n)
    (reg : Bool) (c k : BitVec 32) (hk : (T pid).kind = op.kind) (hal : (T pid).al = exAl)
    (hok : CallOK (T pid).arch (T pid).al op) (ht : Tidy op)
    (hu : reg = false → (th1 reg c k : Thread n).fv fld ≠ cpu) :
    ∃ s0 es s1 r, WholeCall T m0 0 0 (frame0 pid fld cpu op m0) (st1 m0 reg c k) s0 es s1 r ∧
      (r, s1.mem) = if (th1 reg c k : Thread n).fv fld = cpu then pseudo (T pid).prog.be op m0
        else (-1, m0) := by
  have hset : Setup (clobbers (T pid).arch op.kind) (signExt (T pid).arch) (T pid).al op cpu
      (entry exInv op cpu) := by rw [hal]; exact entry_setup hn (T pid).arch op cpu
  have himp := helpers_implement_pseudocode hn _ (T pid).rel (T pid).be _ (T pid).csa op _
    (by rw [← hk]; exact (T pid).ok) hok cpu ((th1 reg c k : Thread n).fv fld) _ m0 hset
  have hret : ∃ r m', Returns (T pid).prog ((th1 reg c k : Thread n).fv fld)
      (clobbers (T pid).arch op.kind) (entry exInv op cpu) m0 r m' ∧
      (r, m') = if (th1 reg c k : Thread n).fv fld = cpu then pseudo (T pid).prog.be op m0
        else (-1, m0) := by
    by_cases h : (th1 reg c k : Thread n).fv fld = cpu
    · rw [if_pos h]; exact ⟨_, _, himp.1 h, rfl⟩
    · rw [if_neg h]; exact ⟨_, _, himp.2 h, rfl⟩
  obtain ⟨r, m', ⟨j, hj1, hj2, -⟩, hrm⟩ := hret
  have hb : Step T (st1 m0 reg c k) 0 (.invoke (frame0 pid fld cpu op m0))
      ((st1 m0 reg c k).set 0 { (st1 m0 reg c k : State n).th 0 with
        top := some (frame0 pid fld cpu op m0) }) := by
    refine .invoke _ ?_ ?_ ?_ ?_
    · simp [st1, upd, th1]
    · simp [st1, upd, th1, thread0]
    · exact ⟨rfl, rfl, rfl, rfl, hk, hset, hok, ht⟩
    · intro h
      simp only [st1, updT_same, frame0] at h ⊢
      exact hu (by simpa [th1] using h)
  have a1 : Alone (st1 m0 reg c k : State n) 0 := by
    intro u hu; simp [st1, upd, hu, thread0]
  obtain ⟨es, s1, f', b1, b2, b3, b4, b5, b6, -, -, b9⟩ := solo (T := T) (t := 0) (d := 0)
    (fv := (th1 reg c k : Thread n).fv fld) (p := (T pid).prog)
    (s0 := (st1 m0 reg c k).set 0 { (st1 m0 reg c k : State n).th 0 with
        top := some (frame0 pid fld cpu op m0) }) j
    ((st1 m0 reg c k).set 0 { (st1 m0 reg c k : State n).th 0 with
        top := some (frame0 pid fld cpu op m0) }) [] (frame0 pid fld cpu op m0) _ _ .nil
    (by intro u hu; simp [State.set, upd, hu, st1, thread0])
    (by simp [State.set, upd, st1, th1]) (by simp [State.set, upd, st1, th1, thread0])
    (by simp [State.set, upd]) rfl (by simp only [State.set, updT_same, frame0, st1]; cases fld <;> rfl)
    rfl
  refine ⟨_, es, s1, r, ⟨st1_reach m0 reg c k, hb, a1.polite, ?_, b1, b4, f', b5, ?_⟩, ?_⟩
  · simp [st1, upd, th1, thread0]
  · rw [b6]; exact hj1
  · rw [b9, ← hrm]; exact congrArg _ hj2

/-- A site at every index. -/
def exSite : Site 8 where
  arch := .aarch64
  kind := .cbneMemcpyStore
  rel := true
  be := false
  al := exAl
  csa := 0x8000#64
  prog := aarch64_cbneMemcpyStore_rel exAl false 0x8000#64
  ok := rfl

theorem exOp_tidy : Tidy exOp := by
  intro x h1 h2
  simp only [InRange, InWord] at h1 h2
  have h1 : (x - 0x2000#64).toNat < 2 := h1
  have h2 : (x - 0x1000#64).toNat < 8 := h2
  bv_omega

/-- A complete call that returns 0 (hypotheses of `returns_zero_atomic`). -/
theorem ex_call_zero : ∃ s0 es s1, WholeCall (fun _ => exSite) (fun _ => 0#8) 0 0
    (frame0 0 .cpuId 3#32 exOp (fun _ => 0#8)) (st1 (fun _ => 0#8) true 3#32 1#32) s0 es s1 0 := by
  obtain ⟨s0, es, s1, r, h, hr⟩ := call_exists (T := fun _ => exSite) (by decide) 0 .cpuId 3#32 exOp
    (fun _ => 0#8) true 3#32 1#32 rfl rfl (exOp_ok _) exOp_tidy (by simp)
  have : r = 0 := by
    have := congrArg Prod.fst hr
    rw [if_pos (by rfl)] at this
    exact this
  subst this
  exact ⟨s0, es, s1, h⟩

/-- A complete call that returns 1 (hypotheses of `returns_one_compare_failed`). -/
theorem ex_call_one : ∃ s0 es s1, WholeCall (fun _ => exSite) (fun _ => 1#8) 0 0
    (frame0 0 .mmCid 1#32 exOp (fun _ => 1#8)) (st1 (fun _ => 1#8) true 3#32 1#32) s0 es s1 1 := by
  obtain ⟨s0, es, s1, r, h, hr⟩ := call_exists (T := fun _ => exSite) (by decide) 0 .mmCid 1#32 exOp
    (fun _ => 1#8) true 3#32 1#32 rfl rfl (exOp_ok _) exOp_tidy (by simp)
  have : r = 1 := by
    have := congrArg Prod.fst hr
    rw [if_pos (by rfl)] at this
    exact this
  subst this
  exact ⟨s0, es, s1, h⟩

/-- A complete call on the wrong CPU, and one by a thread that is not registered: both return -1. -/
theorem ex_call_abort (reg : Bool) : ∃ s0 es s1, WholeCall (fun _ => exSite) (fun _ => 0#8) 0 0
    (frame0 0 .cpuId 2#32 exOp (fun _ => 0#8)) (st1 (fun _ => 0#8) reg 3#32 1#32) s0 es s1 (-1) := by
  obtain ⟨s0, es, s1, r, h, hr⟩ := call_exists (T := fun _ => exSite) (by decide) 0 .cpuId 2#32 exOp
    (fun _ => 0#8) reg 3#32 1#32 rfl rfl (exOp_ok _) exOp_tidy
    (by intro h; subst h; simp [th1, Thread.fv])
  have : r = -1 := by
    have := congrArg Prod.fst hr
    rw [if_neg (by cases reg <;> simp [th1, Thread.fv])] at this
    exact this
  subst this
  exact ⟨s0, es, s1, h⟩

/-- Memory with the byte 7 at 0x3000. -/
def exMem : Mem 8 := fun x => if x = 0x3000#64 then 7#8 else 0#8

set_option maxRecDepth 2000 in
/-- **A call aborted by a migration.**  The thread runs on CPU 3 up to the last instruction before the final
store, both bytes copied, is preempted, gets CPU 5, and the call returns -1: the attempt target has been
written, the variable has not. -/
theorem ex_call_migrated : ∃ s0 es s1, WholeCall (fun _ => exSite) exMem 0 0
    (frame0 0 .cpuId 3#32 exOp exMem) (st1 exMem true 3#32 1#32) s0 es s1 (-1) ∧
    s1.mem 0x2000#64 = 7#8 ∧ s1.mem 0x1000#64 = 0#8 ∧ (s1.th 0).kcpu = 5#32 := by
  have a1 : Alone (st1 exMem true 3#32 1#32 : State 8) 0 := by
    intro u hu; simp [st1, upd, hu, thread0]
  have hset := entry_setup (n := 8) (by decide) .aarch64 exOp 3#32
  have hb : Step (fun _ => exSite) (st1 exMem true 3#32 1#32) 0
      (.invoke (frame0 0 .cpuId 3#32 exOp exMem))
      ((st1 exMem true 3#32 1#32).set 0 { (st1 exMem true 3#32 1#32 : State 8).th 0 with
        top := some (frame0 0 .cpuId 3#32 exOp exMem) }) := by
    refine .invoke _ ?_ ?_ ?_ ?_
    · simp [st1, upd, th1]
    · simp [st1, upd, th1, thread0]
    · exact ⟨rfl, rfl, rfl, rfl, rfl, hset, exOp_ok _, exOp_tidy⟩
    · intro h; simp [st1, upd, th1] at h
  have hI := ((st1_reach (T := fun _ => exSite) exMem true 3#32 1#32).inv (by decide)).step (by decide) hb
    a1.polite
  obtain ⟨es, s1, f', b1, b2, b3, b4, b5, b6, b7, b8, b9⟩ := solo (T := fun _ => exSite) (t := 0) (d := 0)
    (fv := 3#32) (p := exSite.prog)
    (s0 := (st1 exMem true 3#32 1#32).set 0 { (st1 exMem true 3#32 1#32 : State 8).th 0 with
        top := some (frame0 0 .cpuId 3#32 exOp exMem) }) 17
    ((st1 exMem true 3#32 1#32).set 0 { (st1 exMem true 3#32 1#32 : State 8).th 0 with
        top := some (frame0 0 .cpuId 3#32 exOp exMem) }) [] (frame0 0 .cpuId 3#32 exOp exMem) _ _ .nil
    (by intro u hu; simp [State.set, upd, hu, st1, thread0])
    (by simp [State.set, upd, st1, th1]) (by simp [State.set, upd, st1, th1, thread0])
    (by simp [State.set, upd]) rfl rfl rfl
  have hpc : f'.l.pc = .at 13 := by rw [b6]; decide
  have hz : zone exSite.prog (.at 13) = .body := by decide
  have hI1 := (b1.events (by decide) hI).1
  have hrng := ((hI1.th 0).top f' b5).rng (.inr (by rw [hpc]; exact hz))
  have hreg : (s1.th 0).reg = true := by
    cases hx : (s1.th 0).reg with
    | true => rfl
    | false => have := (hrng.unreg hx).1; rw [hpc, hz] at this; simp at this
  have hcs := (hrng.regd hreg).2.1
  -- preempted, resumed on CPU 5
  have c1 := b1.cons (Step.preempt b3) b2.polite (by
    rw [frameAt_top (by simp [State.set, upd, b4])]; simp [State.set, upd, b5])
  have al2 : Alone (s1.set 0 { s1.th 0 with run := false }) 0 := by
    intro u hu; simp [State.set, upd, hu, b2 u hu]
  have hfix : ∀ x : Thread 8, x.top = some f' → x.reg = true → x.cs = some f'.pid →
      fixTop (fun _ => exSite) x =
        some { f' with l := { f'.l with pc := .at 15 } } := by
    intro x h1 h2 h3
    unfold fixTop
    rw [h1]
    dsimp only
    rw [hpc]
    dsimp only
    rw [if_pos ⟨h2, h3, by decide, by decide⟩]
    rfl
  have c2 := c1.cons (Step.resume 5#32 1#32 (by simp [State.set, upd]) (by
    intro u hu hr; rw [al2 u hu] at hr; simp at hr)) al2.polite (by
    rw [frameAt_top (by simp [State.set, upd, b4])]
    simp only [State.set, updT_same]
    rw [hfix { s1.th 0 with run := false } b5 hreg hcs]; rfl)
  have c3 := c2.cons (Step.exec (T := fun _ => exSite) (t := 0)
    { f' with l := { f'.l with pc := .at 15 } } 15 (.jmp (.ret (-1)))
    { f'.l with pc := .ret (-1) } s1.mem
    (by simp [State.set, upd]) (by
      simp only [State.set, updT_same]
      exact hfix { s1.th 0 with run := false } b5 hreg hcs) rfl rfl
    (by simp [exec, State.set])) (by
      refine Alone.polite ?_
      intro u hu; simp [State.set, upd, hu, b2 u hu]) (by
    rw [frameAt_top (by simp [State.set, upd, b4])]
    simp [upd])
  refine ⟨_, _, _, ⟨st1_reach exMem true 3#32 1#32, hb, a1.polite, ?_, c3, ?_, ?_⟩, ?_, ?_, ?_⟩
  · simp [st1, upd, th1, thread0]
  · simp [State.set, upd, b4]
  · exact ⟨_, congrArg Thread.top (updT_same _ _ _), rfl⟩
  · show s1.mem 0x2000#64 = 7#8
    rw [b9]; decide
  · show s1.mem 0x1000#64 = 0#8
    rw [b9]; decide
  · simp [State.set, upd]

/-! ### F3 and F26: the checks that a thread without registration passes -/

/-- **F3, F26.**  The negation of C37 as worded ("always fail on non-registered threads"): at every site
and for every helper, a thread that is not registered and passes `cpu = -1` in `cpu_id` mode or
`cpu = 0` in `mm_cid` mode gets through the check and has the full effect of the helper. -/
theorem unregistered_can_commit (hn : 4 ≤ n) (S : Site n) (op : Op n) (hk : S.kind = op.kind)
    (hok : CallOK S.arch S.al op) (fld : Fld) (cpu : BitVec 32)
    (hc : (fld = .cpuId ∧ cpu = BitVec.allOnes 32) ∨ (fld = .mmCid ∧ cpu = 0#32))
    (l : LSt n) (m : Mem n) (hs : Setup (clobbers S.arch op.kind) (signExt S.arch) S.al op cpu l) :
    Returns S.prog ((thread0 : Thread n).fv fld) (clobbers S.arch op.kind) l m
      (pseudo S.prog.be op m).1 (pseudo S.prog.be op m).2 := by
  have himp := helpers_implement_pseudocode hn _ S.rel S.be _ S.csa op _
    (by rw [← hk]; exact S.ok) hok cpu ((thread0 : Thread n).fv fld) l m hs
  refine himp.1 ?_
  rcases hc with ⟨rfl, rfl⟩ | ⟨rfl, rfl⟩ <;> rfl

/-- Increment of the counter at 0x1000. -/
def incOp : Op 8 := .addStore 0x1000#64 1#64

/-- **F3: lost update.**  Two threads without registration call `rseq_load_add_store__ptr` with `mm_cid`
mode and cpu 0 on aarch64.  The first is preempted between its load and its store (nothing aborts it), the
second increments; both calls return 0 but the counter has been incremented once. -/
theorem unregistered_lost_update :
    let p : Prog 8 := aarch64_addStore exAl false 0x8000#64
    let fv := (thread0 : Thread 8).mmCid
    let a := run p fv (p.commit - 1) (entry exInv incOp 0#32, fun _ => 0#8)
    let b := run p fv 20 (entry exInv incOp 0#32, a.2)
    let a' := run p fv 20 (a.1, b.2)
    b.1.pc = .ret 0 ∧ a'.1.pc = .ret 0 ∧ a.2 0x1000#64 = 0#8 ∧ b.2 0x1000#64 = 1#8 ∧
      a'.2 0x1000#64 = 1#8 := by
  refine ⟨?_, ?_, ?_, ?_, ?_⟩ <;> decide

end Verif.Rseq
