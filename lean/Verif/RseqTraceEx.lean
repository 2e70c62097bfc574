import Verif.RseqTraceProps
/-
Executions for `RseqTraceProps.lean`, and the witness for F38: the pop helper of aarch64 hands out the value
it was told not to hand out.
-/

namespace Verif.Rseq

variable {n : Nat} {T : Nat → Site n}

/-- Undisturbed execution of `k` instructions in the middle of a call, with other threads running. -/
theorem soloR {t d : Nat} {s0 : State n} {fv : BitVec 32} {p : Prog n} : ∀ (k : Nat) (s : State n)
    (es : List (Ev n)) (f : Frame n) (l' : LSt n) (m' : Mem n), RCall T t d s0 es s →
    (s.th t).run = true → (s.th t).saved.length = d → (s.th t).top = some f →
    (T f.pid).prog = p → (s.th t).fv f.fld = fv → run p fv k (f.l, s.mem) = (l', m') →
    ∃ es' s' f', RCall T t d s0 es' s' ∧ (∀ u, u ≠ t → s'.th u = s.th u) ∧ (s'.th t).run = true ∧
      (s'.th t).saved.length = d ∧ (s'.th t).top = some f' ∧ f'.l = l' ∧ f'.pid = f.pid ∧
      f'.fld = f.fld ∧ (s'.th t).fv f'.fld = fv ∧ s'.mem = m' := by
  intro k
  induction k with
  | zero =>
    intro s es f l' m' hc hr hd ht hp hfv h
    simp only [run, Prod.mk.injEq] at h
    exact ⟨es, s, f, hc, fun _ _ => rfl, hr, hd, ht, h.1, rfl, rfl, hfv, h.2⟩
  | succ k ih =>
    intro s es f l' m' hc hr hd ht hp hfv h
    rw [run] at h
    have stay : step p fv (f.l, s.mem) = (f.l, s.mem) → ∃ es' s' f', RCall T t d s0 es' s' ∧
        (∀ u, u ≠ t → s'.th u = s.th u) ∧
        (s'.th t).run = true ∧ (s'.th t).saved.length = d ∧ (s'.th t).top = some f' ∧ f'.l = l' ∧
        f'.pid = f.pid ∧ f'.fld = f.fld ∧ (s'.th t).fv f'.fld = fv ∧ s'.mem = m' := by
      intro hs
      rw [hs] at h
      exact ih s es f l' m' hc hr hd ht hp hfv h
    cases hpc : f.l.pc with
    | ret r => exact stay (by simp [step, hpc])
    | «at» i =>
      cases hcd : p.code[i]? with
      | none => exact stay (by simp [step, hpc, hcd])
      | some ins =>
        have hs : step p fv (f.l, s.mem) = exec p fv i ins f.l s.mem := by simp [step, hpc, hcd]
        rw [hs] at h
        obtain ⟨l1, m1, he⟩ : ∃ l1 m1, exec p fv i ins f.l s.mem = (l1, m1) := ⟨_, _, rfl⟩
        rw [he] at h
        have hstep := Step.exec (T := T) (s := s) (t := t) f i ins l1 m1 hr ht hpc
          (by rw [hp]; exact hcd) (by rw [hp, hfv]; exact he)
        have hcall := hc.cons hstep (by
          rw [frameAt_top (by dsimp only; rw [updT_same]; exact hd.symm)]
          dsimp only; rw [updT_same]; rfl)
        obtain ⟨es', s', f', a1, a2, a3, a4, a5, a6, a7, a8, a9⟩ := ih _ _
          { f with
              l := l1
              foot := fun x => touched ins f.l x ∨ f.foot x
              last := if memFree ins = true then f.last else m1
              commits := if i + 1 = (T f.pid).prog.commit then f.commits + 1 else f.commits
              ep := if isCs ins = true then (s.th t).ev else f.ep } l' m' hcall
          (by dsimp only; rw [updT_same]; exact hr)
          (by dsimp only; rw [updT_same]; exact hd)
          (by dsimp only; rw [updT_same])
          hp (by dsimp only; rw [updT_same]; rw [← hfv]; cases f.fld <;> rfl) h
        exact ⟨es', s', f', a1, fun u hu => (a2 u hu).trans (updT_other _ _ hu), a3, a4, a5, a6, a7, a8, a9⟩

/-- Thread 0 registered on CPU 3, thread 1 (not registered) on CPU 5. -/
def st2 (m0 : Mem n) : State n :=
  { mem := m0, th := upd (st1 m0 true 3#32 1#32).th 1 { thread0 with run := true, kcpu := 5#32, kcid := 2#32, ev := 1 } }

theorem st2_reach (m0 : Mem n) : AnyReach T m0 (st2 m0) := by
  have h := (st1_reach (T := T) m0 true 3#32 1#32).any.step
    (Step.resume (t := 1) 5#32 2#32 (by simp [st1, upd, thread0]) (by
      intro u hu hr
      by_cases h0 : u = 0
      · subst h0; simp [st1, upd, th1]
      · simp [st1, upd, h0, thread0] at hr))
  have e : (st1 m0 true 3#32 1#32 : State n).set 1 { (st1 m0 true 3#32 1#32 : State n).th 1 with
        run := true, top := fixTop T ((st1 m0 true 3#32 1#32 : State n).th 1)
        cs := fixCs ((st1 m0 true 3#32 1#32 : State n).th 1), kcpu := 5#32, kcid := 2#32
        cpuId := if ((st1 m0 true 3#32 1#32 : State n).th 1).reg = true then 5#32
          else ((st1 m0 true 3#32 1#32 : State n).th 1).cpuId
        mmCid := if ((st1 m0 true 3#32 1#32 : State n).th 1).reg = true then 2#32
          else ((st1 m0 true 3#32 1#32 : State n).th 1).mmCid
        ev := ((st1 m0 true 3#32 1#32 : State n).th 1).ev + 1 } = st2 m0 := by
    simp only [State.set, st2]
    congr 1
  rw [e] at h
  exact h

/-- **A call with a race.**  Thread 0, on CPU 3, calls a helper and executes `k1` instructions; then thread 1,
on CPU 5, changes memory to `m1`; then thread 0 executes `k2` instructions, which lead to a return.  `l1`, `l2`: the
states in between, as the undisturbed machine of `RseqMachine.lean` computes them. -/
theorem raced_call (hn : 4 ≤ n) (pid : Nat) (op : Op n) (m0 m1 : Mem n)
    (hk : (T pid).kind = op.kind) (hal : (T pid).al = exAl) (hok : CallOK (T pid).arch (T pid).al op)
    (ht : Tidy op) (k1 k2 : Nat) {l1 l2 : LSt n} {mm m2 : Mem n} {r : Int}
    (h1 : run (T pid).prog 3#32 k1 (entry exInv op 3#32, m0) = (l1, mm))
    (h2 : run (T pid).prog 3#32 k2 (l1, m1) = (l2, m2)) (hr : l2.pc = .ret r) :
    ∃ s0 es s1, RaceCall T m0 0 0 (frame0 pid .cpuId 3#32 op m0) (st2 m0) s0 es s1 r ∧ s1.mem = m2 := by
  have hset : Setup (clobbers (T pid).arch op.kind) (signExt (T pid).arch) (T pid).al op 3#32
      (entry exInv op 3#32) := by rw [hal]; exact entry_setup hn (T pid).arch op 3#32
  have hb : Step T (st2 m0) 0 (.invoke (frame0 pid .cpuId 3#32 op m0))
      ((st2 m0).set 0 { (st2 m0 : State n).th 0 with top := some (frame0 pid .cpuId 3#32 op m0) }) := by
    refine .invoke _ ?_ ?_ ?_ ?_
    · simp [st2, st1, upd, th1]
    · simp [st2, st1, upd, th1, thread0]
    · exact ⟨rfl, rfl, rfl, rfl, hk, hset, hok, ht⟩
    · intro h; simp [st2, st1, upd, th1] at h
  obtain ⟨es, s, f, b1, b2, b3, b4, b5, b6, b7, b8, b8', b9⟩ := soloR (T := T) (t := 0) (d := 0)
    (fv := 3#32) (p := (T pid).prog)
    (s0 := (st2 m0).set 0 { (st2 m0 : State n).th 0 with top := some (frame0 pid .cpuId 3#32 op m0) }) k1
    ((st2 m0).set 0 { (st2 m0 : State n).th 0 with top := some (frame0 pid .cpuId 3#32 op m0) }) []
    (frame0 pid .cpuId 3#32 op m0) _ _ .nil
    (by simp [State.set, upd, st2, st1, th1]) (by simp [State.set, upd, st2, st1, th1, thread0])
    (by simp [State.set, upd]) rfl rfl h1
  have h10 : (1 : Nat) ≠ 0 := by decide
  have e1 : (s.th 1).run = true ∧ (s.th 1).top = none := by
    rw [b2 1 h10]; simp [State.set, upd, st2, thread0]
  have hu : Step T s 1 .user { s with mem := m1 } := .user m1 e1.1 e1.2
  have hc := b1.cons hu (by show (frameAt (s.th 0) 0).isSome; rw [frameAt_top b4.symm, b5]; rfl)
  obtain ⟨es', s', f', c1, c2, c3, c4, c5, c6, c7, c8, c8', c9⟩ := soloR (T := T) (t := 0) (d := 0)
    (fv := 3#32) (p := (T pid).prog) k2 { s with mem := m1 } _ f l2 m2 hc b3 b4 b5 (by rw [b7]; rfl) b8'
    (by rw [b6]; exact h2)
  refine ⟨_, es', s', ⟨st2_reach m0, hb, ?_, c1, c4, f', c5, ?_⟩, c9⟩
  · simp [st2, st1, upd, th1, thread0]
  · rw [c6]; exact hr

/-- aarch64, `rseq_load_cbeq_store_add_load_store`. -/
def racePop : Site 8 where
  arch := .aarch64
  kind := .cbeqStoreAddLoadStore
  rel := false
  be := false
  al := exAl
  csa := 0x8000#64
  prog := aarch64_cbeqStoreAddLoadStore exAl false 0x8000#64
  ok := rfl

/-- Pop from the list whose head is at 0x1000 unless it is NULL; the link is at offset 8; the element goes to
0x2000. -/
def racePopOp : Op 8 := .cbeqStoreAddLoadStore 0x1000#64 0#64 8#64 0x2000#64

/-- The list has one element, at 0x40; the byte at 0x2000 is 0xff. -/
def raceMem : Mem 8 := fun x => if x = 0x1000#64 then 0x40#8 else if x = 0x2000#64 then 0xff#8 else 0#8

/-- The same memory after another thread has emptied the list. -/
def raceMem1 : Mem 8 := fun x => if x = 0x2000#64 then 0xff#8 else 0#8

theorem popOp_tidy : Tidy racePopOp := by
  intro x h1 h2
  simp only [InWord] at h1 h2
  have h1 : (x - 0x2000#64).toNat < 8 := h1
  have h2 : (x - 0x1000#64).toNat < 8 := h2
  bv_omega

set_option maxRecDepth 4000 in
/-- **F38, the negation of C88 for aarch64.**  The list has one element.  Thread 0 on CPU 3 compares its head
with NULL; then a thread on another CPU empties the list; then thread 0 loads the head again.  The pop returns
0 (success) and hands out NULL, the value it was told not to hand out. -/
theorem pop_race_excluded : ∃ s0 es s1, RaceCall (fun _ => racePop) raceMem 0 0
    (frame0 0 .cpuId 3#32 racePopOp raceMem) (st2 raceMem) s0 es s1 0 ∧
    racePopOp.val .expectnot = some 0#64 ∧
    ldw racePop.prog.be raceMem 0x1000#64 = 0x40#64 ∧ ldw racePop.prog.be raceMem1 0x1000#64 = 0#64 ∧
    ldw racePop.prog.be raceMem 0x2000#64 = 0xff#64 ∧ ldw racePop.prog.be s1.mem 0x2000#64 = 0#64 := by
  obtain ⟨s0, es, s1, h, hm⟩ := raced_call (T := fun _ => racePop) (n := 8) (by decide) 0 racePopOp raceMem raceMem1
    rfl rfl trivial popOp_tidy 7 5 rfl rfl (r := 0) (by decide)
  refine ⟨s0, es, s1, h, rfl, by decide, by decide, by decide, ?_⟩
  rw [hm]
  decide

def racePopR : Site 8 where
  arch := .riscv
  kind := .cbeqStoreAddLoadStore
  rel := false
  be := false
  al := exAl
  csa := 0x8000#64
  prog := riscv_cbeqStoreAddLoadStore exAl false 0x8000#64
  ok := rfl

set_option maxRecDepth 4000 in
/-- The same for riscv. -/
theorem pop_race_excluded_riscv : ∃ s0 es s1, RaceCall (fun _ => racePopR) raceMem 0 0
    (frame0 0 .cpuId 3#32 racePopOp raceMem) (st2 raceMem) s0 es s1 0 ∧
    ldw racePopR.prog.be s1.mem 0x2000#64 = 0#64 := by
  obtain ⟨s0, es, s1, h, hm⟩ := raced_call (T := fun _ => racePopR) (n := 8) (by decide) 0 racePopOp raceMem raceMem1
    rfl rfl trivial popOp_tidy 5 6 rfl rfl (r := 0) (by decide)
  refine ⟨s0, es, s1, h, ?_⟩
  rw [hm]
  decide

def racePopP : Site 8 where
  arch := .ppc
  kind := .cbeqStoreAddLoadStore
  rel := false
  be := false
  al := exAl
  csa := 0x8000#64
  prog := ppc_cbeqStoreAddLoadStore exAl false 0x8000#64
  ok := rfl

set_option maxRecDepth 4000 in
/-- The same for ppc. -/
theorem pop_race_excluded_ppc : ∃ s0 es s1, RaceCall (fun _ => racePopP) raceMem 0 0
    (frame0 0 .cpuId 3#32 racePopOp raceMem) (st2 raceMem) s0 es s1 0 ∧
    ldw racePopP.prog.be s1.mem 0x2000#64 = 0#64 := by
  obtain ⟨s0, es, s1, h, hm⟩ := raced_call (T := fun _ => racePopP) (n := 8) (by decide) 0 racePopOp raceMem raceMem1
    rfl rfl trivial popOp_tidy 7 5 rfl rfl (r := 0) (by decide)
  refine ⟨s0, es, s1, h, ?_⟩
  rw [hm]
  decide

/-- On the architectures that load the head once this cannot happen: the same race on x86_64, same memory,
hands out the element. -/
def racePopX : Site 8 where
  arch := .x86_64
  kind := .cbeqStoreAddLoadStore
  rel := false
  be := false
  al := exAl
  csa := 0x8000#64
  prog := x86_64_cbeqStoreAddLoadStore exAl false 0x8000#64
  ok := rfl

set_option maxRecDepth 4000 in
theorem ex_pop_race_x86 : ∃ s0 es s1, RaceCall (fun _ => racePopX) raceMem 0 0
    (frame0 0 .cpuId 3#32 racePopOp raceMem) (st2 raceMem) s0 es s1 0 ∧
    ldw racePopX.prog.be s1.mem 0x2000#64 = 0x40#64 := by
  obtain ⟨s0, es, s1, h, hm⟩ := raced_call (T := fun _ => racePopX) (n := 8) (by decide) 0 racePopOp raceMem raceMem1
    rfl rfl trivial popOp_tidy 6 6 rfl rfl (r := 0) (by decide)
  refine ⟨s0, es, s1, h, ?_⟩
  rw [hm]
  decide

/-! ### The hypotheses of `RseqTraceProps.lean` are met -/

/-- A call that returns 1, and what it has seen. -/
example : ∃ s0 es s1, RaceCall (fun _ => exSite) (fun _ => 1#8) 0 0 (frame0 0 .mmCid 1#32 exOp (fun _ => 1#8))
    (st1 (fun _ => 1#8) true 3#32 1#32) s0 es s1 1 ∧ ∃ e ∈ es, Own 0 0 e ∧ On 0 .mmCid 1#32 e.s ∧
      pseudo exSite.prog.be exOp e.s.mem = (1, e.s.mem) := by
  obtain ⟨s0, es, s1, h⟩ := ex_call_one
  exact ⟨s0, es, s1, h.race, race_one_observed (by decide) h.race⟩

/-- The raced memory copy of `ex_race`: its comparison and its two bytes. -/
example : ∃ s0 es s1, RaceCall (fun _ => exSite) exMem 0 0 (frame0 0 .cpuId 3#32 exOp exMem)
    (st1 exMem true 3#32 1#32) s0 es s1 0 ∧
    (∃ e ∈ es, Own 0 0 e ∧ On 0 .cpuId 3#32 e.s ∧ ldw exSite.prog.be e.s.mem 0x1000#64 = 0#64) ∧
    (∀ i < 2, ∃ e ∈ es, Own 0 0 e ∧ On 0 .cpuId 3#32 e.s ∧ ∃ e' ∈ es, Own 0 0 e' ∧ On 0 .cpuId 3#32 e'.s ∧
      e'.s'.mem = fun a => if a = 0x2000#64 + BitVec.ofNat 64 i then e.s.mem (0x3000#64 + BitVec.ofNat 64 i)
        else e'.s.mem a) := by
  obtain ⟨s0, es, s1, h, -⟩ := ex_race
  refine ⟨s0, es, s1, h, (race_zero_compared (by decide) h).1 _ _ rfl rfl, fun i hi => ?_⟩
  exact race_copy (by decide) h rfl i hi

/-- An aborted call. -/
example : ∃ s0 es s1, RaceCall (fun _ => exSite) exMem 0 0 (frame0 0 .cpuId 3#32 exOp exMem)
    (st1 exMem true 3#32 1#32) s0 es s1 (-1) ∧ ∃ ord as rest, IsOrder exOp ord ∧
      Trace exSite.prog.be 0 0 .cpuId 3#32 es as ∧ Runs (exOp.tree false ord) as rest ∧ rest ≠ .ret 0 := by
  obtain ⟨s0, es, s1, h, -⟩ := ex_call_migrated
  obtain ⟨ord, as, rest, h1, h2, h3, -, h5⟩ := race_trace_pseudocode (by decide) h.race (fun _ => nofun)
  exact ⟨s0, es, s1, h.race, ord, as, rest, h1, h2, h3, h5 rfl⟩

/-- The pops above. -/
example : ∃ s0 es s1, RaceCall (fun _ => racePopX) raceMem 0 0 (frame0 0 .cpuId 3#32 racePopOp raceMem) (st2 raceMem)
    s0 es s1 0 ∧ ∃ a, a ≠ 0#64 ∧ ∃ e ∈ es, Own 0 0 e ∧ On 0 .cpuId 3#32 e.s ∧
      e.s'.mem = stw racePopX.prog.be e.s.mem 0x2000#64 a := by
  obtain ⟨s0, es, s1, h, -⟩ := ex_pop_race_x86
  obtain ⟨a, b, h1, -, h2, -⟩ := race_pop_partial (by decide) h (rfl : racePopOp = _) rfl
  exact ⟨s0, es, s1, h, a, h1, h2⟩

example : ∃ s0 es s1, RaceCall (fun _ => racePop) raceMem 0 0 (frame0 0 .cpuId 3#32 racePopOp raceMem) (st2 raceMem)
    s0 es s1 0 ∧ ∃ a0, a0 ≠ 0#64 ∧ ∃ e ∈ es, Own 0 0 e ∧ On 0 .cpuId 3#32 e.s ∧
      ldw racePop.prog.be e.s.mem 0x1000#64 = a0 := by
  obtain ⟨s0, es, s1, h, -⟩ := pop_race_excluded
  obtain ⟨a0, a, b, h1, h2, -⟩ := race_pop_reread (by decide) h (rfl : racePopOp = _) rfl
  exact ⟨s0, es, s1, h, a0, h1, h2⟩

/-- riscv, `rseq_load_add_store`. -/
def raceAdd : Site 8 where
  arch := .riscv
  kind := .addStore
  rel := false
  be := false
  al := exAl
  csa := 0x8000#64
  prog := riscv_addStore exAl false 0x8000#64
  ok := rfl

set_option maxRecDepth 4000 in
/-- A raced add: another CPU writes 9 between load and store, and the increment overwrites it. -/
theorem ex_race_add : ∃ s0 es s1, RaceCall (fun _ => raceAdd) raceMem 0 0
    (frame0 0 .cpuId 3#32 (.addStore 0x1000#64 2#64) raceMem) (st2 raceMem) s0 es s1 0 ∧
    ldw raceAdd.prog.be s1.mem 0x1000#64 = 0x42#64 := by
  obtain ⟨s0, es, s1, h, hm⟩ := raced_call (T := fun _ => raceAdd) (n := 8) (by decide) 0
    (.addStore 0x1000#64 2#64) raceMem (fun x => if x = 0x1000#64 then 9#8 else 0#8)
    rfl rfl trivial trivial 4 6 rfl rfl (r := 0) (by decide)
  refine ⟨s0, es, s1, h, ?_⟩
  rw [hm]
  decide

example : ∃ s0 es s1, RaceCall (fun _ => raceAdd) raceMem 0 0
    (frame0 0 .cpuId 3#32 (.addStore 0x1000#64 2#64) raceMem) (st2 raceMem) s0 es s1 0 ∧
    ∃ e ∈ es, Own 0 0 e ∧ On 0 .cpuId 3#32 e.s ∧ ∃ e' ∈ es, Own 0 0 e' ∧ On 0 .cpuId 3#32 e'.s ∧
      e'.s'.mem = stw raceAdd.prog.be e'.s.mem 0x1000#64 (ldw raceAdd.prog.be e.s.mem 0x1000#64 + 2#64) := by
  obtain ⟨s0, es, s1, h, -⟩ := ex_race_add
  exact ⟨s0, es, s1, h, race_add (by decide) h rfl⟩

/-- x86_64, `rseq_load_add_load_load_add_store`. -/
def raceDeref : Site 8 where
  arch := .x86_64
  kind := .addLoadLoadAddStore
  rel := false
  be := false
  al := exAl
  csa := 0x8000#64
  prog := x86_64_addLoadLoadAddStore exAl false 0x8000#64
  ok := rfl

example : ∃ s0 es s1, RaceCall (fun _ => raceDeref) raceMem 0 0
    (frame0 0 .cpuId 3#32 (.addLoadLoadAddStore 0x1000#64 8#64 1#64) raceMem) (st2 raceMem) s0 es s1 0 ∧
    ∃ a b c, (∃ e ∈ es, Own 0 0 e ∧ On 0 .cpuId 3#32 e.s ∧ ldw raceDeref.prog.be e.s.mem (a + 8#64) = b) ∧
      ∃ e ∈ es, Own 0 0 e ∧ On 0 .cpuId 3#32 e.s ∧ e.s'.mem = stw raceDeref.prog.be e.s.mem b (c + 1#64) := by
  obtain ⟨s0, es, s1, h, -⟩ := raced_call (T := fun _ => raceDeref) (n := 8) (by decide) 0
    (.addLoadLoadAddStore 0x1000#64 8#64 1#64) raceMem raceMem1
    rfl rfl trivial trivial 4 8 rfl rfl (r := 0) (by decide)
  obtain ⟨a, b, c, -, h1, -, h2⟩ := race_deref (by decide) h rfl
  exact ⟨s0, es, s1, h, a, b, c, h1, h2⟩

end Verif.Rseq
