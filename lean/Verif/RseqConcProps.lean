import Verif.RseqCall
/-
Properties of the helpers under preemption, migration, signals and other threads.
-/

namespace Verif.Rseq

variable {n : Nat}

/-- A complete call in an execution from memory `m0`: thread `t` calls a helper (`f0` holds the arguments)
in state `sb` while `d` signal handlers are pending; `s0` is the state after the call instruction, `es`
are the steps of all threads and of the kernel until the helper is about to return `r`, in state `s1`. -/
structure WholeCall (T : Nat → Site n) (m0 : Mem n) (t d : Nat) (f0 : Frame n) (sb s0 : State n)
    (es : List (Ev n)) (s1 : State n) (r : Int) : Prop where
  reach : PReach T m0 sb
  begin_ : Step T sb t (.invoke f0) s0
  polite : Polite T sb t s0
  depth : (sb.th t).saved.length = d
  mid : Call T t d s0 es s1
  top : (s1.th t).saved.length = d
  ret : ∃ f, (s1.th t).top = some f ∧ f.l.pc = .ret r

variable {T : Nat → Site n} {m0 : Mem n} {t d : Nat} {f0 : Frame n} {sb s0 s1 : State n}
  {es : List (Ev n)} {r : Int}

theorem invoke_frame (h : Step T sb t (.invoke f0) s0) :
    (s0.th t).top = some f0 ∧ (s0.th t).saved = (sb.th t).saved ∧ Starts T f0 sb.mem ∧
    (s0.th t).reg = (sb.th t).reg ∧ s0.mem = sb.mem := by
  cases h with
  | invoke _ hr ht hf hu => simp [State.set, upd]; exact hf

theorem WholeCall.facts (hn : 4 ≤ n) (h : WholeCall T m0 t d f0 sb s0 es s1 r) :
    Inv T s1 ∧ ∃ f, (s1.th t).top = some f ∧ f.l.pc = .ret r ∧ CF T t d f0 s0 es True f := by
  obtain ⟨h1, h2, h3, -, -⟩ := invoke_frame h.begin_
  have hI := (h.reach.inv hn).step hn h.begin_ h.polite
  have hz : zone (T f0.pid).prog f0.l.pc = .pre := by
    rw [h3.l, h3.setup.pc, zone_pre_iff]; have := (T f0.pid).facts.start1; omega
  obtain ⟨hI1, f, hf, hcf⟩ := Call.cf hn hI
    (by rw [frameAt_top (by rw [h2]; exact h.depth.symm)]; exact h1) hz h3.commits h.mid
  rw [frameAt_top h.top.symm] at hf
  obtain ⟨g, hg, hr⟩ := h.ret
  rw [hf] at hg
  injection hg with hg
  subst hg
  refine ⟨hI1, f, hf, hr, ?_⟩
  refine ⟨hcf.pid, hcf.fld, hcf.cpu, hcf.op, hcf.l0, hcf.still, hcf.only, hcf.comm, ?_, hcf.neq⟩
  intro _ hz; rw [hr] at hz; simp [zone] at hz

/-- The only return values. -/
theorem return_values (hn : 4 ≤ n) (h : WholeCall T m0 t d f0 sb s0 es s1 r) :
    r = 0 ∨ r = 1 ∨ r = -1 := by
  obtain ⟨hI, f, hf, hr, -⟩ := h.facts hn
  exact ((hI.th t).top f hf).done r (by rw [hr]; rfl)

/-- **C32.** If the call returns 0 then one of its instructions, executed while the thread is registered
and on the requested CPU, takes memory in a single step from a state `m` to exactly what the pseudo-code
computes on `m`; the instructions of the call before it modify at most the documented attempt targets
(`v2`, `dst`, `load`), those after it modify nothing.  The steps in `es` are arbitrary: preemptions,
migrations, signals with handlers that call helpers, instructions of any number of other threads. -/
theorem returns_zero_atomic (hn : 4 ≤ n) (h : WholeCall T m0 t d f0 sb s0 es s1 0) :
    ∃ es1 e es2, es = es1 ++ e :: es2 ∧ Own t d e ∧
      pseudo (T f0.pid).prog.be f0.op e.s.mem = (0, e.s'.mem) ∧ On t f0.fld f0.cpu e.s ∧
      (∀ e' ∈ es1, Own t d e' → e'.s'.mem = e'.s.mem) ∧
      (∀ e' ∈ es2, Own t d e' → ∀ a, ¬ targets f0.op a → e'.s'.mem a = e'.s.mem a) := by
  obtain ⟨hI, f, hf, hr, hcf⟩ := h.facts hn
  exact hcf.comm (((hI.th t).top f hf).post (by rw [hr]; exact .inr rfl)).2

/-- **C33.** If the call returns -1, no instruction of it modified anything but the documented attempt
targets. -/
theorem returns_abort_no_commit (hn : 4 ≤ n) (h : WholeCall T m0 t d f0 sb s0 es s1 (-1)) :
    ∀ e ∈ es, Own t d e → ∀ a, ¬ targets f0.op a → e.s'.mem a = e.s.mem a := by
  obtain ⟨hI, f, hf, hr, hcf⟩ := h.facts hn
  exact hcf.only (((hI.th t).top f hf).abt (by rw [hr]; exact .inr rfl))

/-- The variable `*v` of a call. -/
def Op.v : Op n → Option (W n)
  | .cbneStore v _ _ => some v
  | .cbeqStoreAddLoadStore v _ _ _ => some v
  | .addStore v _ => some v
  | .addLoadLoadAddStore _ _ _ => none
  | .cbneCbneStore v _ _ _ _ => some v
  | .cbneStoreStore v _ _ _ _ => some v
  | .cbneMemcpyStore v _ _ _ _ _ => some v

/-- **C33**, the committed variable: its bytes are not modified by an aborted call. -/
theorem returns_abort_variable (hn : 4 ≤ n) (h : WholeCall T m0 t d f0 sb s0 es s1 (-1)) (v : W n)
    (hv : f0.op.v = some v) :
    ∀ e ∈ es, Own t d e → ∀ a, InWord v a → e.s'.mem a = e.s.mem a := by
  intro e he ho a ha
  refine returns_abort_no_commit hn h e he ho a fun ht => ?_
  have htidy := (invoke_frame h.begin_).2.2.1.tidy
  revert ht htidy hv
  cases f0.op <;> simp only [Op.v, targets, Tidy, Option.some.injEq] <;> intro hv ht htidy <;>
    first | exact hv.elim | (subst hv; exact htidy a ht ha) | simp at hv | exact ht.elim

/-- **C34.** If the call returns 1 then no instruction of it modified memory at all, and there was a state
during the call in which the thread was running, registered, on the requested CPU, and in which the
pseudo-code returns 1. -/
theorem returns_one_compare_failed (hn : 4 ≤ n) (h : WholeCall T m0 t d f0 sb s0 es s1 1) :
    (∀ e ∈ es, Own t d e → e.s'.mem = e.s.mem) ∧
    ∃ sx ∈ sts s0 es, On t f0.fld f0.cpu sx ∧
      pseudo (T f0.pid).prog.be f0.op sx.mem = (1, sx.mem) := by
  obtain ⟨hI, f, hf, hr, hcf⟩ := h.facts hn
  have hz : zone (T f0.pid).prog f.l.pc = .done 1 := by rw [hr]; rfl
  exact ⟨hcf.still (.inr (.inr (.inr (.inl hz)))), hcf.neq (.inr hz)⟩

/-- What the pseudo-code's value 1 means for the variables. -/
theorem pseudo_one_iff (be : Bool) (op : Op n) (m : Mem n) :
    pseudo be op m = (1, m) ↔
      match op with
      | .cbneStore v expect _ => ldw be m v ≠ expect
      | .cbeqStoreAddLoadStore v expectnot _ _ => ldw be m v = expectnot
      | .addStore _ _ => False
      | .addLoadLoadAddStore _ _ _ => False
      | .cbneCbneStore v expect v2 expect2 _ => ldw be m v ≠ expect ∨ ldw be m v2 ≠ expect2
      | .cbneStoreStore v expect _ _ _ => ldw be m v ≠ expect
      | .cbneMemcpyStore v expect _ _ _ _ => ldw be m v ≠ expect := by
  cases op <;> simp only [pseudo] <;> (repeat' split) <;> simp_all

theorem Call.mem_sts {t d : Nat} (h : Call T t d s0 es s1) : s1 ∈ sts s0 es ∧
    ∀ e ∈ es, e.s ∈ sts s0 es := by
  induction h with
  | nil => exact ⟨by simp [sts], by simp⟩
  | cons h hs hp hin ih =>
    refine ⟨by simp [sts], ?_⟩
    intro e he
    rcases List.mem_cons.1 he with rfl | he
    · exact List.mem_cons_of_mem _ ih.1
    · exact List.mem_cons_of_mem _ (ih.2 e he)

/-- **C36.** A call during which the thread is never running on the requested CPU returns -1. -/
theorem never_on_cpu_aborts (hn : 4 ≤ n) (h : WholeCall T m0 t d f0 sb s0 es s1 r)
    (hno : ∀ sx ∈ sts s0 es, ¬ On t f0.fld f0.cpu sx) : r = -1 := by
  rcases return_values hn h with rfl | rfl | rfl
  · obtain ⟨es1, e, es2, h1, -, -, h4, -, -⟩ := returns_zero_atomic hn h
    exact absurd h4 (hno _ (h.mid.mem_sts.2 e (by rw [h1]; simp)))
  · obtain ⟨-, sx, h1, h2, -⟩ := returns_one_compare_failed hn h
    exact absurd h2 (hno _ h1)
  · rfl

/-- **C36.** In every reachable state, a thread about to execute the final store of a helper is registered,
the kernel's CPU number (or concurrency id) for it is the requested one, and there has been no kernel
intervention (preemption, migration, signal) since the helper stored its descriptor, before the check. -/
theorem commit_on_cpu (hn : 4 ≤ n) {s : State n} (h : PReach T m0 s) {f : Frame n} {i : Nat}
    (hrun : (s.th t).run = true) (ht : (s.th t).top = some f) (hp : f.l.pc = .at i)
    (hz : zone (T f.pid).prog (.at i) = .body) :
    On t f.fld f.cpu s ∧ f.ep = (s.th t).ev ∧ (s.th t).cs = some f.pid := by
  have hI := h.inv hn
  have hi := (hI.th t).top f ht
  have hrng := hi.rng (by rw [hp]; exact .inr hz)
  have hreg : (s.th t).reg = true := by
    cases hx : (s.th t).reg with
    | true => rfl
    | false => have := (hrng.unreg hx).1; rw [hp, hz] at this; simp at this
  obtain ⟨-, r2, r3⟩ := hrng.regd hreg
  obtain ⟨r4, r5, -⟩ := r3 hrun
  have hfv := Rep.cpu_eq (T f.pid).facts (hi.base.impl hn) hi.base.setup r5
    (.inl (by rw [hp]; exact hz))
  refine ⟨⟨hrun, hreg, ?_⟩, r4, r2⟩
  have := (hI.th t).flds hreg hrun
  rw [← hfv]
  cases f.fld <;> simp [Thread.fv, Thread.kv, this.1, this.2]

/-- Two running threads are never both between check and commit for the same CPU. -/
theorem sections_exclusive (hn : 4 ≤ n) {s : State n} (h : PReach T m0 s) {t u : Nat} {f g : Frame n}
    {i j : Nat} (hrt : (s.th t).run = true) (hru : (s.th u).run = true)
    (ht : (s.th t).top = some f) (hu : (s.th u).top = some g) (hpf : f.l.pc = .at i)
    (hpg : g.l.pc = .at j) (hzf : zone (T f.pid).prog (.at i) = .body)
    (hzg : zone (T g.pid).prog (.at j) = .body) (hfl : f.fld = g.fld) (hcpu : f.cpu = g.cpu) :
    t = u := by
  apply Decidable.byContradiction
  intro hne
  have h1 := (commit_on_cpu hn h hrt ht hpf hzf).1.kv
  have h2 := (commit_on_cpu hn h hru hu hpg hzg).1.kv
  have h3 := (h.inv hn).cpus t u hne hrt hru
  rw [← hfl, ← hcpu, ← h1] at h2
  revert h2
  cases f.fld <;> simp only [Thread.kv] <;> intro h2
  · exact h3.1 h2.symm
  · exact h3.2 h2.symm

theorem Call.reg {t d : Nat} (h : Call T t d s0 es s1) (hf : (frameAt (s0.th t) d).isSome) :
    (frameAt (s1.th t) d).isSome ∧ (∀ sx ∈ sts s0 es, (sx.th t).reg = (s0.th t).reg) ∧
    (s1.th t).reg = (s0.th t).reg := by
  induction h with
  | nil => exact ⟨hf, by simp [sts], rfl⟩
  | @cons es s s' u lab h hs hp hin ih =>
    obtain ⟨i1, i2, i3⟩ := ih
    have key : (s'.th t).reg = (s.th t).reg := by
      by_cases hu : u = t
      · subst hu
        have bad : (s.th u).top = none → (∀ f ∈ (s.th u).saved, f = none) → False := by
          intro h1 h2
          obtain ⟨f, hf⟩ := Option.isSome_iff_exists.1 i1
          by_cases hd : d = (s.th u).saved.length
          · rw [frameAt_top hd, h1] at hf; simp at hf
          · have := h2 _ (frameAt_mem hd hf); simp at this
        cases hs with
        | register hr ht hs hn => exact (bad ht hs).elim
        | unregister hr ht hs hn => exact (bad ht hs).elim
        | _ => simp [State.set, upd]
      · rw [hs.other hu]
    refine ⟨hin, ?_, key.trans i3⟩
    intro sx hx
    rcases List.mem_cons.1 hx with rfl | hx
    · exact key.trans i3
    · exact i2 sx hx

/-- An instruction executed by a thread that is not registered does not modify memory. -/
theorem unregistered_step {s s' : State n} (hI : Inv T s) (hs : Step T s t .exec s')
    (hreg : (s.th t).reg = false) : s'.mem = s.mem := by
  cases hs with
  | exec f i ins l' m' hr ht hp hc he =>
    have hi := (hI.th t).top f ht
    have Z := (T f.pid).facts
    have hm' : m' = (Rseq.exec (T f.pid).prog ((s.th t).fv f.fld) i ins f.l s.mem).2 := by rw [he]
    have free : memFree ins = true → m' = s.mem := fun hm => by
      rw [hm']; exact (exec_memFree hm (T f.pid).prog ((s.th t).fv f.fld) i f.l s.mem s.mem).1
    show m' = s.mem
    rcases zone_at_cases Z (i := i) with ⟨hz, -⟩|⟨hz, -⟩|⟨hz, -⟩|⟨hz, -⟩|⟨hz, -⟩|⟨hz, -⟩|⟨hz, -⟩
    · exact free (pre_step Z hc hz (fv := 0#32) (l := f.l) (m := s.mem)).1
    · exact free (chk_step Z hc hz (fv := 0#32) (l := f.l) (m := s.mem)).1
    · have := ((hi.rng (.inr (by rw [hp]; exact hz))).unreg hreg).1
      rw [hp, hz] at this; simp at this
    · have := (hi.post (.inl (by rw [hp]; exact hz))).1
      rw [hreg] at this; simp at this
    · exact free (abt_step Z hc hz (fv := 0#32) (l := f.l) (m := s.mem)).1
    · exact free (neq_step Z hc hz (fv := 0#32) (l := f.l) (m := s.mem)).1
    · exact absurd (by rw [hp]; exact hz) hi.out

theorem Call.events (hn : 4 ≤ n) {t d : Nat} (hI : Inv T s0) (h : Call T t d s0 es s1) :
    Inv T s1 ∧ ∀ e ∈ es, Inv T e.s ∧ Step T e.s e.who e.lab e.s' := by
  induction h with
  | nil => exact ⟨hI, by simp⟩
  | cons h hs hp hin ih =>
    refine ⟨ih.1.step hn hs hp, ?_⟩
    intro e he
    rcases List.mem_cons.1 he with rfl | he
    · exact ⟨ih.1, hs⟩
    · exact ih.2 e he

/-- **C37**, with the exceptions F3 and F26 (which are the hypothesis `Step.invoke.hu`): a call by a thread
that is not registered returns -1 and modifies no memory. -/
theorem unregistered_aborts_partial (hn : 4 ≤ n) (h : WholeCall T m0 t d f0 sb s0 es s1 r)
    (hreg : (sb.th t).reg = false) :
    r = -1 ∧ ∀ e ∈ es, Own t d e → e.s'.mem = e.s.mem := by
  obtain ⟨h1, h2, -, h4, -⟩ := invoke_frame h.begin_
  have hr := h.mid.reg (by rw [frameAt_top (by rw [h2]; exact h.depth.symm), h1]; rfl)
  have hall : ∀ sx ∈ sts s0 es, (sx.th t).reg = false := by
    intro sx hx; rw [hr.2.1 sx hx, h4, hreg]
  constructor
  · refine never_on_cpu_aborts hn h fun sx hx ho => ?_
    have := hall sx hx
    rw [ho.reg] at this
    simp at this
  · intro e he ho
    have hev := (h.mid.events hn ((h.reach.inv hn).step hn h.begin_ h.polite)).2 e he
    obtain ⟨s, who, lab, s'⟩ := e
    obtain ⟨rfl, o2, -⟩ := ho
    dsimp only at o2 hev ⊢
    cases lab <;> simp at o2
    exact unregistered_step hev.1 hev.2 (hall _ (h.mid.mem_sts.2 _ he))

/-- The CPU fields of a thread that is not registered: -1 and 0.  So the hypothesis of `Step.invoke`
excludes exactly `cpu = -1` in `cpu_id` mode (F26) and `cpu = 0` in `mm_cid` mode (F3). -/
theorem unregistered_fields (hn : 4 ≤ n) {s : State n} (h : PReach T m0 s) (t : Nat)
    (hr : (s.th t).reg = false) (fl : Fld) (cpu : BitVec 32) :
    (s.th t).fv fl ≠ cpu ↔ (fl = .cpuId → cpu ≠ BitVec.allOnes 32) ∧ (fl = .mmCid → cpu ≠ 0#32) := by
  have := ((h.inv hn).th t).unreg hr
  cases fl <;> simp only [Thread.fv, this.1, this.2] <;> simp <;> exact ⟨fun h e => h e.symm, fun h e => h e.symm⟩

/-! ### C43: stale descriptors -/

/-- **C43.** If the kernel redirects a thread to the abort handler of a helper, then the thread was between
the descriptor store and the commit of that very call, and the descriptor is the one this call stored:
no kernel intervention happened since (so it is not left over from an earlier call). -/
theorem redirect_only_in_section (hn : 4 ≤ n) {s : State n} (h : PReach T m0 s) {f g : Frame n}
    (ht : (s.th t).top = some f) (hg : fixTop T (s.th t) = some g) (hne : g ≠ f) :
    (s.th t).reg = true ∧
    (zone (T f.pid).prog f.l.pc = .chk ∨ zone (T f.pid).prog f.l.pc = .body) ∧
    f.commits = 0 ∧ ((s.th t).run = true → f.ep = (s.th t).ev) ∧
    g = { f with l := { f.l with pc := .at (T f.pid).prog.abort } } := by
  have hI := h.inv hn
  have hi := (hI.th t).top f ht
  have Z := (T f.pid).facts
  have h0 := hg
  unfold fixTop at hg
  rw [ht] at hg
  dsimp only at hg
  cases hpc : f.l.pc with
  | ret r => rw [hpc] at hg; injection hg with hg; exact absurd hg.symm hne
  | «at» i =>
    rw [hpc] at hg
    dsimp only at hg
    by_cases hc : (s.th t).reg = true ∧ (s.th t).cs = some f.pid ∧ (T f.pid).prog.start ≤ i ∧
        i < (T f.pid).prog.commit
    · obtain ⟨c1, c2, c3, c4⟩ := hc
      have hz : zone (T f.pid).prog (.at i) = .chk ∨ zone (T f.pid).prog (.at i) = .body := by
        have := Z.sc; have := Z.cc; have := Z.ca; have := Z.an; have := Z.nl
        rcases zone_at_cases Z (i := i) with h'|h'|h'|h'|h'|h'|h' <;>
          first | exact .inl h'.1 | exact .inr h'.1 | omega
      have hrng := hi.rng (by rw [hpc]; exact hz)
      rcases hi.fixCases ht h0 with ⟨hgf, -⟩ | ⟨hcm, hgf⟩
      · exact absurd hgf hne
      · exact ⟨c1, hz, hcm, fun hr => ((hrng.regd c1).2.2 hr).1, hgf⟩
    · rw [if_neg hc] at hg
      injection hg with hg
      exact absurd hg.symm hne

/-- **C43.** A thread that is not inside a helper is never redirected, whatever its `rseq_cs` contains. -/
theorem outside_never_redirected {s : State n} (ht : (s.th t).top = none) :
    fixTop T (s.th t) = none := fixTop_none ht

/-- Executions in which thread `t` executes no helper instruction. -/
inductive NoHelper (T : Nat → Site n) (t : Nat) (s : State n) : State n → Prop
  | refl : NoHelper T t s s
  | step {s1 s2 : State n} {u : Nat} {lab : Lab n} (h : NoHelper T t s s1) (hs : Step T s1 u lab s2)
      (hl : u = t → match lab with | .exec => False | _ => True) : NoHelper T t s s2

/-- **C43.** After `rseq_prepare_unload()` the thread's `rseq_cs` refers to no descriptor, and it stays so
until the thread executes a helper again. -/
theorem prepare_unload_clears {s s' s'' : State n} (h : Step T s t .clear s')
    (hq : NoHelper T t s' s'') : (s''.th t).cs = none := by
  induction hq with
  | refl => cases h; simp [State.set, upd]
  | @step s1 s2 u lab hq hs hl ih =>
    by_cases hu : u = t
    · subst hu
      cases hs with
      | exec => exact (hl rfl).elim
      | resume => simp [State.set, upd, fixCs, ih]
      | signal => simp [State.set, upd, fixCs, ih]
      | user => exact ih
      | _ => simp [State.set, upd, ih]
    · rw [hs.other hu]; exact ih

end Verif.Rseq
