import Verif.RseqRaceCall
/-
C61: what remains true of a helper when other threads race with it on its data.
-/

namespace Verif.Rseq

variable {n : Nat}

/-- A complete call as in `WholeCall`, in an execution with arbitrary steps of all threads. -/
structure RaceCall (T : Nat → Site n) (m0 : Mem n) (t d : Nat) (f0 : Frame n) (sb s0 : State n)
    (es : List (Ev n)) (s1 : State n) (r : Int) : Prop where
  reach : AnyReach T m0 sb
  begin_ : Step T sb t (.invoke f0) s0
  depth : (sb.th t).saved.length = d
  mid : RCall T t d s0 es s1
  top : (s1.th t).saved.length = d
  ret : ∃ f, (s1.th t).top = some f ∧ f.l.pc = .ret r

variable {T : Nat → Site n} {m0 : Mem n} {t d : Nat} {f0 : Frame n} {sb s0 s1 : State n}
  {es : List (Ev n)} {r : Int}

theorem WholeCall.race (h : WholeCall T m0 t d f0 sb s0 es s1 r) : RaceCall T m0 t d f0 sb s0 es s1 r :=
  ⟨h.reach.any, h.begin_, h.depth, h.mid.race, h.top, h.ret⟩

theorem RaceCall.facts (hn : 4 ≤ n) (h : RaceCall T m0 t d f0 sb s0 es s1 r) :
    AInv T s1 ∧ ∃ f, (s1.th t).top = some f ∧ f.l.pc = .ret r ∧ RF T t d f0 es f := by
  obtain ⟨h1, h2, h3, -, -⟩ := invoke_frame h.begin_
  have hz : zone (T f0.pid).prog f0.l.pc = .pre := by
    rw [h3.l, h3.setup.pc, zone_pre_iff]; have := (T f0.pid).facts.start1; omega
  obtain ⟨hR1, f, hf, hcf⟩ := RCall.rf hn (h.reach.step h.begin_)
    (by rw [frameAt_top (by rw [h2]; exact h.depth.symm)]; exact h1) hz h3.commits h.mid
  rw [frameAt_top h.top.symm] at hf
  obtain ⟨g, hg, hr⟩ := h.ret
  rw [hf] at hg
  injection hg with hg
  subst hg
  exact ⟨hR1.inv hn, f, hf, hr, hcf⟩

/-- The only return values, whatever the other threads do. -/
theorem race_return_values (hn : 4 ≤ n) (h : RaceCall T m0 t d f0 sb s0 es s1 r) :
    r = 0 ∨ r = 1 ∨ r = -1 := by
  obtain ⟨hI, f, hf, hr, -⟩ := h.facts hn
  exact ((hI.th t).top f hf).done r (by rw [hr]; rfl)

/-- **C61.** In every reachable state of every execution, an instruction of a helper that modifies a byte is
between CPU check and commit, the thread is registered, on the requested CPU and has not been interrupted
since it stored the descriptor; if the instruction is not the final store, the byte is one of the documented
attempt targets (`v2`, `dst`, `load`), and if it is, the byte belongs to `*v`. -/
theorem race_store_confined (hn : 4 ≤ n) {s s' : State n} (h : AnyReach T m0 s)
    (hs : Step T s t .exec s') {a : W n} (ha : s'.mem a ≠ s.mem a) :
    ∃ f i, (s.th t).top = some f ∧ f.l.pc = .at i ∧ zone (T f.pid).prog (.at i) = .body ∧
      On t f.fld f.cpu s ∧ f.ep = (s.th t).ev ∧
      (i + 1 ≠ (T f.pid).prog.commit → targets f.op a) ∧
      (i + 1 = (T f.pid).prog.commit → ∀ v, f.op.v = some v → InWord v a) := by
  have hI := h.inv hn
  cases hs with
  | exec f i ins l' m' hr ht hp hc he =>
    have hi := (hI.th t).top f ht
    have hm' : m' = (Rseq.exec (T f.pid).prog ((s.th t).fv f.fld) i ins f.l s.mem).2 := by rw [he]
    dsimp only at ha
    rw [hm'] at ha
    obtain ⟨h1, h2, h3⟩ := exec_writes hn hi ((h.keep t).1 f ht) hp hc _ _ a ha
    have hb := hi.body (by rw [hp]; exact h1)
    have hfl := (hI.th t).flds hb.reg hr
    refine ⟨f, i, ht, hp, h1, ⟨hr, hb.reg, ?_⟩, (hb.here hr).1, h2, h3⟩
    rw [← (hb.here hr).2]
    cases f.fld <;> simp [Thread.fv, Thread.kv, hfl.1, hfl.2]

/-- **C61** (C32 without its hypothesis on the other threads). If the call returns 0 then exactly one of
its instructions, executed while the thread is registered and on the requested CPU, is the final store: it
modifies nothing but `*v`, and stores exactly `newv` there if the helper has such an argument; the instructions of the call before it modify at most the documented attempt
targets, those after it modify nothing. -/
theorem race_returns_zero (hn : 4 ≤ n) (h : RaceCall T m0 t d f0 sb s0 es s1 0) :
    ∃ es1 e es2, es = es1 ++ e :: es2 ∧ Own t d e ∧ On t f0.fld f0.cpu e.s ∧
      (∀ v, f0.op.v = some v → ∀ a, ¬ InWord v a → e.s'.mem a = e.s.mem a) ∧
      (∀ v w, f0.op.v = some v → f0.op.val .newv = some w →
        e.s'.mem = stw (T f0.pid).prog.be e.s.mem v w) ∧
      (∀ e' ∈ es1, Own t d e' → e'.s'.mem = e'.s.mem) ∧
      (∀ e' ∈ es2, Own t d e' → ∀ a, ¬ targets f0.op a → e'.s'.mem a = e'.s.mem a) := by
  obtain ⟨hI, f, hf, hr, hcf⟩ := h.facts hn
  exact hcf.comm (((hI.th t).top f hf).post (by rw [hr]; exact .inr rfl)).2

/-- **C33 without its hypothesis on the other threads.** If the call returns -1, no instruction of it
modified anything but the documented attempt targets. -/
theorem race_returns_abort (hn : 4 ≤ n) (h : RaceCall T m0 t d f0 sb s0 es s1 (-1)) :
    ∀ e ∈ es, Own t d e → ∀ a, ¬ targets f0.op a → e.s'.mem a = e.s.mem a := by
  obtain ⟨hI, f, hf, hr, hcf⟩ := h.facts hn
  exact hcf.only (((hI.th t).top f hf).abt (by rw [hr]; exact .inr rfl))

/-- The same, for the variable: an aborted call does not modify `*v`. -/
theorem race_returns_abort_variable (hn : 4 ≤ n) (h : RaceCall T m0 t d f0 sb s0 es s1 (-1)) (v : W n)
    (hv : f0.op.v = some v) :
    ∀ e ∈ es, Own t d e → ∀ a, InWord v a → e.s'.mem a = e.s.mem a := by
  intro e he ho a ha
  refine race_returns_abort hn h e he ho a fun ht => ?_
  have htidy := (invoke_frame h.begin_).2.2.1.tidy
  revert ht htidy hv
  cases f0.op <;> simp only [Op.v, targets, Tidy, Option.some.injEq] <;> intro hv ht htidy <;>
    first | exact hv.elim | (subst hv; exact htidy a ht ha) | simp at hv | exact ht.elim

/-- **C34 without its hypothesis on the other threads.** If the call returns 1, no instruction of it
modified memory at all, and one of them was executed on the requested CPU by the registered thread. -/
theorem race_returns_one (hn : 4 ≤ n) (h : RaceCall T m0 t d f0 sb s0 es s1 1) :
    (∀ e ∈ es, Own t d e → e.s'.mem = e.s.mem) ∧ ∃ e ∈ es, Own t d e ∧ On t f0.fld f0.cpu e.s := by
  obtain ⟨hI, f, hf, hr, hcf⟩ := h.facts hn
  have hz : zone (T f0.pid).prog f.l.pc = .done 1 := by rw [hr]; rfl
  exact ⟨hcf.still (.inr (.inr (.inr (.inl hz)))), hcf.seen (.inr hz)⟩

theorem RCall.mem_sts {t d : Nat} (h : RCall T t d s0 es s1) : s1 ∈ sts s0 es ∧
    ∀ e ∈ es, e.s ∈ sts s0 es := by
  induction h with
  | nil => exact ⟨by simp [sts], by simp⟩
  | cons h hs hin ih =>
    refine ⟨by simp [sts], ?_⟩
    intro e he
    rcases List.mem_cons.1 he with rfl | he
    · exact List.mem_cons_of_mem _ ih.1
    · exact List.mem_cons_of_mem _ (ih.2 e he)

/-- **C36 without its hypothesis on the other threads.** A call during which the thread is never running on
the requested CPU returns -1. -/
theorem race_never_on_cpu (hn : 4 ≤ n) (h : RaceCall T m0 t d f0 sb s0 es s1 r)
    (hno : ∀ sx ∈ sts s0 es, ¬ On t f0.fld f0.cpu sx) : r = -1 := by
  rcases race_return_values hn h with rfl | rfl | rfl
  · obtain ⟨es1, e, es2, h1, -, h4, -⟩ := race_returns_zero hn h
    exact absurd h4 (hno _ (h.mid.mem_sts.2 e (by rw [h1]; simp)))
  · obtain ⟨-, e, h1, -, h2⟩ := race_returns_one hn h
    exact absurd h2 (hno _ (h.mid.mem_sts.2 e h1))
  · rfl

/-- **C36 without its hypothesis on the other threads.** -/
theorem race_commit_on_cpu (hn : 4 ≤ n) {s : State n} (h : AnyReach T m0 s) {f : Frame n} {i : Nat}
    (hrun : (s.th t).run = true) (ht : (s.th t).top = some f) (hp : f.l.pc = .at i)
    (hz : zone (T f.pid).prog (.at i) = .body) :
    On t f.fld f.cpu s ∧ f.ep = (s.th t).ev ∧ (s.th t).cs = some f.pid := by
  have hI := h.inv hn
  have hb := ((hI.th t).top f ht).body (by rw [hp]; exact hz)
  have hfl := (hI.th t).flds hb.reg hrun
  refine ⟨⟨hrun, hb.reg, ?_⟩, (hb.here hrun).1, hb.cs⟩
  rw [← (hb.here hrun).2]
  cases f.fld <;> simp [Thread.fv, Thread.kv, hfl.1, hfl.2]

/-- Two running threads are never both between check and commit for the same CPU, whatever they do. -/
theorem race_sections_exclusive (hn : 4 ≤ n) {s : State n} (h : AnyReach T m0 s) {t u : Nat}
    {f g : Frame n} {i j : Nat} (hrt : (s.th t).run = true) (hru : (s.th u).run = true)
    (ht : (s.th t).top = some f) (hu : (s.th u).top = some g) (hpf : f.l.pc = .at i)
    (hpg : g.l.pc = .at j) (hzf : zone (T f.pid).prog (.at i) = .body)
    (hzg : zone (T g.pid).prog (.at j) = .body) (hfl : f.fld = g.fld) (hcpu : f.cpu = g.cpu) :
    t = u := by
  apply Decidable.byContradiction
  intro hne
  have h1 := (race_commit_on_cpu hn h hrt ht hpf hzf).1.kv
  have h2 := (race_commit_on_cpu hn h hru hu hpg hzg).1.kv
  have h3 := (h.inv hn).cpus t u hne hrt hru
  rw [← hfl, ← hcpu, ← h1] at h2
  revert h2
  cases f.fld <;> simp only [Thread.kv] <;> intro h2
  · exact h3.1 h2.symm
  · exact h3.2 h2.symm

theorem RCall.reg {t d : Nat} (h : RCall T t d s0 es s1) (hf : (frameAt (s0.th t) d).isSome) :
    (frameAt (s1.th t) d).isSome ∧ (∀ sx ∈ sts s0 es, (sx.th t).reg = (s0.th t).reg) ∧
    (s1.th t).reg = (s0.th t).reg := by
  induction h with
  | nil => exact ⟨hf, by simp [sts], rfl⟩
  | @cons es s s' u lab h hs hin ih =>
    obtain ⟨i1, i2, i3⟩ := ih
    have key : (s'.th t).reg = (s.th t).reg := by
      by_cases hu : u = t
      · subst hu
        have bad : (s.th u).top = none → (∀ f ∈ (s.th u).saved, f = none) → False := by
          intro h1 h2
          obtain ⟨f, hf⟩ := Option.isSome_iff_exists.1 i1
          by_cases hd : d = (s.th u).saved.length
          · rw [frameAt_top hd, h1] at hf; simp at hf
          · have := h2 _ (frameAt_mem hd hf); simp at this
        cases hs with
        | register hr ht hs hn => exact (bad ht hs).elim
        | unregister hr ht hs hn => exact (bad ht hs).elim
        | _ => simp [State.set, upd]
      · rw [hs.other hu]
    refine ⟨hin, ?_, key.trans i3⟩
    intro sx hx
    rcases List.mem_cons.1 hx with rfl | hx
    · exact key.trans i3
    · exact i2 sx hx

theorem RCall.events {t d : Nat} (hI : AnyReach T m0 s0) (h : RCall T t d s0 es s1) :
    AnyReach T m0 s1 ∧ ∀ e ∈ es, AnyReach T m0 e.s ∧ Step T e.s e.who e.lab e.s' := by
  induction h with
  | nil => exact ⟨hI, by simp⟩
  | cons h hs hin ih =>
    refine ⟨ih.1.step hs, ?_⟩
    intro e he
    rcases List.mem_cons.1 he with rfl | he
    · exact ⟨ih.1, hs⟩
    · exact ih.2 e he

/-- **C37 without its hypothesis on the other threads** (with the exceptions F3 and F26): a call by a
thread that is not registered returns -1 and modifies no memory. -/
theorem race_unregistered_partial (hn : 4 ≤ n) (h : RaceCall T m0 t d f0 sb s0 es s1 r)
    (hreg : (sb.th t).reg = false) :
    r = -1 ∧ ∀ e ∈ es, Own t d e → e.s'.mem = e.s.mem := by
  obtain ⟨h1, h2, -, h4, -⟩ := invoke_frame h.begin_
  have hr := h.mid.reg (by rw [frameAt_top (by rw [h2]; exact h.depth.symm), h1]; rfl)
  have hall : ∀ sx ∈ sts s0 es, (sx.th t).reg = false := by
    intro sx hx; rw [hr.2.1 sx hx, h4, hreg]
  constructor
  · refine race_never_on_cpu hn h fun sx hx ho => ?_
    have := hall sx hx
    rw [ho.reg] at this
    simp at this
  · intro e he ho
    have hev := (h.mid.events (h.reach.step h.begin_)).2 e he
    have hno := hall _ (h.mid.mem_sts.2 _ he)
    obtain ⟨s, who, lab, s'⟩ := e
    obtain ⟨rfl, o2, -⟩ := ho
    dsimp only at o2 hev hno ⊢
    cases lab <;> simp at o2
    funext a
    apply Decidable.byContradiction
    intro ha
    obtain ⟨f, i, -, -, -, hon, -⟩ := race_store_confined hn hev.1 hev.2 ha
    rw [hon.reg] at hno
    simp at hno

/-- **C43 without its hypothesis on the other threads.** -/
theorem race_redirect_only_in_section (hn : 4 ≤ n) {s : State n} (h : AnyReach T m0 s) {f g : Frame n}
    (ht : (s.th t).top = some f) (hg : fixTop T (s.th t) = some g) (hne : g ≠ f) :
    (s.th t).reg = true ∧
    (zone (T f.pid).prog f.l.pc = .chk ∨ zone (T f.pid).prog f.l.pc = .body) ∧
    f.commits = 0 ∧ ((s.th t).run = true → f.ep = (s.th t).ev) ∧
    g = { f with l := { f.l with pc := .at (T f.pid).prog.abort } } := by
  have hI := h.inv hn
  have hi := (hI.th t).top f ht
  have Z := (T f.pid).facts
  have h0 := hg
  unfold fixTop at hg
  rw [ht] at hg
  dsimp only at hg
  cases hpc : f.l.pc with
  | ret r => rw [hpc] at hg; injection hg with hg; exact absurd hg.symm hne
  | «at» i =>
    rw [hpc] at hg
    dsimp only at hg
    by_cases hc : (s.th t).reg = true ∧ (s.th t).cs = some f.pid ∧ (T f.pid).prog.start ≤ i ∧
        i < (T f.pid).prog.commit
    · obtain ⟨c1, c2, c3, c4⟩ := hc
      have hz : zone (T f.pid).prog (.at i) = .chk ∨ zone (T f.pid).prog (.at i) = .body := by
        have := Z.sc; have := Z.cc; have := Z.ca; have := Z.an; have := Z.nl
        rcases zone_at_cases Z (i := i) with h'|h'|h'|h'|h'|h'|h' <;>
          first | exact .inl h'.1 | exact .inr h'.1 | omega
      rcases hi.fixCases ht h0 with ⟨hgf, -⟩ | ⟨hcm, hgf⟩
      · exact absurd hgf hne
      · refine ⟨c1, hz, hcm, fun hr => ?_, hgf⟩
        rcases hz with hz | hz
        · exact (((hi.chk (by rw [hpc]; exact hz)).regd c1).2.2 hr).1
        · exact ((hi.body (by rw [hpc]; exact hz)).here hr).1
    · rw [if_neg hc] at hg
      injection hg with hg
      exact absurd hg.symm hne

/-! ### A race -/

theorem ldw_zero {m : Mem 8} {v : W 8} (h : ldw false m v = 0#64) : m v = 0#8 := by
  have h := congrArg BitVec.toNat h
  simp only [ldw, sumTo, pos, BitVec.toNat_ofNat, Bool.false_eq_true, if_false, BitVec.add_zero] at h
  have b := fun x => (m x).isLt
  have := b v
  have := b (v + BitVec.ofNat (8 * 8) 1)
  have := b (v + BitVec.ofNat (8 * 8) 2)
  have := b (v + BitVec.ofNat (8 * 8) 3)
  have := b (v + BitVec.ofNat (8 * 8) 4)
  have := b (v + BitVec.ofNat (8 * 8) 5)
  have := b (v + BitVec.ofNat (8 * 8) 6)
  have := b (v + BitVec.ofNat (8 * 8) 7)
  apply BitVec.eq_of_toNat_eq
  simp at h ⊢
  omega

/-- What the pseudo-code's success does to the first byte of the variable. -/
theorem exOp_success {m m' : Mem 8} (h : pseudo false exOp m = (0, m')) :
    m 0x1000#64 = 0#8 ∧ m' 0x1000#64 = 0x55#8 := by
  simp only [exOp, pseudo] at h
  split at h
  · cases h
  · rename_i hne
    simp only [ne_eq, Decidable.not_not] at hne
    refine ⟨ldw_zero hne, ?_⟩
    simp only [Prod.mk.injEq, true_and] at h
    rw [← h]
    rfl

/-- One more instruction of the call. -/
theorem RCall.own {s : State n} (hc : RCall T t d s0 es s) {f : Frame n} {i : Nat} {ins : Instr} {l' : LSt n}
    {m' : Mem n} (hr : (s.th t).run = true) (hd : (s.th t).saved.length = d)
    (ht : (s.th t).top = some f) (hp : f.l.pc = .at i) (hcd : (T f.pid).prog.code[i]? = some ins)
    (he : exec (T f.pid).prog ((s.th t).fv f.fld) i ins f.l s.mem = (l', m')) :
    ∃ s' f', RCall T t d s0 (⟨s, t, .exec, s'⟩ :: es) s' ∧ s'.mem = m' ∧ (s'.th t).run = true ∧
      (s'.th t).saved.length = d ∧ (s'.th t).top = some f' ∧ f'.l = l' ∧ f'.pid = f.pid := by
  refine ⟨_, _, hc.cons (.exec f i ins l' m' hr ht hp hcd he) ?_, rfl, ?_, ?_,
    congrArg Thread.top (updT_same _ _ _), rfl, rfl⟩
  · rw [frameAt_top (by dsimp only; rw [updT_same]; exact hd.symm)]
    dsimp only; rw [updT_same]; rfl
  · dsimp only; rw [updT_same]; exact hr
  · dsimp only; rw [updT_same]; exact hd

set_option maxRecDepth 4000 in
/-- **A racy execution.**  Thread 0 compares `*v` with the expected 0 and copies; before its final store,
thread 1 on another CPU writes 5 to `*v`; thread 0 stores `newv` and returns 0.  So C61 is about more
executions than C32, and C32 needs its hypothesis: in this call no instruction changes memory as the
pseudo-code does. -/
theorem ex_race : ∃ s0 es s1, RaceCall (fun _ => exSite) exMem 0 0
    (frame0 0 .cpuId 3#32 exOp exMem) (st1 exMem true 3#32 1#32) s0 es s1 0 ∧
    s1.mem 0x2000#64 = 7#8 ∧ s1.mem 0x1000#64 = 0x55#8 ∧
    ∀ e ∈ es, Own 0 0 e → pseudo exSite.prog.be exOp e.s.mem ≠ (0, e.s'.mem) := by
  have a1 : Alone (st1 exMem true 3#32 1#32 : State 8) 0 := by
    intro u hu; simp [st1, upd, hu, thread0]
  have hset := entry_setup (n := 8) (by decide) .aarch64 exOp 3#32
  have hb : Step (fun _ => exSite) (st1 exMem true 3#32 1#32) 0
      (.invoke (frame0 0 .cpuId 3#32 exOp exMem))
      ((st1 exMem true 3#32 1#32).set 0 { (st1 exMem true 3#32 1#32 : State 8).th 0 with
        top := some (frame0 0 .cpuId 3#32 exOp exMem) }) := by
    refine .invoke _ ?_ ?_ ?_ ?_
    · simp [st1, upd, th1]
    · simp [st1, upd, th1, thread0]
    · exact ⟨rfl, rfl, rfl, rfl, rfl, hset, exOp_ok _, exOp_tidy⟩
    · intro h; simp [st1, upd, th1] at h
  have hR0 := (st1_reach (T := fun _ => exSite) exMem true 3#32 1#32).any.step hb
  obtain ⟨es, s1, f', b1, b2, b3, b4, b5, b6, b7, b8, b9⟩ := solo (T := fun _ => exSite) (t := 0) (d := 0)
    (fv := 3#32) (p := exSite.prog)
    (s0 := (st1 exMem true 3#32 1#32).set 0 { (st1 exMem true 3#32 1#32 : State 8).th 0 with
        top := some (frame0 0 .cpuId 3#32 exOp exMem) }) 17
    ((st1 exMem true 3#32 1#32).set 0 { (st1 exMem true 3#32 1#32 : State 8).th 0 with
        top := some (frame0 0 .cpuId 3#32 exOp exMem) }) [] (frame0 0 .cpuId 3#32 exOp exMem) _ _ .nil
    (by intro u hu; simp [State.set, upd, hu, st1, thread0])
    (by simp [State.set, upd, st1, th1]) (by simp [State.set, upd, st1, th1, thread0])
    (by simp [State.set, upd]) rfl rfl rfl
  have hpc : f'.l.pc = .at 13 := by rw [b6]; decide
  have hz : zone exSite.prog (.at 13) = .body := by decide
  obtain ⟨hR1, g, hg, hrf⟩ := RCall.rf (by decide) hR0
    (frameAt_top (by simp [State.set, upd, st1, th1, thread0])) (by decide) rfl b1.race
  rw [frameAt_top b4.symm, b5] at hg
  simp only [Option.some.injEq] at hg
  subst hg
  have hbody := (((hR1.inv (by decide)).th 0).top f' b5).body (by rw [hpc]; exact hz)
  have honly := hrf.only hbody.commits
  -- thread 1 gets another CPU and writes the variable
  have h10 : (1 : Nat) ≠ 0 := by decide
  have e1 : Step (fun _ => exSite) s1 1 .resume _ :=
    .resume ((s1.th 0).kcpu + 1#32) ((s1.th 0).kcid + 1#32) (b2 1 h10) (by
      intro u hu hr
      by_cases h : u = 0
      · subst h
        constructor <;> intro h <;> bv_omega
      · rw [b2 u h] at hr; simp at hr)
  have c1 := b1.race.cons e1 (by rw [e1.other h10, frameAt_top b4.symm, b5]; rfl)
  obtain ⟨sr, hsr, hmr, hor, hrr⟩ : ∃ sr : State 8, sr = s1.set 1 { s1.th 1 with
      run := true, top := fixTop (fun _ => exSite) (s1.th 1), cs := fixCs (s1.th 1)
      kcpu := (s1.th 0).kcpu + 1#32, kcid := (s1.th 0).kcid + 1#32
      cpuId := if (s1.th 1).reg = true then (s1.th 0).kcpu + 1#32 else (s1.th 1).cpuId
      mmCid := if (s1.th 1).reg = true then (s1.th 0).kcid + 1#32 else (s1.th 1).mmCid
      ev := (s1.th 1).ev + 1 } ∧ sr.mem = s1.mem ∧ sr.th 0 = s1.th 0 ∧ (sr.th 1).run = true :=
    ⟨_, rfl, rfl, e1.other h10, by simp [State.set, upd]⟩
  rw [← hsr] at e1 c1
  have e1' : Step (fun _ => exSite) sr 1 .signal _ := .signal hrr
  have c1' := c1.cons e1' (by rw [e1'.other h10, hor, frameAt_top b4.symm, b5]; rfl)
  obtain ⟨s2, hs2, hm2, ho2, hr2, ht2⟩ : ∃ s2 : State 8, s2 = sr.set 1 { sr.th 1 with
      top := none, saved := fixTop (fun _ => exSite) (sr.th 1) :: (sr.th 1).saved
      cs := fixCs (sr.th 1), ev := (sr.th 1).ev + 1 } ∧ s2.mem = s1.mem ∧ s2.th 0 = s1.th 0 ∧
      (s2.th 1).run = true ∧ (s2.th 1).top = none :=
    ⟨_, rfl, hmr, (e1'.other h10).trans hor, by simp [State.set, upd, hrr], by simp [State.set, upd]⟩
  rw [← hs2] at e1' c1'
  have e2 : Step (fun _ => exSite) s2 1 .user
      { s2 with mem := fun x => if x = 0x1000#64 then 5#8 else s2.mem x } := .user _ hr2 ht2
  have c2 := c1'.cons e2 (by
    show (frameAt (s2.th 0) 0).isSome; rw [ho2, frameAt_top b4.symm, b5]; rfl)
  -- thread 0 executes the final store and returns
  obtain ⟨l3, m3, he3⟩ : ∃ l3 m3, exec exSite.prog ((s2.th 0).fv f'.fld) 13 (.stl (exAl .newv) (exAl .v))
    f'.l (fun x => if x = 0x1000#64 then 5#8 else s2.mem x) = (l3, m3) := ⟨_, _, rfl⟩
  have hval := final_value (((hR1.inv (by decide)).th 0).top f' b5) ((hR1.keep 0).1 f' b5)
    (hR1.loaded 0 b5) hpc (ins := .stl (exAl .newv) (exAl .v)) rfl rfl 0x1000#64 0x55#64
    (by rw [hrf.op]; rfl) (by rw [hrf.op]; rfl) ((s2.th 0).fv f'.fld)
    (fun x => if x = 0x1000#64 then 5#8 else s2.mem x)
  rw [he3] at hval
  dsimp only at hval
  have hl3 : l3.pc = .at 14 := by
    have := congrArg Prod.fst he3
    dsimp only at this
    rw [← this]
    rfl
  obtain ⟨s3, f3, c3, g1, g2, g3, g4, g5, g6⟩ := c2.own (by show (s2.th 0).run = true; rw [ho2]; exact b3)
    (by show (s2.th 0).saved.length = _; rw [ho2]; exact b4)
    (by show (s2.th 0).top = _; rw [ho2]; exact b5) hpc rfl he3
  obtain ⟨s4, f4, c4, k1, k2, k3, k4, k5, k6⟩ := c3.own (i := 14) (ins := .jmp (.ret 0))
    (l' := { l3 with pc := .ret 0 }) (m' := m3) g2 g3 g4 (by rw [g5]; exact hl3) rfl
    (by rw [g5, g1]; rfl)
  refine ⟨_, _, s4, ⟨(st1_reach exMem true 3#32 1#32).any, hb, ?_, c4, k3, f4, k4, by rw [k5]⟩, ?_, ?_, ?_⟩
  · simp [st1, upd, th1, thread0]
  · rw [k1, hval, stw_other _ _ _ _ _ (by unfold InWord; decide)]
    show s2.mem 0x2000#64 = 7#8
    rw [hm2, b9]; decide
  · rw [k1, hval]; rfl
  · intro e he ho hps
    obtain ⟨p1, p2⟩ := exOp_success hps
    simp only [List.mem_cons] at he
    rcases he with rfl | rfl | rfl | rfl | rfl | he
    · dsimp only at p1 p2
      rw [k1] at p2; rw [g1, p2] at p1; cases p1
    · dsimp only at p1
      rw [if_pos rfl] at p1; cases p1
    · exact absurd ho.1 h10
    · exact absurd ho.1 h10
    · exact absurd ho.1 h10
    · have := honly e he ho 0x1000#64 (by
        show ¬ InRange _ _ _
        unfold InRange
        decide)
      rw [this, p1] at p2; cases p2

end Verif.Rseq
