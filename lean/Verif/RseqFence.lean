import Verif.RseqRaceCall
/-
A barrier that interrupts a CPU (`membarrier` with `MEMBARRIER_CMD_PRIVATE_EXPEDITED_RSEQ`), and the
critical sections that start after it.
-/

namespace Verif.Rseq

variable {n : Nat}

/-- Steps from `s0` on, latest event first. -/
inductive Run (T : Nat → Site n) (s0 : State n) : List (Ev n) → State n → Prop
  | nil : Run T s0 [] s0
  | cons {es : List (Ev n)} {s s' : State n} {u : Nat} {lab : Lab n} (h : Run T s0 es s)
      (hs : Step T s u lab s') : Run T s0 (⟨s, u, lab, s'⟩ :: es) s'

variable {T : Nat → Site n} {m0 : Mem n}

theorem Run.reach {s0 s : State n} {es : List (Ev n)} (h0 : AnyReach T m0 s0) (h : Run T s0 es s) :
    AnyReach T m0 s := by
  induction h with
  | nil => exact h0
  | cons _ hs ih => exact ih.step hs

theorem Run.trans {a b c : State n} {es es' : List (Ev n)} (h1 : Run T a es b) (h2 : Run T b es' c) :
    Run T a (es' ++ es) c := by
  induction h2 with
  | nil => exact h1
  | cons _ hs ih => exact .cons ih hs

/-- A thread whose event count is unchanged and which is running has been running all the time, on the
same CPU. -/
theorem Run.steady {x s : State n} {es : List (Ev n)} (h : Run T x es s) (t : Nat) :
    (x.th t).ev ≤ (s.th t).ev ∧ ((s.th t).ev = (x.th t).ev →
      ((s.th t).run = true → (x.th t).run = true) ∧ (s.th t).kcpu = (x.th t).kcpu ∧
      (s.th t).kcid = (x.th t).kcid) := by
  induction h with
  | nil => exact ⟨Nat.le_refl _, fun _ => ⟨id, rfl, rfl⟩⟩
  | @cons es s s' u lab h hs ih =>
    by_cases hu : u = t
    · subst hu
      cases hs with
      | exec f i ins l' m' hr ht hp hc he =>
        simp only [upd, if_true]
        exact ih
      | user m' hr ht => exact ih
      | preempt hr =>
        simp only [State.set, upd, if_true]
        exact ⟨ih.1, fun e => ⟨fun h => by simp at h, (ih.2 e).2⟩⟩
      | resume c k hr hd =>
        simp only [State.set, upd, if_true]
        exact ⟨by omega, fun e => by omega⟩
      | signal hr =>
        simp only [State.set, upd, if_true]
        exact ⟨by omega, fun e => by omega⟩
      | _ =>
        simp only [State.set, upd, if_true]
        exact ih
    · rw [hs.other hu]
      exact ih

/-- In the critical section: CPU check or body. -/
def InSection (T : Nat → Site n) (f : Frame n) : Prop :=
  zone (T f.pid).prog f.l.pc = .chk ∨ zone (T f.pid).prog f.l.pc = .body

/-- A running registered thread is in a critical section: its last step was an instruction of the same
section or the store of the descriptor. -/
theorem section_prev (hn : 4 ≤ n) {s s' : State n} {u t : Nat} {lab : Lab n} (hI : AInv T s)
    (hs : Step T s u lab s') {f' : Frame n} (ht' : (s'.th t).top = some f')
    (hrun : (s'.th t).run = true) (hreg : (s'.th t).reg = true) (hz : InSection T f') :
    (u ≠ t ∧ s'.th t = s.th t) ∨
    (u = t ∧ lab = .exec ∧ (s.th t).run = true ∧ (s.th t).reg = true ∧
      ∃ f i ins, (s.th t).top = some f ∧ f.l.pc = .at i ∧ (T f.pid).prog.code[i]? = some ins ∧
        f'.pid = f.pid ∧ f'.op = f.op ∧ f'.cpu = f.cpu ∧ f'.fld = f.fld ∧ f'.l0 = f.l0 ∧
        f'.l = (exec (T f.pid).prog ((s.th t).fv f.fld) i ins f.l s.mem).1 ∧
        (isCs ins = true ∨ (isCs ins = false ∧ InSection T f ∧ f'.ep = f.ep))) := by
  by_cases hu : u = t
  · subst hu
    have hx := hI.th u
    have hout : ∀ z, zone (T f'.pid).prog f'.l.pc = z → z ≠ .chk → z ≠ .body → False := by
      intro z h h1 h2
      rcases hz with hz | hz <;> rw [hz] at h <;> subst h <;> simp at h1 h2
    cases hs with
    | invoke f hr ht hf hg =>
      simp only [State.set, upd, if_true, Option.some.injEq] at ht'
      subst ht'
      exfalso
      have : zone (T f.pid).prog f.l.pc = .pre := by
        rw [hf.l, hf.setup.pc, zone_pre_iff]; have := (T f.pid).facts.start1; omega
      exact hout _ this (by simp) (by simp)
    | exec f i ins l' m' hr ht hp hc he =>
      simp only [upd, if_true, Option.some.injEq] at ht' hrun hreg
      right
      refine ⟨rfl, rfl, hr, hreg, f, i, ins, ht, hp, hc, ?_⟩
      have Z := (T f.pid).facts
      have hl' : l' = (Rseq.exec (T f.pid).prog ((s.th u).fv f.fld) i ins f.l s.mem).1 := by rw [he]
      subst ht'
      refine ⟨rfl, rfl, rfl, rfl, rfl, hl', ?_⟩
      cases hcs : isCs ins with
      | true => exact .inl rfl
      | false =>
        right
        refine ⟨rfl, ?_, by simp⟩
        dsimp only at hout
        rw [hl'] at hout
        unfold InSection
        rw [hp]
        rcases zone_at_cases Z (i := i) with h|h|h|h|h|h|h
        · obtain ⟨q1, q2, q3, q4, q5⟩ := pre_step Z hc h.1 (fv := (s.th u).fv f.fld) (l := f.l) (m := s.mem)
          rw [hcs] at q3
          have : i + 1 ≠ (T f.pid).prog.start := fun e => by have := q3.2 e; simp at this
          rw [q4, q5, if_neg this] at hout
          exact (hout _ rfl (by simp) (by simp)).elim
        · exact .inl h.1
        · exact .inr h.1
        · obtain ⟨q1, q2, q3⟩ := post_step Z hc h.1 (fv := (s.th u).fv f.fld) (l := f.l) (m := s.mem)
          rcases q3 with q3 | q3 <;> rw [q3] at hout <;> exact (hout _ rfl (by simp) (by simp)).elim
        · obtain ⟨q1, q2, q3⟩ := abt_step Z hc h.1 (fv := (s.th u).fv f.fld) (l := f.l) (m := s.mem)
          rcases q3 with q3 | q3 <;> rw [q3] at hout <;> exact (hout _ rfl (by simp) (by simp)).elim
        · obtain ⟨q1, q2, q3⟩ := neq_step Z hc h.1 (fv := (s.th u).fv f.fld) (l := f.l) (m := s.mem)
          rcases q3 with q3 | q3 <;> rw [q3] at hout <;> exact (hout _ rfl (by simp) (by simp)).elim
        · exact absurd (by rw [hp]; exact h.1) (hx.top f ht).out
    | ret f r hr ht hp => simp [State.set, upd] at ht'
    | user m' hr ht => simp [ht] at ht'
    | preempt hr => simp [State.set, upd] at hrun
    | resume c k hr hd =>
      simp only [State.set, upd, if_true] at ht' hreg
      exfalso
      obtain ⟨f, hf⟩ := fixTop_some ht'
      rcases (hx.top f hf).fixCases hf ht' with ⟨rfl, h2⟩ | ⟨-, rfl⟩
      · rcases hz with hz | hz
        · exact (h2 hreg).1 hz
        · exact (h2 hreg).2 hz
      · exact hout _ (zone_abort (T f.pid).facts) (by simp) (by simp)
    | signal hr => simp [State.set, upd] at ht'
    | sigret g rest hr ht hs =>
      simp only [State.set, upd, if_true] at ht' hreg
      subst ht'
      exfalso
      have hg := hx.saved f' (by rw [hs]; simp)
      rcases hz with hz | hz
      · exact ((hg.chk hz).regd hreg).1
      · exact (hg.body hz).top
    | register hr ht hs hn => simp [State.set, upd, ht] at ht'
    | unregister hr ht hs hn => simp [State.set, upd] at hreg
    | clear hr ht => simp [State.set, upd, ht] at ht'
  · exact .inl ⟨hu, hs.other hu⟩

/-- The event is the instruction of thread `t` that stores the descriptor of the critical section in which
`t` later is with frame `f`. -/
def StoresCs (T : Nat → Site n) (t : Nat) (f : Frame n) (e : Ev n) : Prop :=
  e.who = t ∧ e.lab = .exec ∧ ∃ g i ins, (e.s.th t).top = some g ∧ g.l.pc = .at i ∧
    (T g.pid).prog.code[i]? = some ins ∧ isCs ins = true ∧
    g.pid = f.pid ∧ g.op = f.op ∧ g.cpu = f.cpu ∧ g.fld = f.fld

/-- A section with a later event count began after `x`, and has been executed without interruption since. -/
theorem Run.section (hn : 4 ≤ n) {x s : State n} {es : List (Ev n)} (h0 : AnyReach T m0 x)
    (h : Run T x es s) {t : Nat} {f : Frame n} (ht : (s.th t).top = some f)
    (hrun : (s.th t).run = true) (hreg : (s.th t).reg = true) (hz : InSection T f)
    (hev : (x.th t).ev < (s.th t).ev) :
    ∃ es1 e es2, es = es1 ++ e :: es2 ∧ StoresCs T t f e ∧ ∀ e' ∈ es1, e'.who = t → e'.lab = .exec := by
  induction h generalizing f with
  | nil => omega
  | @cons es s s' u lab h hs ih =>
    have hI := (h.reach h0).inv hn
    rcases section_prev hn hI hs ht hrun hreg hz with ⟨hu, he⟩ | ⟨hu, hlab, hr, hg, g, i, ins, h1, h2, h3, h4, h5, h6, h7, h8, h9, h10⟩
    · rw [he] at ht hrun hreg hev
      obtain ⟨es1, e, es2, k1, k2, k3⟩ := ih ht hrun hreg hz hev
      refine ⟨_ :: es1, e, es2, by rw [k1]; rfl, k2, ?_⟩
      intro e' he' hw
      rcases List.mem_cons.1 he' with rfl | he'
      · exact absurd hw hu
      · exact k3 e' he' hw
    · subst hu
      subst hlab
      rcases h10 with h10 | ⟨h10, h11, h12⟩
      · exact ⟨[], _, es, rfl, ⟨rfl, rfl, g, i, ins, h1, h2, h3, h10, h4.symm, h5.symm, h6.symm, h7.symm⟩, by simp⟩
      · have hev' : (s'.th u).ev = (s.th u).ev := by
          cases hs; simp [upd]
        rw [hev'] at hev
        obtain ⟨es1, e, es2, k1, ⟨k2, k2', k4⟩, k3⟩ := ih h1 hr hg h11 hev
        refine ⟨_ :: es1, e, es2, by rw [k1]; rfl, ⟨k2, k2', ?_⟩, ?_⟩
        · rw [h4, h5, h6, h7]; exact k4
        · intro e' he' hw
          rcases List.mem_cons.1 he' with rfl | he'
          · rfl
          · exact k3 e' he' hw

/-! ### The section of `rseq_load_add_load_load_add_store` -/

theorem all_clean8 : ∀ p ∈ program sym false (0 : W 8) .x86_64 .addLoadLoadAddStore false,
    (List.range 9).all (fun i => (annot p i).dirty == []) = true := by
  intro p hp
  cases hp
  decide +kernel

theorem all_clean (be : Bool) (csa : W n) : ∀ p ∈ program sym be csa .x86_64 .addLoadLoadAddStore false,
    (List.range 9).all (fun i => (annot p i).dirty == []) = true := by
  intro p hp
  rw [like_program] at hp
  obtain ⟨q, hq, rfl⟩ := Option.map_eq_some_iff.1 hp
  exact all_clean8 q hq

/-- The only implementation of `rseq_load_add_load_load_add_store` is that of x86-64. -/
theorem deref_site {S : Site n} (h : S.kind = .addLoadLoadAddStore) :
    S.prog = x86_64_addLoadLoadAddStore S.al S.be S.csa ∧
    program sym S.be S.csa S.arch S.kind S.rel = program sym S.be S.csa .x86_64 .addLoadLoadAddStore false ∧
    clobbers S.arch S.kind = [rax, rbx, rcx] := by
  have hok := S.ok
  rw [h] at hok ⊢
  cases ha : S.arch <;> cases hr : S.rel <;> rw [ha, hr] at hok <;>
    first
      | (simp only [program, reduceCtorEq] at hok; done)
      | (simp only [program, Option.some.injEq] at hok; exact ⟨hok.symm, rfl, rfl⟩)

/-- The operands stay in their registers. -/
theorem deref_regs {x : Thread n} {P : Prop} {f : Frame n} {ptr off inc : W n} (h : GInv T x P f)
    (hk : FrameKeeps T f) (hop : f.op = .addLoadLoadAddStore ptr off inc) {i : Nat} (hp : f.l.pc = .at i)
    (hi : i < 9) : f.l.regs ((T f.pid).al .ptr) = ptr ∧ f.l.regs ((T f.pid).al .off) = off := by
  have hkind : (T f.pid).kind = .addLoadLoadAddStore := by rw [h.base.kind, hop]; rfl
  obtain ⟨q, hq, -⟩ := (T f.pid).exSym
  obtain ⟨hk, -⟩ := hk q hq
  have hq' : q ∈ program sym (T f.pid).be (T f.pid).csa .x86_64 .addLoadLoadAddStore false := by
    rw [← (deref_site hkind).2.1]; exact hq
  have hd := all_clean _ _ q hq'
  have hd := List.all_eq_true.1 hd i (List.mem_range.2 hi)
  rw [hp] at hk
  dsimp only at hk
  have hreg : ∀ o v, f.op.val o = some v → f.l.regs ((T f.pid).al o) = v := by
    intro o v hv
    rw [hk.regs _ (by rw [h.base.kind]; exact h.base.setup.free o v hv) (by
      rw [beq_iff_eq.1 hd]; simp), h.base.setup.reg o v hv]
  exact ⟨hreg _ _ (by rw [hop]; rfl), hreg _ _ (by rw [hop]; rfl)⟩

/-- What a section that began after `x` has loaded, if the pointer has had values in `P` since. -/
theorem deref_loaded (hn : 4 ≤ n) {x s : State n} {es : List (Ev n)} (h0 : AnyReach T m0 x)
    (h : Run T x es s) {t pid : Nat} {ptr off inc : W n} {P : W n → Prop}
    (hB : ∀ e ∈ es, P (ldw (T pid).be e.s.mem ptr)) {f : Frame n} (hpid : f.pid = pid)
    (hop : f.op = .addLoadLoadAddStore ptr off inc) (ht : (s.th t).top = some f)
    (hrun : (s.th t).run = true) (hreg : (s.th t).reg = true) (hz : InSection T f)
    (hev : (x.th t).ev < (s.th t).ev) :
    (f.l.pc = .at 4 → P (f.l.regs rbx)) ∧ (f.l.pc = .at 5 → ∃ B, P B ∧ f.l.regs rbx = B + off) ∧
    (f.l.pc = .at 6 → ∃ e ∈ es, ∃ B, P B ∧ f.l.regs rcx = ldw (T pid).be e.s.mem (B + off)) := by
  induction h generalizing f with
  | nil => omega
  | @cons es s s' u lab h hs ih =>
    have hR := h.reach h0
    have hI := hR.inv hn
    rcases section_prev hn hI hs ht hrun hreg hz with ⟨hu, he⟩ |
      ⟨hu, hlab, hr, hg, g, i, ins, h1, h2, h3, h4, h5, h6, h7, h8, h9, h10⟩
    · rw [he] at ht hrun hreg hev
      obtain ⟨a, b, c⟩ := ih (fun e he => hB e (List.mem_cons_of_mem _ he)) hpid hop ht hrun hreg hz hev
      refine ⟨a, b, fun h => ?_⟩
      obtain ⟨e, k1, k2⟩ := c h
      exact ⟨e, List.mem_cons_of_mem _ k1, k2⟩
    · subst hu
      have hgi := (hI.th u).top g h1
      have hgop : g.op = .addLoadLoadAddStore ptr off inc := by rw [← h5, hop]
      have hgp : g.pid = pid := by rw [← h4, hpid]
      have hkind : (T g.pid).kind = .addLoadLoadAddStore := by rw [hgi.base.kind, hgop]; rfl
      have hprog := (deref_site hkind).1
      have hBs : P (ldw (T pid).be s.mem ptr) := hB _ (List.mem_cons_self ..)
      have hlt : i < 9 := by
        rw [hprog] at h3
        apply Decidable.byContradiction
        intro hge
        rw [List.getElem?_eq_none (by simp [x86_64_addLoadLoadAddStore]; omega)] at h3
        cases h3
      obtain ⟨r1, r2⟩ := deref_regs hgi ((hR.keep u).1 g h1) hgop h2 hlt
      have hih : isCs ins = false → _ := fun hcs =>
        ih (fun e he => hB e (List.mem_cons_of_mem _ he)) hgp hgop h1 hr hg
          (by rcases h10 with h10 | h10
              · rw [h10] at hcs; cases hcs
              · exact h10.2.1)
          (by have : (s'.th u).ev = (s.th u).ev := by
                subst hlab; cases hs; simp [upd]
              rw [this] at hev; exact hev)
      rw [h9]
      rw [hgp] at hprog r1 r2 h3
      rw [hgp, hprog]
      rw [hprog] at h3
      rw [h2] at hih
      have hbe : (x86_64_addLoadLoadAddStore (T pid).al (T pid).be (T pid).csa).be = (T pid).be := rfl
      match i, hlt with
      | 0, _ => simp only [x86_64_addLoadLoadAddStore, List.getElem?_cons_zero, Option.some.injEq] at h3
                subst h3; simp [exec, LSt.setR]
      | 1, _ => simp only [x86_64_addLoadLoadAddStore, List.getElem?_cons_succ, List.getElem?_cons_zero, Option.some.injEq] at h3
                subst h3; simp [exec, LSt.setF]
      | 2, _ => simp only [x86_64_addLoadLoadAddStore, List.getElem?_cons_succ, List.getElem?_cons_zero, Option.some.injEq] at h3
                subst h3
                simp only [exec, LSt.br]
                split <;> simp
      | 3, _ => simp only [x86_64_addLoadLoadAddStore, List.getElem?_cons_succ, List.getElem?_cons_zero, Option.some.injEq] at h3
                subst h3
                simp only [exec, LSt.setR, hbe, r1]
                simp [upd, hBs]
      | 4, _ => simp only [x86_64_addLoadLoadAddStore, List.getElem?_cons_succ, List.getElem?_cons_zero, Option.some.injEq] at h3
                subst h3
                have := (hih rfl).1 rfl
                simp only [exec, LSt.setR, r2]
                simp only [Pc.at.injEq, Nat.reduceAdd, Nat.reduceEqDiff, false_implies, true_implies, true_and, and_true, upd, if_true]
                exact ⟨_, this, rfl⟩
      | 5, _ => simp only [x86_64_addLoadLoadAddStore, List.getElem?_cons_succ, List.getElem?_cons_zero, Option.some.injEq] at h3
                subst h3
                obtain ⟨B, k1, k2⟩ := (hih rfl).2.1 rfl
                simp only [exec, LSt.setR, hbe, k2]
                simp only [Pc.at.injEq, Nat.reduceAdd, Nat.reduceEqDiff, false_implies, true_implies, true_and, upd, if_true]
                exact ⟨_, List.mem_cons_self .., B, k1, rfl⟩
      | 6, _ => simp only [x86_64_addLoadLoadAddStore, List.getElem?_cons_succ, List.getElem?_cons_zero, Option.some.injEq] at h3
                subst h3; simp [exec]
      | 7, _ => simp only [x86_64_addLoadLoadAddStore, List.getElem?_cons_succ, List.getElem?_cons_zero, Option.some.injEq] at h3
                subst h3; simp [exec]
      | 8, _ => simp only [x86_64_addLoadLoadAddStore, List.getElem?_cons_succ, List.getElem?_cons_zero, Option.some.injEq] at h3
                subst h3; simp [exec]

/-- Its only store. -/
theorem deref_store (hn : 4 ≤ n) {s s' : State n} {t : Nat} {f : Frame n} {ptr off inc : W n}
    (hR : AnyReach T m0 s) (ht : (s.th t).top = some f) (hop : f.op = .addLoadLoadAddStore ptr off inc)
    (hs : Step T s t .exec s') {a : W n} (ha : s'.mem a ≠ s.mem a) :
    f.l.pc = .at 6 ∧ InWord (f.l.regs rcx) a := by
  have hgi := ((hR.inv hn).th t).top f ht
  have hkind : (T f.pid).kind = .addLoadLoadAddStore := by rw [hgi.base.kind, hop]; rfl
  have hprog := (deref_site hkind).1
  cases hs with
  | exec g i ins l' m' hr ht' hp hc he =>
    rw [ht] at ht'
    injection ht' with ht'
    subst ht'
    dsimp only at ha
    have hm' : m' = (exec (T f.pid).prog ((s.th t).fv f.fld) i ins f.l s.mem).2 := by rw [he]
    have hc0 := hc
    rw [hprog] at hm' hc
    have hz : zone (T f.pid).prog (.at i) = .body := by
      have hk := (hR.keep t).1 f ht
      exact (exec_writes hn hgi hk hp hc0 _ _ a (by rw [he]; exact ha)).1
    rw [hprog] at hz
    have hi : 3 ≤ i ∧ i < 7 := by
      have : zone (x86_64_addLoadLoadAddStore (T f.pid).al (T f.pid).be (T f.pid).csa) (.at i) = .body := hz
      unfold zone at this
      simp only [x86_64_addLoadLoadAddStore] at this
      by_cases a1 : i < 1
      · simp [a1] at this
      by_cases a2 : i < 3
      · simp [a1, a2] at this
      by_cases a3 : i < 7
      · omega
      · simp [a1, a2, a3] at this
        repeat' split at this
        all_goals simp at this
    have hst : stores ins f.l a := by
      apply Classical.byContradiction
      intro hst
      rw [hm'] at ha
      exact ha (exec_frame _ _ _ _ _ a hst)
    match i, hi with
    | 3, _ | 4, _ | 5, _ =>
      simp only [x86_64_addLoadLoadAddStore, List.getElem?_cons_succ, List.getElem?_cons_zero, Option.some.injEq] at hc
      subst hc
      simp [stores] at hst
    | 6, _ =>
      simp only [x86_64_addLoadLoadAddStore, List.getElem?_cons_succ, List.getElem?_cons_zero, Option.some.injEq] at hc
      subst hc
      exact ⟨hp, hst⟩

end Verif.Rseq
