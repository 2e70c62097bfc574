import Verif.RseqConcProps
import Verif.RseqConcEx
/-
Why per-CPU data need no other synchronisation: if the bytes of CPU `c` are accessed only by helpers called
with `cpu = c`, private bytes only by their thread, and read-only bytes are never modified, then no step
disturbs a critical section of another thread (`Polite`), so every theorem of `RseqConcProps.lean` applies.
-/

namespace Verif.Rseq

variable {n : Nat}

/-- A division of memory: bytes of each CPU (or concurrency id), private bytes of each thread, and bytes
nobody writes.  Other bytes are for anything that is not accessed by helpers. -/
structure Areas (n : Nat) where
  cpu : Fld → BitVec 32 → W n → Prop
  priv : Nat → W n → Prop
  ro : W n → Prop
  cpu_cpu : ∀ fl c fl' c' a, cpu fl c a → cpu fl' c' a → fl = fl' ∧ c = c'
  cpu_priv : ∀ fl c t a, cpu fl c a → ¬ priv t a
  priv_priv : ∀ t u a, priv t a → priv u a → t = u
  ro_cpu : ∀ fl c a, ro a → ¬ cpu fl c a
  ro_priv : ∀ t a, ro a → ¬ priv t a

/-- The call `f` of thread `t` accesses only bytes of the CPU it names, private bytes of `t`, and read-only
bytes, and writes none of the latter — whatever memory contains. -/
structure Fits (A : Areas n) (be : Bool) (t : Nat) (f : Frame n) : Prop where
  foot : ∀ m a, opFoot be f.op m a → A.cpu f.fld f.cpu a ∨ A.priv t a ∨ A.ro a
  tgt : ∀ a, targets f.op a → ¬ A.ro a
  fin : ∀ m a, (pseudo be f.op m).2 a ≠ m a → ¬ A.ro a

/-- Executions in which every thread keeps to the division. -/
inductive OReach (T : Nat → Site n) (A : Areas n) (m0 : Mem n) : State n → Prop
  | init : OReach T A m0 { mem := m0, th := fun _ => thread0 }
  | step {s s' : State n} {t : Nat} {lab : Lab n} (h : OReach T A m0 s) (hs : Step T s t lab s')
      (hi : ∀ f, lab = .invoke f → Fits A (T f.pid).prog.be t f)
      (hu : lab = .user → ∀ a, s'.mem a ≠ s.mem a →
        (∀ fl c, ¬ A.cpu fl c a) ∧ (∀ u, u ≠ t → ¬ A.priv u a) ∧ ¬ A.ro a) : OReach T A m0 s'

variable {T : Nat → Site n} {A : Areas n} {m0 : Mem n}

/-- A condition on the arguments of calls that every frame of a thread inherits. -/
def AllFrames (P : Nat → Frame n → Prop) (s : State n) : Prop :=
  ∀ t, (∀ f, (s.th t).top = some f → P t f) ∧ ∀ f, some f ∈ (s.th t).saved → P t f

/-- The condition depends on the arguments only. -/
def ArgsOnly (P : Nat → Frame n → Prop) : Prop :=
  ∀ t f g, f.pid = g.pid → f.fld = g.fld → f.cpu = g.cpu → f.op = g.op → P t f → P t g

theorem fixTop_args {x : Thread n} {g : Frame n} (h : fixTop T x = some g) :
    ∃ f, x.top = some f ∧ f.pid = g.pid ∧ f.fld = g.fld ∧ f.cpu = g.cpu ∧ f.op = g.op := by
  obtain ⟨f, hf⟩ := fixTop_some h
  refine ⟨f, hf, ?_⟩
  unfold fixTop at h
  rw [hf] at h
  dsimp only at h
  split at h
  · injection h with h; subst h; exact ⟨rfl, rfl, rfl, rfl⟩
  · split at h <;> (injection h with h; subst h; exact ⟨rfl, rfl, rfl, rfl⟩)

theorem AllFrames.step {P : Nat → Frame n → Prop} (hP : ArgsOnly P) {s s' : State n} {t : Nat}
    {lab : Lab n} (h : AllFrames P s) (hs : Step T s t lab s') (hi : ∀ f, lab = .invoke f → P t f) :
    AllFrames P s' := by
  intro u
  by_cases e : u = t
  · subst e
    obtain ⟨h1, h2⟩ := h u
    cases hs with
    | invoke f hr ht hf hu =>
      simp only [State.set, updT_same]
      refine ⟨fun g hg => ?_, h2⟩
      injection hg with hg; subst hg; exact hi _ rfl
    | exec f i ins l' m' hr ht hp hc he =>
      dsimp only
      rw [updT_same]
      refine ⟨fun g hg => ?_, h2⟩
      injection hg with hg; subst hg; exact hP u f _ rfl rfl rfl rfl (h1 f ht)
    | ret f r hr ht hp => simp only [State.set, updT_same]; exact ⟨fun g hg => by simp at hg, h2⟩
    | user m' hr ht => exact ⟨h1, h2⟩
    | preempt hr => simp only [State.set, updT_same]; exact ⟨h1, h2⟩
    | resume c k hr hd =>
      simp only [State.set, updT_same]
      refine ⟨fun g hg => ?_, h2⟩
      obtain ⟨f, hf, a, b, c, d⟩ := fixTop_args hg
      exact hP u f g a b c d (h1 f hf)
    | signal hr =>
      simp only [State.set, updT_same]
      refine ⟨fun g hg => by simp at hg, fun g hg => ?_⟩
      rcases List.mem_cons.1 hg with hg | hg
      · obtain ⟨f, hf, a, b, c, d⟩ := fixTop_args hg.symm
        exact hP u f g a b c d (h1 f hf)
      · exact h2 g hg
    | sigret f rest hr ht hs' =>
      simp only [State.set, updT_same]
      refine ⟨fun g hg => h2 g (by rw [hs', hg]; simp), fun g hg => h2 g (by rw [hs']; exact List.mem_cons_of_mem _ hg)⟩
    | register => simp only [State.set, updT_same]; exact ⟨h1, h2⟩
    | unregister => simp only [State.set, updT_same]; exact ⟨h1, h2⟩
    | clear => simp only [State.set, updT_same]; exact ⟨h1, h2⟩
  · rw [hs.other (fun e' => e e'.symm)]; exact h u

theorem AllFrames.init (P : Nat → Frame n → Prop) : AllFrames P { mem := m0, th := fun _ => thread0 } := by
  intro t; simp [thread0]

/-- Bytes touched by sections in progress. -/
def FootIn (T : Nat → Site n) (Q : Nat → Frame n → W n → Prop) (s : State n) : Prop :=
  ∀ t f, (s.th t).top = some f → (s.th t).run = true → (s.th t).reg = true →
    zone (T f.pid).prog f.l.pc = .body → ∀ a, f.foot a → Q t f a

/-- What an instruction of a helper in its body touches and writes. -/
theorem body_access (hn : 4 ≤ n) {s : State n} (hI : Inv T s) {t : Nat} {f : Frame n} {i : Nat}
    {ins : Instr} {l' : LSt n} {m' : Mem n} (hr : (s.th t).run = true) (ht : (s.th t).top = some f)
    (hp : f.l.pc = .at i) (hc : (T f.pid).prog.code[i]? = some ins)
    (he : Rseq.exec (T f.pid).prog ((s.th t).fv f.fld) i ins f.l s.mem = (l', m')) :
    (zone (T f.pid).prog f.l.pc ≠ .body → m' = s.mem ∧ ∀ a, ¬ touched ins f.l a) ∧
    (∀ a, touched ins f.l a → opFoot (T f.pid).prog.be f.op s.mem a) ∧
    (∀ a, m' a ≠ s.mem a → opFoot (T f.pid).prog.be f.op s.mem a) ∧
    ((i + 1 = (T f.pid).prog.commit ∧ pseudo (T f.pid).prog.be f.op s.mem = (0, m')) ∨
      (i + 1 ≠ (T f.pid).prog.commit ∧ ∀ a, m' a ≠ s.mem a → targets f.op a)) := by
  have hi := (hI.th t).top f ht
  have Z := (T f.pid).facts
  have hm' : m' = (Rseq.exec (T f.pid).prog ((s.th t).fv f.fld) i ins f.l s.mem).2 := by rw [he]
  have free : memFree ins = true → m' = s.mem := fun hm => by
    rw [hm']; exact (exec_memFree hm (T f.pid).prog ((s.th t).fv f.fld) i f.l s.mem s.mem).1
  by_cases hz : zone (T f.pid).prog f.l.pc = .body
  · rw [hp] at hz
    have hrng := hi.rng (.inr (by rw [hp]; exact hz))
    have hreg : (s.th t).reg = true := by
      cases hx : (s.th t).reg with
      | true => rfl
      | false => have := (hrng.unreg hx).1; rw [hp, hz] at this; simp at this
    obtain ⟨r4, r5, r6⟩ := (hrng.regd hreg).2.2 hr
    refine ⟨fun h => absurd (by rw [hp]; exact hz) h, ?_⟩
    rcases r6 with r6 | r6
    · have hsok := (hi.base.foot hn).rep hi.base.setup (r5.agree r6)
      unfold SOK at hsok
      rw [hp] at hsok
      dsimp only at hsok
      rw [hc] at hsok
      dsimp only at hsok
      have hch : ∀ a, m' a ≠ s.mem a → stores ins f.l a := by
        intro a ha
        apply Classical.byContradiction
        intro hs
        exact ha (by rw [hm']; exact exec_frame _ _ _ _ _ a hs)
      refine ⟨hsok.1, fun a ha => hsok.1 a (stores_touched (hch a ha)), ?_⟩
      by_cases hcm : i + 1 = (T f.pid).prog.commit
      · exact .inl ⟨hcm, Rep.commit Z (hi.base.impl hn) hi.base.setup (r5.agree r6) hp hcm hc he⟩
      · refine .inr ⟨hcm, fun a ha => ?_⟩
        rcases hsok.2 with h | h
        · exact absurd h hcm
        · exact (h a (hch a ha)).1
    · cases r6 with
      | done hd => rw [hp] at hd; simp at hd
      | @step l2 l3 j ins2 hp2 hc2 hm2 hf2 he2 hq2 =>
        rw [hp] at hp2
        injection hp2 with hp2
        subst hp2
        rw [hc] at hc2
        injection hc2 with hc2
        subst hc2
        refine ⟨fun a ha => absurd ha (memFree_touched hm2 _ a),
          fun a ha => absurd (by rw [free hm2]) ha, .inr ⟨?_, fun a ha => absurd (by rw [free hm2]) ha⟩⟩
        intro hcm
        have := ((body_step Z hc hz (fv := (s.th t).fv f.fld) (l := f.l) (m := s.mem)).2.2.1 hcm).1
        cases ins <;> simp [isStore, memFree] at this hm2
  · have hmf : memFree ins = true ∧ i + 1 ≠ (T f.pid).prog.commit := by
      rw [hp] at hz
      have := Z.sc; have := Z.cc; have := Z.ca; have := Z.an; have := Z.nl
      rcases zone_at_cases Z (i := i) with h'|h'|h'|h'|h'|h'|h'
      · exact ⟨(pre_step Z hc h'.1 (fv := 0#32) (l := f.l) (m := s.mem)).1, by omega⟩
      · exact ⟨(chk_step Z hc h'.1 (fv := 0#32) (l := f.l) (m := s.mem)).1, by omega⟩
      · exact absurd h'.1 hz
      · exact ⟨(post_step Z hc h'.1 (fv := 0#32) (l := f.l) (m := s.mem)).1, by omega⟩
      · exact ⟨(abt_step Z hc h'.1 (fv := 0#32) (l := f.l) (m := s.mem)).1, by omega⟩
      · exact ⟨(neq_step Z hc h'.1 (fv := 0#32) (l := f.l) (m := s.mem)).1, by omega⟩
      · exact absurd (by rw [hp]; exact h'.1) hi.out
    refine ⟨fun _ => ⟨free hmf.1, memFree_touched hmf.1 _⟩, fun a ha => absurd ha (memFree_touched hmf.1 _ a),
      fun a ha => absurd (by rw [free hmf.1]) ha, .inr ⟨hmf.2, fun a ha => absurd (by rw [free hmf.1]) ha⟩⟩

/-- A frame that has just come into the body has touched nothing. -/
theorem body_enter (hn : 4 ≤ n) {s : State n} (hI : Inv T s) {t : Nat} {f : Frame n} {i : Nat}
    {ins : Instr} {l' : LSt n} {m' : Mem n} (ht : (s.th t).top = some f)
    (hp : f.l.pc = .at i) (hc : (T f.pid).prog.code[i]? = some ins)
    (he : Rseq.exec (T f.pid).prog ((s.th t).fv f.fld) i ins f.l s.mem = (l', m'))
    (hz : zone (T f.pid).prog f.l.pc ≠ .body) (hz' : zone (T f.pid).prog l'.pc = .body) :
    ∀ a, ¬ f.foot a := by
  have hi := (hI.th t).top f ht
  have Z := (T f.pid).facts
  have hl' : l' = (Rseq.exec (T f.pid).prog ((s.th t).fv f.fld) i ins f.l s.mem).1 := by rw [he]
  rw [hl'] at hz'
  rw [hp] at hz
  rcases zone_at_cases Z (i := i) with h'|h'|h'|h'|h'|h'|h'
  · obtain ⟨-, -, -, q4, q5⟩ :=
      pre_step Z hc h'.1 (fv := (s.th t).fv f.fld) (l := f.l) (m := s.mem)
    rw [q4, q5] at hz'
    split at hz' <;> simp at hz'
  · have hrng := hi.rng (.inl (by rw [hp]; exact h'.1))
    exact hrng.chk (by rw [hp]; exact h'.1)
  · exact absurd h'.1 hz
  · rcases (post_step Z hc h'.1 (fv := (s.th t).fv f.fld) (l := f.l) (m := s.mem)).2.2 with q | q <;>
      rw [q] at hz' <;> simp at hz'
  · rcases (abt_step Z hc h'.1 (fv := (s.th t).fv f.fld) (l := f.l) (m := s.mem)).2.2 with q | q <;>
      rw [q] at hz' <;> simp at hz'
  · rcases (neq_step Z hc h'.1 (fv := (s.th t).fv f.fld) (l := f.l) (m := s.mem)).2.2 with q | q <;>
      rw [q] at hz' <;> simp at hz'
  · exact absurd (by rw [hp]; exact h'.1) hi.out

/-- The bytes touched by sections keep satisfying a condition on what the instructions touch. -/
theorem FootIn.step (hn : 4 ≤ n) {Q : Nat → Frame n → W n → Prop} {s s' : State n} {t : Nat}
    {lab : Lab n} (hI : Inv T s) (h : FootIn T Q s) (hs : Step T s t lab s')
    (hQ : ∀ t f g a, f.pid = g.pid → f.fld = g.fld → f.cpu = g.cpu → f.op = g.op → Q t f a → Q t g a)
    (hq : ∀ f, (s.th t).top = some f → zone (T f.pid).prog f.l.pc = .body →
      ∀ a, opFoot (T f.pid).prog.be f.op s.mem a → Q t f a) : FootIn T Q s' := by
  intro u g hg hrun hreg hz a ha
  by_cases e : u = t
  · subst e
    cases hs with
    | invoke f hr ht hf hu =>
      simp only [State.set, updT_same] at hg
      injection hg with hg; subst hg
      rw [hf.foot] at ha; exact ha.elim
    | exec f i ins l' m' hr ht hp hc he =>
      dsimp only at hg
      rw [updT_same] at hg
      injection hg with hg
      have hacc := body_access hn hI hr ht hp hc he
      have hreg' : (s.th u).reg = true := by dsimp only at hreg; rw [updT_same] at hreg; exact hreg
      by_cases hzb : zone (T f.pid).prog f.l.pc = .body
      · subst hg
        refine hQ u f _ a rfl rfl rfl rfl ?_
        rcases ha with ha | ha
        · exact hq f ht hzb a (hacc.2.1 a ha)
        · exact h u f ht hr hreg' hzb a ha
      · subst hg
        rcases ha with ha | ha
        · exact absurd ha ((hacc.1 hzb).2 a)
        · exact absurd ha (body_enter hn hI ht hp hc he hzb hz a)
    | ret f r hr ht hp => simp only [State.set, updT_same] at hg; simp at hg
    | user m' hr ht => exact h u g hg hrun hreg hz a ha
    | preempt hr => simp only [State.set, updT_same] at hrun; simp at hrun
    | resume c k hr hd =>
      simp only [State.set, updT_same] at hg hreg
      obtain ⟨f, hf⟩ := fixTop_some hg
      rcases ((hI.th u).top f hf).fixCases hf hg with ⟨rfl, hc'⟩ | ⟨-, rfl⟩
      · exact absurd hz (hc' hreg).2
      · dsimp only at hz; rw [zone_abort (T f.pid).facts] at hz; simp at hz
    | signal hr => simp only [State.set, updT_same] at hg; simp at hg
    | sigret f rest hr ht hs' =>
      simp only [State.set, updT_same] at hg hreg
      subst hg
      have := ((hI.th u).saved g (by rw [hs']; simp)).rng (.inr hz)
      exact ((this.regd hreg).1).elim
    | register hr ht => simp only [State.set, updT_same] at hg; rw [ht] at hg; simp at hg
    | unregister hr ht => simp only [State.set, updT_same] at hg; rw [ht] at hg; simp at hg
    | clear hr ht => simp only [State.set, updT_same] at hg; rw [ht] at hg; simp at hg
  · rw [hs.other (fun e' => e e'.symm)] at hg hrun hreg
    exact h u g hg hrun hreg hz a ha

/-- A running thread in the body of a helper is registered and on the CPU it asked for. -/
theorem body_on (hn : 4 ≤ n) {s : State n} (hI : Inv T s) {t : Nat} {f : Frame n}
    (hrun : (s.th t).run = true) (ht : (s.th t).top = some f)
    (hz : zone (T f.pid).prog f.l.pc = .body) : On t f.fld f.cpu s := by
  have hi := (hI.th t).top f ht
  have hrng := hi.rng (.inr hz)
  have hreg : (s.th t).reg = true := by
    cases hx : (s.th t).reg with
    | true => rfl
    | false => have := (hrng.unreg hx).1; rw [hz] at this; simp at this
  obtain ⟨r4, r5, -⟩ := (hrng.regd hreg).2.2 hrun
  have hfv := Rep.cpu_eq (T f.pid).facts (hi.base.impl hn) hi.base.setup r5 (.inl hz)
  refine ⟨hrun, hreg, ?_⟩
  have := (hI.th t).flds hreg hrun
  rw [← hfv]
  cases f.fld <;> simp [Thread.fv, Thread.kv, this.1, this.2]

theorem body_exclusive (hn : 4 ≤ n) {s : State n} (hI : Inv T s) {t u : Nat} {f g : Frame n}
    (hrt : (s.th t).run = true) (hru : (s.th u).run = true)
    (ht : (s.th t).top = some f) (hu : (s.th u).top = some g)
    (hzf : zone (T f.pid).prog f.l.pc = .body) (hzg : zone (T g.pid).prog g.l.pc = .body)
    (hfl : f.fld = g.fld) (hcpu : f.cpu = g.cpu) : t = u := by
  apply Decidable.byContradiction
  intro hne
  have h1 := (body_on hn hI hrt ht hzf).kv
  have h2 := (body_on hn hI hru hu hzg).kv
  have h3 := hI.cpus t u hne hrt hru
  rw [← hfl, ← hcpu, ← h1] at h2
  revert h2
  cases f.fld <;> simp only [Thread.kv] <;> intro h2
  · exact h3.1 h2.symm
  · exact h3.2 h2.symm

/-- Memory changes only by instructions in a body and by other code. -/
theorem step_changes (hn : 4 ≤ n) {s s' : State n} {t : Nat} {lab : Lab n} (hI : Inv T s)
    (hs : Step T s t lab s') (a : W n) (ha : s'.mem a ≠ s.mem a) :
    lab = .user ∨ ∃ f, (s.th t).top = some f ∧ (s.th t).run = true ∧
      zone (T f.pid).prog f.l.pc = .body ∧ opFoot (T f.pid).prog.be f.op s.mem a ∧
      (targets f.op a ∨ pseudo (T f.pid).prog.be f.op s.mem = (0, s'.mem)) := by
  cases hs with
  | exec f i ins l' m' hr ht hp hc he =>
    right
    have hacc := body_access hn hI hr ht hp hc he
    refine ⟨f, ht, hr, ?_, hacc.2.2.1 a ha, ?_⟩
    · apply Classical.byContradiction
      intro hz
      exact ha (congrFun (hacc.1 hz).1 a)
    · rcases hacc.2.2.2 with ⟨-, h⟩ | ⟨-, h⟩
      · exact .inr h
      · exact .inl (h a ha)
  | user => exact .inl rfl
  | _ => exact absurd rfl ha

/-- A step that keeps to the division disturbs nobody. -/
theorem owned_polite (hn : 4 ≤ n) {s s' : State n} {t : Nat} {lab : Lab n} (hI : Inv T s)
    (i2 : AllFrames (fun t f => Fits A (T f.pid).prog.be t f) s)
    (i3 : FootIn T (fun t f a => A.cpu f.fld f.cpu a ∨ A.priv t a ∨ A.ro a) s) (hs : Step T s t lab s')
    (hu : lab = .user → ∀ a, s'.mem a ≠ s.mem a →
        (∀ fl c, ¬ A.cpu fl c a) ∧ (∀ u, u ≠ t → ¬ A.priv u a) ∧ ¬ A.ro a) : Polite T s t s' := by
  intro u g hut hru hg hzg
  left
  intro a ha
  apply Classical.byContradiction
  intro hne
  have hOn := body_on hn hI hru hg hzg
  have hga := i3 u g hg hru hOn.reg hzg a ha
  rcases step_changes hn hI hs a (fun e => hne e.symm) with hl | ⟨f, hf, hrf, hzf, hof, hw⟩
  · obtain ⟨c1, c2, c3⟩ := hu hl a (fun e => hne e.symm)
    rcases hga with hga | hga | hga
    · exact c1 _ _ hga
    · exact c2 u hut hga
    · exact c3 hga
  · have hfit := (i2 t).1 f hf
    have hnro : ¬ A.ro a := by
      rcases hw with hw | hw
      · exact hfit.tgt a hw
      · refine hfit.fin s.mem a ?_
        rw [hw]; exact fun e => hne e.symm
    rcases hfit.foot s.mem a hof with hfa | hfa | hfa
    · rcases hga with hga | hga | hga
      · obtain ⟨e1, e2⟩ := A.cpu_cpu _ _ _ _ a hfa hga
        exact hut (body_exclusive hn hI hrf hru hf hg hzf hzg e1 e2).symm
      · exact A.cpu_priv _ _ _ a hfa hga
      · exact hnro hga
    · rcases hga with hga | hga | hga
      · exact A.cpu_priv _ _ _ a hga hfa
      · exact hut (A.priv_priv _ _ a hga hfa)
      · exact hnro hga
    · exact hnro hfa

/-- **Keeping to the division suffices**: every state of such an execution is reached by polite steps. -/
theorem OReach.polite (hn : 4 ≤ n) {s : State n} (h : OReach T A m0 s) :
    PReach T m0 s ∧ AllFrames (fun t f => Fits A (T f.pid).prog.be t f) s ∧
    FootIn T (fun t f a => A.cpu f.fld f.cpu a ∨ A.priv t a ∨ A.ro a) s := by
  have hP : ArgsOnly (fun t (f : Frame n) => Fits A (T f.pid).prog.be t f) := by
    intro t f g h1 h2 h3 h4 h
    refine ⟨?_, ?_, ?_⟩
    · rw [← h1, ← h2, ← h3, ← h4]; exact h.foot
    · rw [← h4]; exact h.tgt
    · rw [← h1, ← h4]; exact h.fin
  induction h with
  | init =>
    refine ⟨.init, AllFrames.init _, ?_⟩
    intro t f ht; simp [thread0] at ht
  | @step s s' t lab h hs hi hu ih =>
    obtain ⟨i1, i2, i3⟩ := ih
    have hI := i1.inv hn
    have hpol : Polite T s t s' := owned_polite hn hI i2 i3 hs hu
    refine ⟨i1.step hs hpol, i2.step hP hs hi, ?_⟩
    refine FootIn.step hn hI i3 hs ?_ ?_
    · intro t f g a _ h2 h3 _ h; rw [← h2, ← h3]; exact h
    · intro f hf _ a ha; exact ((i2 t).1 f hf).foot s.mem a ha

theorem OReach.reach (hn : 4 ≤ n) {s : State n} (h : OReach T A m0 s) : PReach T m0 s :=
  (h.polite hn).1

/-- **C32-C37 for disciplined programs**: no step of such an execution disturbs a section of another
thread, so all steps of a call are as `Call` requires. -/
theorem OReach.step_polite (hn : 4 ≤ n) {s s' : State n} {t : Nat} {lab : Lab n} (h : OReach T A m0 s)
    (hs : Step T s t lab s') (hu : lab = .user → ∀ a, s'.mem a ≠ s.mem a →
        (∀ fl c, ¬ A.cpu fl c a) ∧ (∀ u, u ≠ t → ¬ A.priv u a) ∧ ¬ A.ro a) : Polite T s t s' := by
  obtain ⟨h1, h2, h3⟩ := h.polite hn
  exact owned_polite hn (h1.inv hn) h2 h3 hs hu

end Verif.Rseq
