import Verif.RseqConc
/-
The invariant of the machine of `RseqConc.lean`.
-/

namespace Verif.Rseq

variable {n : Nat}

/-- Facts about a frame that never change. -/
structure FBase (T : Nat → Site n) (f : Frame n) : Prop where
  kind : (T f.pid).kind = f.op.kind
  setup : Setup (clobbers (T f.pid).arch f.op.kind) (signExt (T f.pid).arch) (T f.pid).al f.op f.cpu f.l0
  ok : CallOK (T f.pid).arch (T f.pid).al f.op
  tidy : Tidy f.op

theorem Site.facts (S : Site n) : ZoneFacts S.prog :=
  zoneOK_facts (program_zoneOK S.al S.be S.csa S.arch S.kind S.rel S.prog S.ok)

theorem FBase.impl {T : Nat → Site n} {f : Frame n} (hn : 4 ≤ n) (h : FBase T f) :
    Implements (T f.pid).prog (clobbers (T f.pid).arch f.op.kind) (signExt (T f.pid).arch)
      (T f.pid).al f.op :=
  helpers_implement_pseudocode hn _ (T f.pid).rel (T f.pid).be _ (T f.pid).csa f.op _
    (by rw [← h.kind]; exact (T f.pid).ok) h.ok

theorem FBase.foot {T : Nat → Site n} {f : Frame n} (hn : 4 ≤ n) (h : FBase T f) :
    FootOK (T f.pid).prog (clobbers (T f.pid).arch f.op.kind) (signExt (T f.pid).arch)
      (T f.pid).al f.op :=
  program_foot hn _ (T f.pid).rel (T f.pid).be _ (T f.pid).csa f.op _
    (by rw [← h.kind]; exact (T f.pid).ok) h.ok h.tidy

/-- What is true of a frame in the CPU check or the body. -/
structure InRng (T : Nat → Site n) (mem : Mem n) (x : Thread n) (isTop : Prop) (f : Frame n) : Prop where
  commits : f.commits = 0
  chk : zone (T f.pid).prog f.l.pc = .chk → ∀ a, ¬ f.foot a
  regd : x.reg = true → isTop ∧ x.cs = some f.pid ∧ (x.run = true →
    f.ep = x.ev ∧ Rep (T f.pid).prog (x.fv f.fld) f.last f.l0 f.l f.foot ∧
    ((∀ a, f.foot a → f.last a = mem a) ∨ Quiet (T f.pid).prog f.l))
  unreg : x.reg = false → zone (T f.pid).prog f.l.pc = .chk ∧
    ∀ m, Rep (T f.pid).prog (x.fv f.fld) m f.l0 f.l f.foot

/-- What is true of a frame; `isTop` says whether it is the one being executed. -/
structure FInv (T : Nat → Site n) (mem : Mem n) (x : Thread n) (isTop : Prop) (f : Frame n) : Prop where
  base : FBase T f
  guard : x.reg = false → x.fv f.fld ≠ f.cpu
  pre : zone (T f.pid).prog f.l.pc = .pre → f.commits = 0 ∧ (∀ a, ¬ f.foot a) ∧
    ∀ fv m, Rep (T f.pid).prog fv m f.l0 f.l f.foot
  rng : zone (T f.pid).prog f.l.pc = .chk ∨ zone (T f.pid).prog f.l.pc = .body → InRng T mem x isTop f
  post : zone (T f.pid).prog f.l.pc = .post ∨ zone (T f.pid).prog f.l.pc = .done 0 →
    x.reg = true ∧ f.commits = 1
  abt : zone (T f.pid).prog f.l.pc = .abt ∨ zone (T f.pid).prog f.l.pc = .done (-1) → f.commits = 0
  neq : zone (T f.pid).prog f.l.pc = .neq ∨ zone (T f.pid).prog f.l.pc = .done 1 →
    x.reg = true ∧ f.commits = 0 ∧ pseudo (T f.pid).prog.be f.op f.last = (1, f.last)
  out : zone (T f.pid).prog f.l.pc ≠ .out
  done : ∀ r, zone (T f.pid).prog f.l.pc = .done r → r = 0 ∨ r = 1 ∨ r = -1

/-- What is true of a thread. -/
structure TInv (T : Nat → Site n) (mem : Mem n) (x : Thread n) : Prop where
  top : ∀ f, x.top = some f → FInv T mem x True f
  saved : ∀ f, some f ∈ x.saved → FInv T mem x False f
  flds : x.reg = true → x.run = true → x.cpuId = x.kcpu ∧ x.mmCid = x.kcid
  unreg : x.reg = false → x.cpuId = BitVec.allOnes 32 ∧ x.mmCid = 0#32

/-- The invariant. -/
structure Inv (T : Nat → Site n) (s : State n) : Prop where
  th : ∀ t, TInv T s.mem (s.th t)
  cpus : ∀ t u, t ≠ u → (s.th t).run = true → (s.th u).run = true →
    (s.th t).kcpu ≠ (s.th u).kcpu ∧ (s.th t).kcid ≠ (s.th u).kcid

variable {T : Nat → Site n}

theorem inv_init (m0 : Mem n) : Inv T { mem := m0, th := fun _ => thread0 } := by
  refine ⟨fun t => ⟨?_, ?_, ?_, ?_⟩, ?_⟩
  · intro f h; simp [thread0] at h
  · intro f h; simp [thread0] at h
  · intro h; simp [thread0] at h
  · intro _; exact ⟨rfl, rfl⟩
  · intro t u _ h; simp [thread0] at h

/-- Frames of a thread do not depend on anything but a few fields of the thread. -/
theorem FInv.of_saved {mem mem' : Mem n} {x y : Thread n} {P : Prop} {f : Frame n}
    (h : FInv T mem x False f) (hr : y.reg = x.reg) (hf : x.reg = false → y.fv f.fld = x.fv f.fld) :
    FInv T mem' y P f := by
  refine ⟨h.base, ?_, h.pre, ?_, ?_, h.abt, ?_, h.out, h.done⟩
  · intro h'; rw [hf (hr ▸ h')]; exact h.guard (hr ▸ h')
  · intro hz
    have := h.rng hz
    refine ⟨this.commits, this.chk, ?_, ?_⟩
    · intro h'; exact ((this.regd (hr ▸ h')).1).elim
    · intro h'; rw [hf (hr ▸ h')]; exact this.unreg (hr ▸ h')
  · intro hz; rw [hr]; exact h.post hz
  · intro hz; rw [hr]; exact h.neq hz

/-- A change of memory by somebody else. -/
theorem FInv.mem {mem mem' : Mem n} {x : Thread n} {P : Prop} {f : Frame n} (h : FInv T mem x P f)
    (hp : x.run = true → P → zone (T f.pid).prog f.l.pc = .body →
      (∀ a, f.foot a → mem a = mem' a) ∨ Quiet (T f.pid).prog f.l) : FInv T mem' x P f := by
  refine ⟨h.base, h.guard, h.pre, ?_, h.post, h.abt, h.neq, h.out, h.done⟩
  intro hz
  have hi := h.rng hz
  refine ⟨hi.commits, hi.chk, ?_, hi.unreg⟩
  intro hr
  obtain ⟨h1, h2, h3⟩ := hi.regd hr
  refine ⟨h1, h2, fun hrun => ?_⟩
  obtain ⟨h4, h5, h6⟩ := h3 hrun
  refine ⟨h4, h5, ?_⟩
  rcases h6 with h6 | h6
  · rcases hz with hz | hz
    · exact .inl fun a ha => (hi.chk hz a ha).elim
    · rcases hp hrun h1 hz with h7 | h7
      · exact .inl fun a ha => (h6 a ha).trans (h7 a ha)
      · exact .inr h7
  · exact .inr h6

/-- What the kernel's rule does to a frame. -/
theorem FInv.fixCases {mem : Mem n} {x : Thread n} {P : Prop} {f g : Frame n} (h : FInv T mem x P f)
    (ht : x.top = some f) (hg : fixTop T x = some g) :
    (g = f ∧ (x.reg = true → zone (T f.pid).prog f.l.pc ≠ .chk ∧
      zone (T f.pid).prog f.l.pc ≠ .body)) ∨
      (f.commits = 0 ∧ g = { f with l := { f.l with pc := .at (T f.pid).prog.abort } }) := by
  have Z := (T f.pid).facts
  unfold fixTop at hg
  rw [ht] at hg
  dsimp only at hg
  cases hpc : f.l.pc with
  | ret r =>
    rw [hpc] at hg
    left
    exact ⟨by simpa using hg.symm, fun _ => by simp [zone]⟩
  | «at» i =>
    rw [hpc] at hg
    dsimp only at hg
    by_cases hc : zone (T f.pid).prog (.at i) = .chk ∨ zone (T f.pid).prog (.at i) = .body
    · have hi := h.rng (by rw [hpc]; exact hc)
      by_cases hreg : x.reg = true
      · have hcs := (hi.regd hreg).2.1
        have hrange : (T f.pid).prog.start ≤ i ∧ i < (T f.pid).prog.commit := by
          have := Z.sc; have := Z.cc
          rcases zone_at_cases Z (i := i) with h'|h'|h'|h'|h'|h'|h' <;> rw [h'.1] at hc <;>
            simp at hc <;> omega
        rw [if_pos ⟨hreg, hcs, hrange⟩] at hg
        right
        exact ⟨hi.commits, by simpa using hg.symm⟩
      · rw [if_neg (fun h => hreg h.1)] at hg
        left
        exact ⟨by simpa using hg.symm, fun h => absurd h hreg⟩
    · have hrange : ¬ ((T f.pid).prog.start ≤ i ∧ i < (T f.pid).prog.commit) := by
        intro hr'
        rcases zone_at_cases Z (i := i) with h'|h'|h'|h'|h'|h'|h' <;> rw [h'.1] at hc <;>
          simp at hc <;> (have := Z.sc; have := Z.cc; have := Z.ca; have := Z.an; have := Z.nl; omega)
      rw [if_neg (fun h => hrange h.2.2)] at hg
      left
      refine ⟨by simpa using hg.symm, fun _ => ?_⟩
      exact ⟨fun h => hc (.inl h), fun h => hc (.inr h)⟩

/-- The kernel's intervention. -/
theorem FInv.fix {mem : Mem n} {x y : Thread n} {P Q : Prop} {f g : Frame n} (h : FInv T mem x P f)
    (ht : x.top = some f) (hg : fixTop T x = some g) (hr : y.reg = x.reg)
    (hf : x.reg = false → ∀ fl, y.fv fl = x.fv fl) : FInv T mem y Q g := by
  have Z := (T f.pid).facts
  rcases h.fixCases ht hg with ⟨rfl, hz⟩ | ⟨hcm, rfl⟩
  · refine ⟨h.base, ?_, h.pre, ?_, ?_, h.abt, ?_, h.out, h.done⟩
    · intro h'; rw [hf (hr ▸ h')]; exact h.guard (hr ▸ h')
    · intro hzz
      have := h.rng hzz
      refine ⟨this.commits, this.chk, ?_, ?_⟩
      · intro h'; rcases hzz with h | h
        · exact absurd h (hz (hr ▸ h')).1
        · exact absurd h (hz (hr ▸ h')).2
      · intro h'; rw [hf (hr ▸ h')]; exact this.unreg (hr ▸ h')
    · intro hz; rw [hr]; exact h.post hz
    · intro hz; rw [hr]; exact h.neq hz
  · have ha := zone_abort Z
    refine ⟨⟨h.base.kind, h.base.setup, h.base.ok, h.base.tidy⟩, ?_, ?_, ?_, ?_, ?_, ?_, ?_, ?_⟩
    · intro h'; rw [hf (hr ▸ h')]; exact h.guard (hr ▸ h')
    all_goals first
      | (intro hz; dsimp only at hz; rw [ha] at hz; simp at hz; done)
      | (intro _; exact hcm)
      | (intro r hz; dsimp only at hz; rw [ha] at hz; simp at hz; done)

theorem fixTop_none {x : Thread n} (h : x.top = none) : fixTop T x = none := by
  unfold fixTop; rw [h]

theorem fixTop_some {x : Thread n} {g : Frame n} (h : fixTop T x = some g) :
    ∃ f, x.top = some f := by
  cases ht : x.top with
  | none => rw [fixTop_none ht] at h; simp at h
  | some f => exact ⟨f, rfl⟩

/-- The thread's own instruction. -/
theorem FInv.exec (hn : 4 ≤ n) {mem m' : Mem n} {x : Thread n} {f : Frame n}
    (h : FInv T mem x True f) (hrun : x.run = true) {i : Nat} {ins : Instr} {l' : LSt n}
    (hp : f.l.pc = .at i) (hc : (T f.pid).prog.code[i]? = some ins)
    (he : Rseq.exec (T f.pid).prog (x.fv f.fld) i ins f.l mem = (l', m')) :
    FInv T m' { x with
        top := some { f with
          l := l'
          foot := fun x => touched ins f.l x ∨ f.foot x
          last := if memFree ins = true then f.last else m'
          commits := if i + 1 = (T f.pid).prog.commit then f.commits + 1 else f.commits
          ep := if isCs ins = true then x.ev else f.ep }
        cs := if isCs ins = true then some f.pid else x.cs } True
      { f with
          l := l'
          foot := fun x => touched ins f.l x ∨ f.foot x
          last := if memFree ins = true then f.last else m'
          commits := if i + 1 = (T f.pid).prog.commit then f.commits + 1 else f.commits
          ep := if isCs ins = true then x.ev else f.ep } := by
  have Z := (T f.pid).facts
  have himp := h.base.impl hn
  have hl' : l' = (Rseq.exec (T f.pid).prog (x.fv f.fld) i ins f.l mem).1 := by rw [he]
  have hbase : FBase T { f with
          l := l'
          foot := fun x => touched ins f.l x ∨ f.foot x
          last := if memFree ins = true then f.last else m'
          commits := if i + 1 = (T f.pid).prog.commit then f.commits + 1 else f.commits
          ep := if isCs ins = true then x.ev else f.ep } :=
    ⟨h.base.kind, h.base.setup, h.base.ok, h.base.tidy⟩
  have hcommit : ∀ z, zone (T f.pid).prog (.at i) = z → z ≠ .body → i + 1 ≠ (T f.pid).prog.commit := by
    intro z hz hne heq
    have := Z.sc; have := Z.cc; have := Z.ca; have := Z.an; have := Z.nl
    rcases zone_at_cases Z (i := i) with h'|h'|h'|h'|h'|h'|h' <;>
      first | omega | exact hne (hz ▸ h'.1)
  have hmf : memFree ins = true → ∀ m : Mem n,
      Rseq.exec (T f.pid).prog (x.fv f.fld) i ins f.l m = (l', m) := by
    intro hm m
    have h1 := exec_memFree hm (T f.pid).prog (x.fv f.fld) i f.l m mem
    refine Prod.ext ?_ h1.1
    rw [hl']; exact h1.2
  rcases zone_at_cases Z (i := i) with hz|hz|hz|hz|hz|hz|hz
  · -- set-up
    obtain ⟨hz, -⟩ := hz
    obtain ⟨p1, p2, p3⟩ := h.pre (by rw [hp]; exact hz)
    obtain ⟨q1, q2, q3, q4, q5⟩ := pre_step Z hc hz (fv := x.fv f.fld) (l := f.l) (m := mem)
    have hnc := hcommit _ hz (by simp)
    rw [← hl'] at q4
    have hrep : ∀ fv m, Rep (T f.pid).prog fv m f.l0 l' (fun x => touched ins f.l x ∨ f.foot x) := by
      intro fv m
      refine (p3 fv m).step hp hc ?_
      rw [exec_cpuFree q2 (T f.pid).prog fv (x.fv f.fld)]
      exact hmf q1 m
    have hft : ∀ a, ¬ (touched ins f.l a ∨ f.foot a) := by
      rintro a (h | h)
      · exact memFree_touched q1 f.l a h
      · exact p2 a h
    refine ⟨hbase, h.guard, ?_, ?_, ?_, ?_, ?_, ?_, ?_⟩ <;> dsimp only <;>
      rw [q4, q5]
    · intro _; exact ⟨by rw [if_neg hnc]; exact p1, hft, hrep⟩
    · intro hz'
      by_cases hs : i + 1 = (T f.pid).prog.start
      · have hcs : isCs ins = true := q3.2 hs
        refine ⟨?_, fun _ => hft, ?_, ?_⟩
        · dsimp only; rw [if_neg hnc]; exact p1
        · intro hr
          refine ⟨trivial, ?_, fun _ => ⟨?_, ?_, ?_⟩⟩
          · dsimp only; rw [if_pos hcs]
          · dsimp only; rw [if_pos hcs]
          · exact hrep _ _
          · left; intro a ha; exact absurd ha (hft a)
        · intro hr
          refine ⟨?_, fun m => hrep _ _⟩
          dsimp only; rw [q4, q5, if_pos hs]
      · rw [if_neg hs] at hz'; simp at hz'
    all_goals (split <;> simp)
  · -- CPU check
    obtain ⟨hz, -⟩ := hz
    have hi := h.rng (by rw [hp]; exact .inl hz)
    have hft0 := hi.chk (by rw [hp]; exact hz)
    obtain ⟨q1, q2, q3⟩ := chk_step Z hc hz (fv := x.fv f.fld) (l := f.l) (m := mem)
    rw [← hl'] at q3
    have hnc := hcommit _ hz (by simp)
    have hft : ∀ a, ¬ (touched ins f.l a ∨ f.foot a) := by
      rintro a (h | h)
      · exact memFree_touched q1 f.l a h
      · exact hft0 a h
    refine ⟨hbase, h.guard, ?_, ?_, ?_, ?_, ?_, ?_, ?_⟩ <;> dsimp only
    · intro hz'; rcases q3 with q3 | q3 | q3 <;> rw [q3] at hz' <;> simp at hz'
    · intro hz'
      refine ⟨?_, fun _ => hft, ?_, ?_⟩
      · dsimp only; rw [if_neg hnc]; exact hi.commits
      · intro hr
        obtain ⟨r1, r2, r3⟩ := hi.regd hr
        refine ⟨trivial, ?_, fun _ => ?_⟩
        · dsimp only; rw [if_neg (by rw [q2]; simp)]; exact r2
        · obtain ⟨r4, r5, r6⟩ := r3 hrun
          refine ⟨?_, ?_, .inl fun a ha => absurd ha (hft a)⟩
          · dsimp only; rw [if_neg (by rw [q2]; simp)]; exact r4
          · dsimp only; rw [if_pos q1]
            exact r5.step hp hc (hmf q1 _)
      · intro hr
        obtain ⟨u1, u2⟩ := hi.unreg hr
        have hrep : ∀ m, Rep (T f.pid).prog (x.fv f.fld) m f.l0 l'
            (fun x => touched ins f.l x ∨ f.foot x) := fun m => (u2 m).step hp hc (hmf q1 m)
        refine ⟨?_, hrep⟩
        rcases hz' with hz' | hz'
        · exact hz'
        · exact absurd (Rep.cpu_eq Z himp h.base.setup (hrep mem) (.inl hz')) (h.guard hr)
    · intro hz'; rcases q3 with q3 | q3 | q3 <;> rw [q3] at hz' <;> simp at hz'
    · intro _; rw [if_neg hnc]; exact hi.commits
    · intro hz'; rcases q3 with q3 | q3 | q3 <;> rw [q3] at hz' <;> simp at hz'
    · rcases q3 with q3 | q3 | q3 <;> rw [q3] <;> simp
    · intro r hz'; rcases q3 with q3 | q3 | q3 <;> rw [q3] at hz' <;> simp at hz'
  · -- body
    obtain ⟨hz, -⟩ := hz
    have hi := h.rng (by rw [hp]; exact .inr hz)
    have hreg : x.reg = true := by
      cases hx : x.reg with
      | true => rfl
      | false => have := (hi.unreg hx).1; rw [hp, hz] at this; simp at this
    obtain ⟨-, r2, r3⟩ := hi.regd hreg
    obtain ⟨r4, r5, r6⟩ := r3 hrun
    obtain ⟨q1, q2, q3, q4⟩ := body_step Z hc hz (fv := x.fv f.fld) (l := f.l) (m := mem)
    rw [← hl'] at q3 q4
    by_cases hcm : i + 1 = (T f.pid).prog.commit
    · -- the commit
      obtain ⟨-, q3⟩ := q3 hcm
      refine ⟨hbase, h.guard, ?_, ?_, ?_, ?_, ?_, ?_, ?_⟩ <;> dsimp only <;> rw [q3]
      all_goals first
        | (intro hz'; simp at hz'; done)
        | (intro r hz'; simp at hz'; done)
        | (intro _; exact ⟨hreg, by rw [if_pos hcm, hi.commits]⟩)
        | simp
    · obtain ⟨q4, q5⟩ := q4 hcm
      -- the replay continues on `last`
      have hcont : Rep (T f.pid).prog (x.fv f.fld) (if memFree ins = true then f.last else m') f.l0 l'
            (fun x => touched ins f.l x ∨ f.foot x) ∧
          ((∀ a, (touched ins f.l a ∨ f.foot a) → (if memFree ins = true then f.last else m') a = m' a) ∨
            Quiet (T f.pid).prog l') := by
        rcases r6 with r6 | r6
        · by_cases hm : memFree ins = true
          · rw [if_pos hm]
            refine ⟨r5.step hp hc (hmf hm _), .inl ?_⟩
            rintro a (ha | ha)
            · exact absurd ha (memFree_touched hm f.l a)
            · have : m' = mem := by have := hmf hm mem; rw [he] at this; exact congrArg Prod.snd this
              rw [this]; exact r6 a ha
          · rw [if_neg hm]
            have hsok := (h.base.foot hn).rep h.base.setup (r5.agree r6)
            unfold SOK at hsok
            rw [hp] at hsok
            dsimp only at hsok
            rw [hc] at hsok
            dsimp only at hsok
            refine ⟨(r5.agree r6).own hp hc he ?_ q4, .inl fun _ _ => rfl⟩
            intro a ha
            rcases hsok.2 with h' | h'
            · exact absurd h' hcm
            · exact (h' a ha).2
        · cases r6 with
          | done hd => rw [hp] at hd; simp at hd
          | @step l2 l3 j ins2 hp2 hc2 hm2 hf2 he2 hq2 =>
            rw [hp] at hp2
            injection hp2 with hp2
            subst hp2
            rw [hc] at hc2
            injection hc2 with hc2
            subst hc2
            rw [if_pos hm2]
            refine ⟨r5.step hp hc (hmf hm2 _), .inr ?_⟩
            have := he2 (x.fv f.fld) mem
            rw [he] at this
            rw [show l' = l3 from this]
            exact hq2
      have hfails : zone (T f.pid).prog l'.pc = .neq ∨ zone (T f.pid).prog l'.pc = .done 1 →
          pseudo (T f.pid).prog.be f.op (if memFree ins = true then f.last else m') =
            (1, (if memFree ins = true then f.last else m')) :=
        fun hz' => Rep.fails Z himp h.base.setup hcont.1 hz'
      refine ⟨hbase, h.guard, ?_, ?_, ?_, ?_, ?_, ?_, ?_⟩ <;> dsimp only
      · intro hz'; rcases q5 with q5 | q5 | q5 <;> rw [q5] at hz' <;> simp at hz'
      · intro hz'
        refine ⟨?_, ?_, ?_, ?_⟩
        · dsimp only; rw [if_neg hcm]; exact hi.commits
        · dsimp only; intro hz''; rcases q5 with q5 | q5 | q5 <;> rw [q5] at hz'' <;> simp at hz''
        · intro _
          refine ⟨trivial, ?_, fun _ => ⟨?_, hcont⟩⟩
          · dsimp only; rw [if_neg (by rw [q2]; simp)]; exact r2
          · dsimp only; rw [if_neg (by rw [q2]; simp)]; exact r4
        · intro hr; dsimp only at hr; rw [hreg] at hr; simp at hr
      · intro hz'; rcases q5 with q5 | q5 | q5 <;> rw [q5] at hz' <;> simp at hz'
      · intro hz'; rcases q5 with q5 | q5 | q5 <;> rw [q5] at hz' <;> simp at hz'
      · intro hz'; exact ⟨hreg, by rw [if_neg hcm]; exact hi.commits, hfails hz'⟩
      · rcases q5 with q5 | q5 | q5 <;> rw [q5] <;> simp
      · intro r hz'; rcases q5 with q5 | q5 | q5 <;> rw [q5] at hz' <;> simp at hz'
        right; left; exact hz'.symm
  · -- after the commit
    obtain ⟨hz, -⟩ := hz
    obtain ⟨p1, p2⟩ := h.post (by rw [hp]; exact .inl hz)
    obtain ⟨q1, q2, q3⟩ := post_step Z hc hz (fv := x.fv f.fld) (l := f.l) (m := mem)
    rw [← hl'] at q3
    have hnc := hcommit _ hz (by simp)
    refine ⟨hbase, h.guard, ?_, ?_, ?_, ?_, ?_, ?_, ?_⟩ <;> dsimp only
    · intro hz'; rcases q3 with q3 | q3 <;> rw [q3] at hz' <;> simp at hz'
    · intro hz'; rcases q3 with q3 | q3 <;> rw [q3] at hz' <;> simp at hz'
    · intro _; exact ⟨p1, by rw [if_neg hnc]; exact p2⟩
    · intro hz'; rcases q3 with q3 | q3 <;> rw [q3] at hz' <;> simp at hz'
    · intro hz'; rcases q3 with q3 | q3 <;> rw [q3] at hz' <;> simp at hz'
    · rcases q3 with q3 | q3 <;> rw [q3] <;> simp
    · intro r hz'; rcases q3 with q3 | q3 <;> rw [q3] at hz' <;> simp at hz'
      left; exact hz'.symm
  · -- abort handler
    obtain ⟨hz, -⟩ := hz
    have p1 := h.abt (by rw [hp]; exact .inl hz)
    obtain ⟨q1, q2, q3⟩ := abt_step Z hc hz (fv := x.fv f.fld) (l := f.l) (m := mem)
    rw [← hl'] at q3
    have hnc := hcommit _ hz (by simp)
    refine ⟨hbase, h.guard, ?_, ?_, ?_, ?_, ?_, ?_, ?_⟩ <;> dsimp only
    · intro hz'; rcases q3 with q3 | q3 <;> rw [q3] at hz' <;> simp at hz'
    · intro hz'; rcases q3 with q3 | q3 <;> rw [q3] at hz' <;> simp at hz'
    · intro hz'; rcases q3 with q3 | q3 <;> rw [q3] at hz' <;> simp at hz'
    · intro _; rw [if_neg hnc]; exact p1
    · intro hz'; rcases q3 with q3 | q3 <;> rw [q3] at hz' <;> simp at hz'
    · rcases q3 with q3 | q3 <;> rw [q3] <;> simp
    · intro r hz'; rcases q3 with q3 | q3 <;> rw [q3] at hz' <;> simp at hz'
      right; right; exact hz'.symm
  · -- comparison failed
    obtain ⟨hz, -⟩ := hz
    obtain ⟨p1, p2, p3⟩ := h.neq (by rw [hp]; exact .inl hz)
    obtain ⟨q1, q2, q3⟩ := neq_step Z hc hz (fv := x.fv f.fld) (l := f.l) (m := mem)
    rw [← hl'] at q3
    have hnc := hcommit _ hz (by simp)
    refine ⟨hbase, h.guard, ?_, ?_, ?_, ?_, ?_, ?_, ?_⟩ <;> dsimp only
    · intro hz'; rcases q3 with q3 | q3 <;> rw [q3] at hz' <;> simp at hz'
    · intro hz'; rcases q3 with q3 | q3 <;> rw [q3] at hz' <;> simp at hz'
    · intro hz'; rcases q3 with q3 | q3 <;> rw [q3] at hz' <;> simp at hz'
    · intro hz'; rcases q3 with q3 | q3 <;> rw [q3] at hz' <;> simp at hz'
    · intro _; exact ⟨p1, by rw [if_neg hnc]; exact p2, by rw [if_pos q1]; exact p3⟩
    · rcases q3 with q3 | q3 <;> rw [q3] <;> simp
    · intro r hz'; rcases q3 with q3 | q3 <;> rw [q3] at hz' <;> simp at hz'
      right; left; exact hz'.symm
  · exact absurd (by rw [hp]; exact hz.1) h.out

/-- Another thread's step. -/
theorem TInv.other {s s' : State n} {t u : Nat} (hp : Polite T s t s') (hu : u ≠ t)
    (h : TInv T s.mem (s.th u)) : TInv T s'.mem (s.th u) := by
  refine ⟨fun f hf => ?_, fun f hf => ?_, h.flds, h.unreg⟩
  · exact (h.top f hf).mem fun hr _ hz => hp u f hu hr hf hz
  · exact (h.saved f hf).of_saved rfl fun _ => rfl

theorem updT_same {β : Type} (g : Nat → β) (t : Nat) (x : β) : upd g t x t = x := by simp [upd]

theorem updT_other {β : Type} (g : Nat → β) {t u : Nat} (x : β) (h : u ≠ t) : upd g t x u = g u := by
  simp [upd, h]

/-- Assemble the invariant from the changed thread and the others. -/
theorem Inv.change {s : State n} {t : Nat} {m' : Mem n} {x : Thread n} (h : Inv T s)
    (hp : Polite T s t { mem := m', th := upd s.th t x }) (hx : TInv T m' x)
    (hc : x.run = true → ∀ u, u ≠ t → (s.th u).run = true →
      (s.th u).kcpu ≠ x.kcpu ∧ (s.th u).kcid ≠ x.kcid) :
    Inv T { mem := m', th := upd s.th t x } := by
  refine ⟨fun u => ?_, fun u v huv hu hv => ?_⟩
  · by_cases e : u = t
    · subst e; dsimp only; rw [updT_same]; exact hx
    · have := (h.th u).other hp e
      dsimp only at this ⊢
      rw [updT_other _ _ e]; exact this
  · dsimp only at hu hv ⊢
    by_cases e : u = t
    · subst e
      have e' : v ≠ u := fun e => huv e.symm
      rw [updT_same] at hu ⊢
      rw [updT_other _ _ e'] at hv ⊢
      have := hc hu v e' hv
      exact ⟨fun h => this.1 h.symm, fun h => this.2 h.symm⟩
    · rw [updT_other _ _ e] at hu ⊢
      by_cases e' : v = t
      · subst e'
        rw [updT_same] at hv ⊢
        exact hc hv u e hu
      · rw [updT_other _ _ e'] at hv ⊢
        exact h.cpus u v huv hu hv

/-- Nothing but the fields of the thread that matter. -/
theorem FInv.congr {mem : Mem n} {x y : Thread n} {P : Prop} {f : Frame n} (h : FInv T mem x P f)
    (hr : y.reg = x.reg) (hcs : y.cs = x.cs) (hrun : y.run = true → x.run = true) (hev : y.ev = x.ev)
    (hc : y.cpuId = x.cpuId) (hm : y.mmCid = x.mmCid) : FInv T mem y P f := by
  have hfv : y.fv f.fld = x.fv f.fld := by cases f.fld <;> simp [Thread.fv, hc, hm]
  refine ⟨h.base, ?_, h.pre, ?_, ?_, h.abt, ?_, h.out, h.done⟩
  · intro h'; rw [hfv]; exact h.guard (hr ▸ h')
  · intro hz
    have := h.rng hz
    refine ⟨this.commits, this.chk, ?_, ?_⟩
    · intro h'
      obtain ⟨a, b, c⟩ := this.regd (hr ▸ h')
      refine ⟨a, hcs ▸ b, fun h'' => ?_⟩
      obtain ⟨d, e, g⟩ := c (hrun h'')
      exact ⟨by rw [hev]; exact d, by rw [hfv]; exact e, g⟩
    · intro h'; rw [hfv]; exact this.unreg (hr ▸ h')
  · intro hz; rw [hr]; exact h.post hz
  · intro hz; rw [hr]; exact h.neq hz

theorem Starts.finv {mem : Mem n} {x : Thread n} {f : Frame n} (h : Starts T f mem)
    (hu : x.reg = false → x.fv f.fld ≠ f.cpu) : FInv T mem x True f := by
  have Z := (T f.pid).facts
  have hz : zone (T f.pid).prog f.l.pc = .pre := by
    rw [h.l, h.setup.pc, zone_pre_iff]; have := Z.start1; omega
  refine ⟨⟨h.kind, h.setup, h.ok, h.tidy⟩, hu, ?_, ?_, ?_, ?_, ?_, ?_, ?_⟩
  · intro _
    refine ⟨h.commits, ?_, ?_⟩
    · rw [h.foot]; simp
    · intro fv m; rw [h.l, h.foot]; exact Rep.refl
  all_goals (rw [hz]; simp)

/-- **Every step preserves the invariant.** -/
theorem Inv.step (hn : 4 ≤ n) {s s' : State n} {t : Nat} {lab : Lab n} (h : Inv T s)
    (hs : Step T s t lab s') (hp : Polite T s t s') : Inv T s' := by
  have hx := h.th t
  have hcp : (s.th t).run = true → ∀ u, u ≠ t → (s.th u).run = true →
      (s.th u).kcpu ≠ (s.th t).kcpu ∧ (s.th u).kcid ≠ (s.th t).kcid :=
    fun hr u hu hur => h.cpus u t hu hur hr
  cases hs with
  | invoke f hr ht hf hu =>
    refine h.change hp ⟨?_, ?_, hx.flds, hx.unreg⟩ hcp
    · intro g hg
      injection hg with hg
      subst hg
      exact hf.finv hu
    · intro g hg; exact (hx.saved g hg).of_saved rfl fun _ => rfl
  | exec f i ins l' m' hr ht hp' hc he =>
    refine h.change hp ⟨?_, ?_, hx.flds, hx.unreg⟩ hcp
    · intro g hg
      dsimp only at hg
      injection hg with hg
      subst hg
      exact (hx.top f ht).exec hn hr hp' hc he
    · intro g hg; exact (hx.saved g hg).of_saved rfl fun _ => rfl
  | ret f r hr ht hp' =>
    refine h.change hp ⟨?_, ?_, hx.flds, hx.unreg⟩ hcp
    · intro g hg; simp at hg
    · intro g hg; exact (hx.saved g hg).of_saved rfl fun _ => rfl
  | user m' hr ht =>
    have e : ({ s with mem := m' } : State n) = { mem := m', th := upd s.th t (s.th t) } := by
      have : upd s.th t (s.th t) = s.th := by funext u; unfold upd; split <;> simp_all
      rw [this]
    rw [e] at hp ⊢
    refine h.change hp ⟨?_, ?_, hx.flds, hx.unreg⟩ hcp
    · intro g hg; rw [ht] at hg; simp at hg
    · intro g hg; exact (hx.saved g hg).of_saved rfl fun _ => rfl
  | preempt hr =>
    refine h.change hp ⟨?_, ?_, ?_, hx.unreg⟩ ?_
    · intro g hg; exact (hx.top g hg).congr rfl rfl (fun h => by simp at h) rfl rfl rfl
    · intro g hg; exact (hx.saved g hg).of_saved rfl fun _ => rfl
    · intro _ h; simp at h
    · intro h; simp at h
  | resume c k hr hd =>
    have hfv : (s.th t).reg = false → ∀ (y : Thread n) (fl : Fld),
        y.cpuId = (if (s.th t).reg = true then c else (s.th t).cpuId) →
        y.mmCid = (if (s.th t).reg = true then k else (s.th t).mmCid) → y.fv fl = (s.th t).fv fl := by
      intro hreg y fl h1 h2
      rw [hreg] at h1 h2
      cases fl <;> simp [Thread.fv, h1, h2]
    refine h.change hp ⟨?_, ?_, ?_, ?_⟩ ?_
    · intro g hg
      dsimp only at hg
      obtain ⟨f, hf⟩ := fixTop_some hg
      exact (hx.top f hf).fix hf hg rfl fun h fl => hfv h _ fl rfl rfl
    · intro g hg; exact (hx.saved g hg).of_saved rfl fun h => hfv h _ _ rfl rfl
    · intro h _; dsimp only at h ⊢; rw [h]; simp
    · intro h; dsimp only at h ⊢; rw [h]; simpa using hx.unreg h
    · intro _ u hu hur; exact hd u hu hur
  | signal hr =>
    refine h.change hp ⟨?_, ?_, hx.flds, hx.unreg⟩ hcp
    · intro g hg; simp at hg
    · intro g hg
      dsimp only at hg
      rcases List.mem_cons.1 hg with hg | hg
      · obtain ⟨f, hf⟩ := fixTop_some hg.symm
        exact (hx.top f hf).fix hf hg.symm rfl fun h fl => by cases fl <;> rfl
      · exact (hx.saved g hg).of_saved rfl fun _ => by cases g.fld <;> rfl
  | sigret f rest hr ht hs' =>
    refine h.change hp ⟨?_, ?_, hx.flds, hx.unreg⟩ hcp
    · intro g hg
      dsimp only at hg
      subst hg
      exact (hx.saved g (by rw [hs']; simp)).of_saved rfl fun _ => by cases g.fld <;> rfl
    · intro g hg
      exact (hx.saved g (by rw [hs']; exact List.mem_cons_of_mem _ hg)).of_saved rfl
        fun _ => by cases g.fld <;> rfl
  | register hr ht hs' hn' =>
    refine h.change hp ⟨?_, ?_, ?_, ?_⟩ hcp
    · intro g hg; dsimp only at hg; rw [ht] at hg; simp at hg
    · intro g hg; dsimp only at hg; have := hs' _ hg; simp at this
    · intro _ _; exact ⟨rfl, rfl⟩
    · intro h; simp at h
  | unregister hr ht hs' hn' =>
    refine h.change hp ⟨?_, ?_, ?_, ?_⟩ hcp
    · intro g hg; dsimp only at hg; rw [ht] at hg; simp at hg
    · intro g hg; dsimp only at hg; have := hs' _ hg; simp at this
    · intro h; simp at h
    · intro _; exact ⟨rfl, rfl⟩
  | clear hr ht =>
    refine h.change hp ⟨?_, ?_, hx.flds, hx.unreg⟩ hcp
    · intro g hg; dsimp only at hg; rw [ht] at hg; simp at hg
    · intro g hg; exact (hx.saved g hg).of_saved rfl fun _ => by cases g.fld <;> rfl

theorem PReach.inv (hn : 4 ≤ n) {m0 : Mem n} {s : State n} (h : PReach T m0 s) : Inv T s := by
  induction h with
  | init => exact inv_init m0
  | step _ hs hp ih => exact ih.step hn hs hp

end Verif.Rseq
