import Verif.RseqTaint
import Verif.RseqInv
/-
An invariant of the machine of `RseqConc.lean` that holds in every execution, also when other threads
race with the helpers on their data.
-/

namespace Verif.Rseq

variable {n : Nat}

/-- States reachable by arbitrary steps of threads and kernel. -/
inductive AnyReach (T : Nat → Site n) (m0 : Mem n) : State n → Prop
  | init : AnyReach T m0 { mem := m0, th := fun _ => thread0 }
  | step {s s' : State n} {t : Nat} {lab : Lab n} (h : AnyReach T m0 s) (hs : Step T s t lab s') :
      AnyReach T m0 s'

/-- The symbolic program of a site. -/
def Site.IsSym (S : Site n) (q : Prog n) : Prop := program sym S.be S.csa S.arch S.kind S.rel = some q

theorem Site.exSym (S : Site n) : ∃ q, S.IsSym q ∧ S.prog = q.ren (rn S.al) := by
  have h := S.ok
  rw [rename_program] at h
  obtain ⟨q, hq, h'⟩ := Option.map_eq_some_iff.1 h
  exact ⟨q, hq, h'.symm⟩

theorem Site.sym_prog {S : Site n} {q : Prog n} (h : S.IsSym q) : S.prog = q.ren (rn S.al) := by
  obtain ⟨q', h1, h2⟩ := S.exSym
  unfold Site.IsSym at h h1
  rw [h] at h1
  cases h1
  exact h2

theorem zone_ren (f : Nat → Nat) (q : Prog n) (pc : Pc) : zone (q.ren f) pc = zone q pc := by
  cases pc <;> simp [zone, Prog.ren]

theorem isSt_ren (f : Nat → Nat) (ins : Instr) : isSt (ins.ren f) = isSt ins := by cases ins <;> rfl

theorem cpuFree_ren (f : Nat → Nat) (ins : Instr) : cpuFree (ins.ren f) = cpuFree ins := by
  cases ins <;> rfl

theorem exec_noSt {ins : Instr} (h : isSt ins = false) (p : Prog n) (fv : BitVec 32) (i : Nat) (l : LSt n)
    (m : Mem n) : (exec p fv i ins l m).2 = m := by
  cases ins <;> first | rfl | cases h

/-- On every constant memory on which the call succeeds, the helper passes through a state that agrees
with the real one up to loaded values. -/
def BSim (T : Nat → Site n) (f : Frame n) : Prop :=
  ∀ q, (T f.pid).IsSym q → ∀ m, (pseudo (T f.pid).prog.be f.op m).1 = 0 →
    ∃ j l' F, cit (T f.pid).prog f.cpu m j (f.l0, fun _ => False) = (l', F) ∧
      ∀ i, f.l.pc = .at i → Sim (tann (T f.pid).kind q i) f.l l' ∧
        (i < lastNe q → Rep (T f.pid).prog f.cpu m f.l0 l' F)

/-- What is true of a frame in the body. -/
structure InBody (T : Nat → Site n) (x : Thread n) (isTop : Prop) (f : Frame n) : Prop where
  commits : f.commits = 0
  reg : x.reg = true
  top : isTop
  cs : x.cs = some f.pid
  sim : BSim T f
  here : x.run = true → f.ep = x.ev ∧ x.fv f.fld = f.cpu

/-- What is true of a frame in the CPU check. -/
structure InChk (T : Nat → Site n) (x : Thread n) (isTop : Prop) (f : Frame n) : Prop where
  commits : f.commits = 0
  regd : x.reg = true → isTop ∧ x.cs = some f.pid ∧ (x.run = true →
    f.ep = x.ev ∧ ∀ m, Rep (T f.pid).prog (x.fv f.fld) m f.l0 f.l f.foot)
  unreg : x.reg = false → ∀ m, Rep (T f.pid).prog (x.fv f.fld) m f.l0 f.l f.foot

/-- What is true of a frame; `isTop` says whether it is the one being executed. -/
structure GInv (T : Nat → Site n) (x : Thread n) (isTop : Prop) (f : Frame n) : Prop where
  base : FBase T f
  guard : x.reg = false → x.fv f.fld ≠ f.cpu
  pre : zone (T f.pid).prog f.l.pc = .pre → f.commits = 0 ∧
    ∀ fv m, Rep (T f.pid).prog fv m f.l0 f.l f.foot
  chk : zone (T f.pid).prog f.l.pc = .chk → InChk T x isTop f
  body : zone (T f.pid).prog f.l.pc = .body → InBody T x isTop f
  post : zone (T f.pid).prog f.l.pc = .post ∨ zone (T f.pid).prog f.l.pc = .done 0 →
    x.reg = true ∧ f.commits = 1
  abt : zone (T f.pid).prog f.l.pc = .abt ∨ zone (T f.pid).prog f.l.pc = .done (-1) → f.commits = 0
  neq : zone (T f.pid).prog f.l.pc = .neq ∨ zone (T f.pid).prog f.l.pc = .done 1 →
    x.reg = true ∧ f.commits = 0
  out : zone (T f.pid).prog f.l.pc ≠ .out
  done : ∀ r, zone (T f.pid).prog f.l.pc = .done r → r = 0 ∨ r = 1 ∨ r = -1

/-- What is true of a thread. -/
structure HInv (T : Nat → Site n) (x : Thread n) : Prop where
  top : ∀ f, x.top = some f → GInv T x True f
  saved : ∀ f, some f ∈ x.saved → GInv T x False f
  flds : x.reg = true → x.run = true → x.cpuId = x.kcpu ∧ x.mmCid = x.kcid
  unreg : x.reg = false → x.cpuId = BitVec.allOnes 32 ∧ x.mmCid = 0#32

/-- The invariant. -/
structure AInv (T : Nat → Site n) (s : State n) : Prop where
  th : ∀ t, HInv T (s.th t)
  cpus : ∀ t u, t ≠ u → (s.th t).run = true → (s.th u).run = true →
    (s.th t).kcpu ≠ (s.th u).kcpu ∧ (s.th t).kcid ≠ (s.th u).kcid

variable {T : Nat → Site n}

theorem ainv_init (m0 : Mem n) : AInv T { mem := m0, th := fun _ => thread0 } := by
  refine ⟨fun t => ⟨?_, ?_, ?_, ?_⟩, ?_⟩
  · intro f h; simp [thread0] at h
  · intro f h; simp [thread0] at h
  · intro h; simp [thread0] at h
  · intro _; exact ⟨rfl, rfl⟩
  · intro t u _ h; simp [thread0] at h

theorem GInv.of_saved {x y : Thread n} {P : Prop} {f : Frame n}
    (h : GInv T x False f) (hr : y.reg = x.reg) (hf : x.reg = false → y.fv f.fld = x.fv f.fld) :
    GInv T y P f := by
  refine ⟨h.base, ?_, h.pre, ?_, ?_, ?_, h.abt, ?_, h.out, h.done⟩
  · intro h'; rw [hf (hr ▸ h')]; exact h.guard (hr ▸ h')
  · intro hz
    have := h.chk hz
    refine ⟨this.commits, ?_, ?_⟩
    · intro h'; exact ((this.regd (hr ▸ h')).1).elim
    · intro h'; rw [hf (hr ▸ h')]; exact this.unreg (hr ▸ h')
  · intro hz; exact (h.body hz).top.elim
  · intro hz; rw [hr]; exact h.post hz
  · intro hz; rw [hr]; exact h.neq hz

/-- What the kernel's rule does to a frame. -/
theorem GInv.fixCases {x : Thread n} {P : Prop} {f g : Frame n} (h : GInv T x P f)
    (ht : x.top = some f) (hg : fixTop T x = some g) :
    (g = f ∧ (x.reg = true → zone (T f.pid).prog f.l.pc ≠ .chk ∧
      zone (T f.pid).prog f.l.pc ≠ .body)) ∨
      (f.commits = 0 ∧ g = { f with l := { f.l with pc := .at (T f.pid).prog.abort } }) := by
  have Z := (T f.pid).facts
  unfold fixTop at hg
  rw [ht] at hg
  dsimp only at hg
  cases hpc : f.l.pc with
  | ret r =>
    rw [hpc] at hg
    left
    exact ⟨by simpa using hg.symm, fun _ => by simp [zone]⟩
  | «at» i =>
    rw [hpc] at hg
    dsimp only at hg
    by_cases hc : zone (T f.pid).prog (.at i) = .chk ∨ zone (T f.pid).prog (.at i) = .body
    · have hcom : f.commits = 0 := by
        rcases hc with hc | hc
        · exact (h.chk (by rw [hpc]; exact hc)).commits
        · exact (h.body (by rw [hpc]; exact hc)).commits
      by_cases hreg : x.reg = true
      · have hcs : x.cs = some f.pid := by
          rcases hc with hc | hc
          · exact ((h.chk (by rw [hpc]; exact hc)).regd hreg).2.1
          · exact (h.body (by rw [hpc]; exact hc)).cs
        have hrange : (T f.pid).prog.start ≤ i ∧ i < (T f.pid).prog.commit := by
          have := Z.sc; have := Z.cc
          rcases zone_at_cases Z (i := i) with h'|h'|h'|h'|h'|h'|h' <;> rw [h'.1] at hc <;>
            simp at hc <;> omega
        rw [if_pos ⟨hreg, hcs, hrange⟩] at hg
        right
        exact ⟨hcom, by simpa using hg.symm⟩
      · rw [if_neg (fun h => hreg h.1)] at hg
        left
        exact ⟨by simpa using hg.symm, fun h => absurd h hreg⟩
    · have hrange : ¬ ((T f.pid).prog.start ≤ i ∧ i < (T f.pid).prog.commit) := by
        intro hr'
        rcases zone_at_cases Z (i := i) with h'|h'|h'|h'|h'|h'|h' <;> rw [h'.1] at hc <;>
          simp at hc <;> (have := Z.sc; have := Z.cc; have := Z.ca; have := Z.an; have := Z.nl; omega)
      rw [if_neg (fun h => hrange h.2.2)] at hg
      left
      refine ⟨by simpa using hg.symm, fun _ => ?_⟩
      exact ⟨fun h => hc (.inl h), fun h => hc (.inr h)⟩

/-- The kernel's intervention. -/
theorem GInv.fix {x y : Thread n} {P Q : Prop} {f g : Frame n} (h : GInv T x P f)
    (ht : x.top = some f) (hg : fixTop T x = some g) (hr : y.reg = x.reg)
    (hf : x.reg = false → ∀ fl, y.fv fl = x.fv fl) : GInv T y Q g := by
  have Z := (T f.pid).facts
  rcases h.fixCases ht hg with ⟨rfl, hz⟩ | ⟨hcm, rfl⟩
  · refine ⟨h.base, ?_, h.pre, ?_, ?_, ?_, h.abt, ?_, h.out, h.done⟩
    · intro h'; rw [hf (hr ▸ h')]; exact h.guard (hr ▸ h')
    · intro hzz
      have := h.chk hzz
      refine ⟨this.commits, ?_, ?_⟩
      · intro h'; exact absurd hzz (hz (hr ▸ h')).1
      · intro h'; rw [hf (hr ▸ h')]; exact this.unreg (hr ▸ h')
    · intro hzz; exact absurd hzz (hz (h.body hzz).reg).2
    · intro hz; rw [hr]; exact h.post hz
    · intro hz; rw [hr]; exact h.neq hz
  · have ha := zone_abort Z
    refine ⟨⟨h.base.kind, h.base.setup, h.base.ok, h.base.tidy⟩, ?_, ?_, ?_, ?_, ?_, ?_, ?_, ?_, ?_⟩
    · intro h'; rw [hf (hr ▸ h')]; exact h.guard (hr ▸ h')
    all_goals first
      | (intro hz; dsimp only at hz; rw [ha] at hz; simp at hz; done)
      | (intro _; exact hcm)
      | (intro r hz; dsimp only at hz; rw [ha] at hz; simp at hz; done)

/-- Entering the body. -/
theorem BSim.enter {f f' : Frame n} (e1 : f'.pid = f.pid) (e2 : f'.cpu = f.cpu) (e3 : f'.l0 = f.l0)
    {F : W n → Prop} (h : ∀ m, Rep (T f.pid).prog f.cpu m f.l0 f'.l F) : BSim T f' := by
  intro q hq m hm
  rw [e1] at hq hm ⊢
  rw [e2, e3]
  obtain ⟨j, hj⟩ := (h m).cit
  exact ⟨j, _, _, hj, fun i _ => ⟨Sim.refl _ _, fun _ => h m⟩⟩

/-- Facts about an instruction of the body, for the symbolic program. -/
theorem FBase.tfacts {f : Frame n} (h : FBase T f) {q : Prog n} (hq : (T f.pid).IsSym q) {i : Nat}
    {ins : Instr} (hz : zone (T f.pid).prog (.at i) = .body) (hc : (T f.pid).prog.code[i]? = some ins) :
    ∃ ins0, ins = ins0.ren (rn (T f.pid).al) ∧
      TFacts (clobbers (T f.pid).arch (T f.pid).kind) (T f.pid).kind q i ins0 ∧
      (∀ x ∈ (tann (T f.pid).kind q i).D, x < 1000) ∧
      (∀ o ∈ (T f.pid).kind.opnds, (T f.pid).al o ∉ (tann (T f.pid).kind q i).D) := by
  have Z := (T f.pid).facts
  have hr : (T f.pid).prog.chk ≤ i ∧ i < (T f.pid).prog.commit := by
    rcases zone_at_cases Z (i := i) with h|h|h|h|h|h|h <;> simp_all
  rw [Site.sym_prog hq] at hc hr
  simp only [Prog.ren, List.getElem?_map, Option.map_eq_some_iff] at hc hr
  obtain ⟨ins0, hc0, rfl⟩ := hc
  have hF := tcheck_at (all_tcheck _ _ _ _ _ q hq) hc0 hr.1 hr.2
  refine ⟨ins0, rfl, hF, fun x hx => clobbers_small _ _ x (hF.D x hx), fun o ho hm => ?_⟩
  rw [h.kind] at ho
  obtain ⟨v, hv⟩ := Op.val_opnds f.op o ho
  have := h.setup.free o v hv
  rw [← h.kind] at this
  exact this (hF.D _ hm)

/-- An instruction of the body keeps the similarity. -/
theorem BSim.exec (hn : 4 ≤ n) {f f' : Frame n} (h : BSim T f) (hb : FBase T f) (e1 : f'.pid = f.pid)
    (e2 : f'.cpu = f.cpu) (e3 : f'.l0 = f.l0) (e4 : f'.op = f.op) {i : Nat} {ins : Instr} {mem : Mem n}
    (hp : f.l.pc = .at i) (hc : (T f.pid).prog.code[i]? = some ins)
    (hz : zone (T f.pid).prog (.at i) = .body) (hcm : i + 1 ≠ (T f.pid).prog.commit)
    (hl : f'.l = (Rseq.exec (T f.pid).prog f.cpu i ins f.l mem).1)
    (hz' : zone (T f.pid).prog f'.l.pc = .body) : BSim T f' := by
  have Z := (T f.pid).facts
  intro q hq m hm
  rw [e1] at hq hm ⊢
  rw [e4] at hm
  rw [e2, e3]
  obtain ⟨j, l', F, h1, h2⟩ := h q hq m hm
  obtain ⟨hsim, hrep⟩ := h2 i hp
  obtain ⟨ins0, rfl, hF, hD, hfree⟩ := hb.tfacts hq hz hc
  have hp' : l'.pc = .at i := by rw [hsim.pc, hp]
  have hq' := Site.sym_prog hq
  have hzq : ∀ pc, zone q pc = zone (T f.pid).prog pc := fun pc => by rw [hq', zone_ren]
  have hcq : q.commit = (T f.pid).prog.commit := by rw [hq']; rfl
  have hcpu := (body_step Z hc hz (fv := f.cpu) (l := f.l) (m := mem)).1
  rw [cpuFree_ren] at hcpu
  have hex := hsim.exec (P := (T f.pid).prog) hD hfree hF.ok hcpu f.cpu mem m
  rw [← hl] at hex
  have hcit : cit (T f.pid).prog f.cpu m (j + 1) (f.l0, fun _ => False) =
      ((Rseq.exec (T f.pid).prog f.cpu i (ins0.ren (rn (T f.pid).al)) l' m).1,
        fun x => touched (ins0.ren (rn (T f.pid).al)) l' x ∨ F x) := by
    rw [cit_add, h1]
    simp only [cit, cnext, step, ctouch, hp', hc]
  have hrep' : i < lastNe q → Rep (T f.pid).prog f.cpu m f.l0
      (Rseq.exec (T f.pid).prog f.cpu i (ins0.ren (rn (T f.pid).al)) l' m).1
      (fun x => touched (ins0.ren (rn (T f.pid).al)) l' x ∨ F x) := by
    intro hlt
    refine (hrep hlt).step hp' hc ?_
    have := exec_noSt (ins := ins0.ren (rn (T f.pid).al)) (by rw [isSt_ren]; exact hF.noSt hlt)
      (T f.pid).prog f.cpu i l' m
    exact Prod.ext rfl this
  refine ⟨j + 1, _, _, hcit, ?_⟩
  rcases hex with hs | ⟨hlt, hne⟩
  · intro i' hi'
    have hmem := exec_succs (T f.pid).prog f.cpu i (ins0.ren (rn (T f.pid).al)) f.l mem
    rw [← hl, succs_ren, hi'] at hmem
    rcases hF.next (by rw [hcq]; exact hcm) _ hmem with hx | ⟨j', hj', hle, hb'⟩
    · rw [hi'] at hz'
      simp [toNe, hzq, hz'] at hx
    · cases hj'
      refine ⟨hs.le hle, fun hlt' => hrep' ?_⟩
      rcases hb' with h' | h'
      · exact h'
      · omega
  · exfalso
    rcases hne with hne | hne
    · simp [toNe, hzq, hz'] at hne
    · have := Rep.fails Z (hb.impl hn) hb.setup (hrep' hlt) (by
        simpa [toNe, hzq] using hne)
      rw [this] at hm
      simp at hm

/-- The thread's own instruction. -/
theorem GInv.exec (hn : 4 ≤ n) {mem m' : Mem n} {x : Thread n} {f : Frame n}
    (h : GInv T x True f) (hrun : x.run = true) {i : Nat} {ins : Instr} {l' : LSt n}
    (hp : f.l.pc = .at i) (hc : (T f.pid).prog.code[i]? = some ins)
    (he : Rseq.exec (T f.pid).prog (x.fv f.fld) i ins f.l mem = (l', m')) :
    GInv T { x with
        top := some { f with
          l := l'
          foot := fun x => touched ins f.l x ∨ f.foot x
          last := if memFree ins = true then f.last else m'
          commits := if i + 1 = (T f.pid).prog.commit then f.commits + 1 else f.commits
          ep := if isCs ins = true then x.ev else f.ep }
        cs := if isCs ins = true then some f.pid else x.cs } True
      { f with
          l := l'
          foot := fun x => touched ins f.l x ∨ f.foot x
          last := if memFree ins = true then f.last else m'
          commits := if i + 1 = (T f.pid).prog.commit then f.commits + 1 else f.commits
          ep := if isCs ins = true then x.ev else f.ep } := by
  have Z := (T f.pid).facts
  have himp := h.base.impl hn
  have hl' : l' = (Rseq.exec (T f.pid).prog (x.fv f.fld) i ins f.l mem).1 := by rw [he]
  have hbase : FBase T { f with
          l := l'
          foot := fun x => touched ins f.l x ∨ f.foot x
          last := if memFree ins = true then f.last else m'
          commits := if i + 1 = (T f.pid).prog.commit then f.commits + 1 else f.commits
          ep := if isCs ins = true then x.ev else f.ep } :=
    ⟨h.base.kind, h.base.setup, h.base.ok, h.base.tidy⟩
  have hcommit : ∀ z, zone (T f.pid).prog (.at i) = z → z ≠ .body → i + 1 ≠ (T f.pid).prog.commit := by
    intro z hz hne heq
    have := Z.sc; have := Z.cc; have := Z.ca; have := Z.an; have := Z.nl
    rcases zone_at_cases Z (i := i) with h'|h'|h'|h'|h'|h'|h' <;>
      first | omega | exact hne (hz ▸ h'.1)
  have hmf : memFree ins = true → ∀ m : Mem n,
      Rseq.exec (T f.pid).prog (x.fv f.fld) i ins f.l m = (l', m) := by
    intro hm m
    have h1 := exec_memFree hm (T f.pid).prog (x.fv f.fld) i f.l m mem
    refine Prod.ext ?_ h1.1
    rw [hl']; exact h1.2
  rcases zone_at_cases Z (i := i) with hz|hz|hz|hz|hz|hz|hz
  · -- set-up
    obtain ⟨hz, -⟩ := hz
    obtain ⟨p1, p3⟩ := h.pre (by rw [hp]; exact hz)
    obtain ⟨q1, q2, q3, q4, q5⟩ := pre_step Z hc hz (fv := x.fv f.fld) (l := f.l) (m := mem)
    have hnc := hcommit _ hz (by simp)
    rw [← hl'] at q4
    have hrep : ∀ fv m, Rep (T f.pid).prog fv m f.l0 l' (fun x => touched ins f.l x ∨ f.foot x) := by
      intro fv m
      refine (p3 fv m).step hp hc ?_
      rw [exec_cpuFree q2 (T f.pid).prog fv (x.fv f.fld)]
      exact hmf q1 m
    refine ⟨hbase, h.guard, ?_, ?_, ?_, ?_, ?_, ?_, ?_, ?_⟩ <;> dsimp only <;>
      rw [q4, q5]
    · intro _; exact ⟨by rw [if_neg hnc]; exact p1, hrep⟩
    · intro hz'
      by_cases hs : i + 1 = (T f.pid).prog.start
      · have hcs : isCs ins = true := q3.2 hs
        refine ⟨?_, ?_, ?_⟩
        · dsimp only; rw [if_neg hnc]; exact p1
        · intro hr
          refine ⟨trivial, ?_, fun _ => ⟨?_, ?_⟩⟩
          · dsimp only; rw [if_pos hcs]
          · dsimp only; rw [if_pos hcs]
          · exact hrep _
        · intro hr; exact hrep _
      · rw [if_neg hs] at hz'; simp at hz'
    all_goals (split <;> simp)
  · -- CPU check
    obtain ⟨hz, -⟩ := hz
    have hi := h.chk (by rw [hp]; exact hz)
    obtain ⟨q1, q2, q3⟩ := chk_step Z hc hz (fv := x.fv f.fld) (l := f.l) (m := mem)
    rw [← hl'] at q3
    have hnc := hcommit _ hz (by simp)
    have hcs : isCs ins ≠ true := by rw [q2]; simp
    have hrep : ∀ m, Rep (T f.pid).prog (x.fv f.fld) m f.l0 l'
        (fun x => touched ins f.l x ∨ f.foot x) := by
      intro m
      cases hx : x.reg with
      | true => exact (((hi.regd hx).2.2 hrun).2 m).step hp hc (hmf q1 m)
      | false => exact (hi.unreg hx m).step hp hc (hmf q1 m)
    refine ⟨hbase, h.guard, ?_, ?_, ?_, ?_, ?_, ?_, ?_, ?_⟩ <;> dsimp only
    · intro hz'; rcases q3 with q3 | q3 | q3 <;> rw [q3] at hz' <;> simp at hz'
    · intro hz'
      refine ⟨?_, ?_, fun _ => hrep⟩
      · dsimp only; rw [if_neg hnc]; exact hi.commits
      · intro hr
        obtain ⟨r1, r2, r3⟩ := hi.regd hr
        refine ⟨trivial, ?_, fun _ => ⟨?_, hrep⟩⟩
        · dsimp only; rw [if_neg hcs]; exact r2
        · dsimp only; rw [if_neg hcs]; exact (r3 hrun).1
    · intro hz'
      have hfv : x.fv f.fld = f.cpu := Rep.cpu_eq Z himp h.base.setup (hrep mem) (.inl hz')
      have hreg : x.reg = true := by
        cases hx : x.reg with
        | true => rfl
        | false => exact absurd hfv (h.guard hx)
      obtain ⟨r1, r2, r3⟩ := hi.regd hreg
      refine ⟨?_, hreg, trivial, ?_, ?_, fun _ => ⟨?_, hfv⟩⟩
      · dsimp only; rw [if_neg hnc]; exact hi.commits
      · dsimp only; rw [if_neg hcs]; exact r2
      · rw [hfv] at hrep
        exact BSim.enter (f := f) rfl rfl rfl hrep
      · dsimp only; rw [if_neg hcs]; exact (r3 hrun).1
    · intro hz'; rcases q3 with q3 | q3 | q3 <;> rw [q3] at hz' <;> simp at hz'
    · intro _; rw [if_neg hnc]; exact hi.commits
    · intro hz'; rcases q3 with q3 | q3 | q3 <;> rw [q3] at hz' <;> simp at hz'
    · rcases q3 with q3 | q3 | q3 <;> rw [q3] <;> simp
    · intro r hz'; rcases q3 with q3 | q3 | q3 <;> rw [q3] at hz' <;> simp at hz'
  · -- body
    obtain ⟨hz, -⟩ := hz
    have hi := h.body (by rw [hp]; exact hz)
    have hreg := hi.reg
    obtain ⟨r4, r5⟩ := hi.here hrun
    obtain ⟨q1, q2, q3, q4⟩ := body_step Z hc hz (fv := x.fv f.fld) (l := f.l) (m := mem)
    rw [← hl'] at q3 q4
    by_cases hcm : i + 1 = (T f.pid).prog.commit
    · -- the commit
      obtain ⟨-, q3⟩ := q3 hcm
      refine ⟨hbase, h.guard, ?_, ?_, ?_, ?_, ?_, ?_, ?_, ?_⟩ <;> dsimp only <;> rw [q3]
      all_goals first
        | (intro hz'; simp at hz'; done)
        | (intro r hz'; simp at hz'; done)
        | (intro _; exact ⟨hreg, by rw [if_pos hcm, hi.commits]⟩)
        | simp
    · obtain ⟨q4, q5⟩ := q4 hcm
      refine ⟨hbase, h.guard, ?_, ?_, ?_, ?_, ?_, ?_, ?_, ?_⟩ <;> dsimp only
      · intro hz'; rcases q5 with q5 | q5 | q5 <;> rw [q5] at hz' <;> simp at hz'
      · intro hz'; rcases q5 with q5 | q5 | q5 <;> rw [q5] at hz' <;> simp at hz'
      · intro hz'
        refine ⟨?_, hreg, trivial, ?_, ?_, fun _ => ⟨?_, r5⟩⟩
        · dsimp only; rw [if_neg hcm]; exact hi.commits
        · dsimp only; rw [if_neg (by rw [q2]; simp)]; exact hi.cs
        · rw [r5] at hl'
          exact BSim.exec hn hi.sim h.base rfl rfl rfl rfl hp hc hz hcm hl' hz'
        · dsimp only; rw [if_neg (by rw [q2]; simp)]; exact r4
      · intro hz'; rcases q5 with q5 | q5 | q5 <;> rw [q5] at hz' <;> simp at hz'
      · intro hz'; rcases q5 with q5 | q5 | q5 <;> rw [q5] at hz' <;> simp at hz'
      · intro hz'; exact ⟨hreg, by rw [if_neg hcm]; exact hi.commits⟩
      · rcases q5 with q5 | q5 | q5 <;> rw [q5] <;> simp
      · intro r hz'; rcases q5 with q5 | q5 | q5 <;> rw [q5] at hz' <;> simp at hz'
        right; left; exact hz'.symm
  · -- after the commit
    obtain ⟨hz, -⟩ := hz
    obtain ⟨p1, p2⟩ := h.post (by rw [hp]; exact .inl hz)
    obtain ⟨q1, q2, q3⟩ := post_step Z hc hz (fv := x.fv f.fld) (l := f.l) (m := mem)
    rw [← hl'] at q3
    have hnc := hcommit _ hz (by simp)
    refine ⟨hbase, h.guard, ?_, ?_, ?_, ?_, ?_, ?_, ?_, ?_⟩ <;> dsimp only
    · intro hz'; rcases q3 with q3 | q3 <;> rw [q3] at hz' <;> simp at hz'
    · intro hz'; rcases q3 with q3 | q3 <;> rw [q3] at hz' <;> simp at hz'
    · intro hz'; rcases q3 with q3 | q3 <;> rw [q3] at hz' <;> simp at hz'
    · intro _; exact ⟨p1, by rw [if_neg hnc]; exact p2⟩
    · intro hz'; rcases q3 with q3 | q3 <;> rw [q3] at hz' <;> simp at hz'
    · intro hz'; rcases q3 with q3 | q3 <;> rw [q3] at hz' <;> simp at hz'
    · rcases q3 with q3 | q3 <;> rw [q3] <;> simp
    · intro r hz'; rcases q3 with q3 | q3 <;> rw [q3] at hz' <;> simp at hz'
      left; exact hz'.symm
  · -- abort handler
    obtain ⟨hz, -⟩ := hz
    have p1 := h.abt (by rw [hp]; exact .inl hz)
    obtain ⟨q1, q2, q3⟩ := abt_step Z hc hz (fv := x.fv f.fld) (l := f.l) (m := mem)
    rw [← hl'] at q3
    have hnc := hcommit _ hz (by simp)
    refine ⟨hbase, h.guard, ?_, ?_, ?_, ?_, ?_, ?_, ?_, ?_⟩ <;> dsimp only
    · intro hz'; rcases q3 with q3 | q3 <;> rw [q3] at hz' <;> simp at hz'
    · intro hz'; rcases q3 with q3 | q3 <;> rw [q3] at hz' <;> simp at hz'
    · intro hz'; rcases q3 with q3 | q3 <;> rw [q3] at hz' <;> simp at hz'
    · intro hz'; rcases q3 with q3 | q3 <;> rw [q3] at hz' <;> simp at hz'
    · intro _; rw [if_neg hnc]; exact p1
    · intro hz'; rcases q3 with q3 | q3 <;> rw [q3] at hz' <;> simp at hz'
    · rcases q3 with q3 | q3 <;> rw [q3] <;> simp
    · intro r hz'; rcases q3 with q3 | q3 <;> rw [q3] at hz' <;> simp at hz'
      right; right; exact hz'.symm
  · -- comparison failed
    obtain ⟨hz, -⟩ := hz
    obtain ⟨p1, p2⟩ := h.neq (by rw [hp]; exact .inl hz)
    obtain ⟨q1, q2, q3⟩ := neq_step Z hc hz (fv := x.fv f.fld) (l := f.l) (m := mem)
    rw [← hl'] at q3
    have hnc := hcommit _ hz (by simp)
    refine ⟨hbase, h.guard, ?_, ?_, ?_, ?_, ?_, ?_, ?_, ?_⟩ <;> dsimp only
    · intro hz'; rcases q3 with q3 | q3 <;> rw [q3] at hz' <;> simp at hz'
    · intro hz'; rcases q3 with q3 | q3 <;> rw [q3] at hz' <;> simp at hz'
    · intro hz'; rcases q3 with q3 | q3 <;> rw [q3] at hz' <;> simp at hz'
    · intro hz'; rcases q3 with q3 | q3 <;> rw [q3] at hz' <;> simp at hz'
    · intro hz'; rcases q3 with q3 | q3 <;> rw [q3] at hz' <;> simp at hz'
    · intro _; exact ⟨p1, by rw [if_neg hnc]; exact p2⟩
    · rcases q3 with q3 | q3 <;> rw [q3] <;> simp
    · intro r hz'; rcases q3 with q3 | q3 <;> rw [q3] at hz' <;> simp at hz'
      right; left; exact hz'.symm
  · exact absurd (by rw [hp]; exact hz.1) h.out

/-- Assemble the invariant from the changed thread and the others. -/
theorem AInv.change {s : State n} {t : Nat} {m' : Mem n} {x : Thread n} (h : AInv T s)
    (hx : HInv T x)
    (hc : x.run = true → ∀ u, u ≠ t → (s.th u).run = true →
      (s.th u).kcpu ≠ x.kcpu ∧ (s.th u).kcid ≠ x.kcid) :
    AInv T { mem := m', th := upd s.th t x } := by
  refine ⟨fun u => ?_, fun u v huv hu hv => ?_⟩
  · by_cases e : u = t
    · subst e; dsimp only; rw [updT_same]; exact hx
    · dsimp only
      rw [updT_other _ _ e]; exact h.th u
  · dsimp only at hu hv ⊢
    by_cases e : u = t
    · subst e
      have e' : v ≠ u := fun e => huv e.symm
      rw [updT_same] at hu ⊢
      rw [updT_other _ _ e'] at hv ⊢
      have := hc hu v e' hv
      exact ⟨fun h => this.1 h.symm, fun h => this.2 h.symm⟩
    · rw [updT_other _ _ e] at hu ⊢
      by_cases e' : v = t
      · subst e'
        rw [updT_same] at hv ⊢
        exact hc hv u e hu
      · rw [updT_other _ _ e'] at hv ⊢
        exact h.cpus u v huv hu hv

/-- Nothing but the fields of the thread that matter. -/
theorem GInv.congr {x y : Thread n} {P : Prop} {f : Frame n} (h : GInv T x P f)
    (hr : y.reg = x.reg) (hcs : y.cs = x.cs) (hrun : y.run = true → x.run = true) (hev : y.ev = x.ev)
    (hc : y.cpuId = x.cpuId) (hm : y.mmCid = x.mmCid) : GInv T y P f := by
  have hfv : y.fv f.fld = x.fv f.fld := by cases f.fld <;> simp [Thread.fv, hc, hm]
  refine ⟨h.base, ?_, h.pre, ?_, ?_, ?_, h.abt, ?_, h.out, h.done⟩
  · intro h'; rw [hfv]; exact h.guard (hr ▸ h')
  · intro hz
    have := h.chk hz
    refine ⟨this.commits, ?_, ?_⟩
    · intro h'
      obtain ⟨a, b, c⟩ := this.regd (hr ▸ h')
      refine ⟨a, hcs ▸ b, fun h'' => ?_⟩
      obtain ⟨d, e⟩ := c (hrun h'')
      exact ⟨by rw [hev]; exact d, by rw [hfv]; exact e⟩
    · intro h'; rw [hfv]; exact this.unreg (hr ▸ h')
  · intro hz
    have := h.body hz
    refine ⟨this.commits, hr ▸ this.reg, this.top, hcs ▸ this.cs, this.sim, fun h' => ?_⟩
    rw [hev, hfv]; exact this.here (hrun h')
  · intro hz; rw [hr]; exact h.post hz
  · intro hz; rw [hr]; exact h.neq hz

theorem Starts.ginv {mem : Mem n} {x : Thread n} {f : Frame n} (h : Starts T f mem)
    (hu : x.reg = false → x.fv f.fld ≠ f.cpu) : GInv T x True f := by
  have Z := (T f.pid).facts
  have hz : zone (T f.pid).prog f.l.pc = .pre := by
    rw [h.l, h.setup.pc, zone_pre_iff]; have := Z.start1; omega
  refine ⟨⟨h.kind, h.setup, h.ok, h.tidy⟩, hu, ?_, ?_, ?_, ?_, ?_, ?_, ?_, ?_⟩
  · intro _
    refine ⟨h.commits, ?_⟩
    intro fv m; rw [h.l, h.foot]; exact Rep.refl
  all_goals (rw [hz]; simp)

/-- **Every step preserves the invariant.** -/
theorem AInv.step (hn : 4 ≤ n) {s s' : State n} {t : Nat} {lab : Lab n} (h : AInv T s)
    (hs : Step T s t lab s') : AInv T s' := by
  have hx := h.th t
  have hcp : (s.th t).run = true → ∀ u, u ≠ t → (s.th u).run = true →
      (s.th u).kcpu ≠ (s.th t).kcpu ∧ (s.th u).kcid ≠ (s.th t).kcid :=
    fun hr u hu hur => h.cpus u t hu hur hr
  cases hs with
  | invoke f hr ht hf hu =>
    refine h.change ⟨?_, ?_, hx.flds, hx.unreg⟩ hcp
    · intro g hg
      injection hg with hg
      subst hg
      exact hf.ginv hu
    · intro g hg; exact (hx.saved g hg).of_saved rfl fun _ => rfl
  | exec f i ins l' m' hr ht hp' hc he =>
    refine h.change ⟨?_, ?_, hx.flds, hx.unreg⟩ hcp
    · intro g hg
      dsimp only at hg
      injection hg with hg
      subst hg
      exact (hx.top f ht).exec hn hr hp' hc he
    · intro g hg; exact (hx.saved g hg).of_saved rfl fun _ => rfl
  | ret f r hr ht hp' =>
    refine h.change ⟨?_, ?_, hx.flds, hx.unreg⟩ hcp
    · intro g hg; simp at hg
    · intro g hg; exact (hx.saved g hg).of_saved rfl fun _ => rfl
  | user m' hr ht => exact ⟨h.th, h.cpus⟩
  | preempt hr =>
    refine h.change ⟨?_, ?_, ?_, hx.unreg⟩ ?_
    · intro g hg; exact (hx.top g hg).congr rfl rfl (fun h => by simp at h) rfl rfl rfl
    · intro g hg; exact (hx.saved g hg).of_saved rfl fun _ => rfl
    · intro _ h; simp at h
    · intro h; simp at h
  | resume c k hr hd =>
    have hfv : (s.th t).reg = false → ∀ (y : Thread n) (fl : Fld),
        y.cpuId = (if (s.th t).reg = true then c else (s.th t).cpuId) →
        y.mmCid = (if (s.th t).reg = true then k else (s.th t).mmCid) → y.fv fl = (s.th t).fv fl := by
      intro hreg y fl h1 h2
      rw [hreg] at h1 h2
      cases fl <;> simp [Thread.fv, h1, h2]
    refine h.change ⟨?_, ?_, ?_, ?_⟩ ?_
    · intro g hg
      dsimp only at hg
      obtain ⟨f, hf⟩ := fixTop_some hg
      exact (hx.top f hf).fix hf hg rfl fun h fl => hfv h _ fl rfl rfl
    · intro g hg; exact (hx.saved g hg).of_saved rfl fun h => hfv h _ _ rfl rfl
    · intro h _; dsimp only at h ⊢; rw [h]; simp
    · intro h; dsimp only at h ⊢; rw [h]; simpa using hx.unreg h
    · intro _ u hu hur; exact hd u hu hur
  | signal hr =>
    refine h.change ⟨?_, ?_, hx.flds, hx.unreg⟩ hcp
    · intro g hg; simp at hg
    · intro g hg
      dsimp only at hg
      rcases List.mem_cons.1 hg with hg | hg
      · obtain ⟨f, hf⟩ := fixTop_some hg.symm
        exact (hx.top f hf).fix hf hg.symm rfl fun h fl => by cases fl <;> rfl
      · exact (hx.saved g hg).of_saved rfl fun _ => by cases g.fld <;> rfl
  | sigret f rest hr ht hs' =>
    refine h.change ⟨?_, ?_, hx.flds, hx.unreg⟩ hcp
    · intro g hg
      dsimp only at hg
      subst hg
      exact (hx.saved g (by rw [hs']; simp)).of_saved rfl fun _ => by cases g.fld <;> rfl
    · intro g hg
      exact (hx.saved g (by rw [hs']; exact List.mem_cons_of_mem _ hg)).of_saved rfl
        fun _ => by cases g.fld <;> rfl
  | register hr ht hs' hn' =>
    refine h.change ⟨?_, ?_, ?_, ?_⟩ hcp
    · intro g hg; dsimp only at hg; rw [ht] at hg; simp at hg
    · intro g hg; dsimp only at hg; have := hs' _ hg; simp at this
    · intro _ _; exact ⟨rfl, rfl⟩
    · intro h; simp at h
  | unregister hr ht hs' hn' =>
    refine h.change ⟨?_, ?_, ?_, ?_⟩ hcp
    · intro g hg; dsimp only at hg; rw [ht] at hg; simp at hg
    · intro g hg; dsimp only at hg; have := hs' _ hg; simp at this
    · intro h; simp at h
    · intro _; exact ⟨rfl, rfl⟩
  | clear hr ht =>
    refine h.change ⟨?_, ?_, hx.flds, hx.unreg⟩ hcp
    · intro g hg; dsimp only at hg; rw [ht] at hg; simp at hg
    · intro g hg; exact (hx.saved g hg).of_saved rfl fun _ => by cases g.fld <;> rfl

theorem AnyReach.inv (hn : 4 ≤ n) {m0 : Mem n} {s : State n} (h : AnyReach T m0 s) : AInv T s := by
  induction h with
  | init => exact ainv_init m0
  | step _ hs ih => exact ih.step hn hs

end Verif.Rseq
