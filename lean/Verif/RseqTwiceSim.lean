import Verif.RseqTwiceLocal
/-
Every polite execution of a `RSEQ_COMPARE_TWICE` build corresponds to a polite execution of the normal
build: the instructions of the inserted block have no counterpart, every other step has exactly one.
-/

namespace Verif.Rseq

variable {n : Nat} (T : Nat → Site n)

/-- The programs of a `RSEQ_COMPARE_TWICE` build. -/
def tw : Nat → Prog n := fun i => (T i).twice

/-- Corresponding frames (`f` normal, `g` twice): same call. -/
structure FSame (f g : Frame n) : Prop where
  pid : g.pid = f.pid
  fld : g.fld = f.fld
  cpu : g.cpu = f.cpu
  op : g.op = f.op
  l0 : g.l0 = f.l0
  commits : g.commits = f.commits
  ep : g.ep = f.ep

/-- At corresponding positions, with the same registers. -/
def ModeA (f g : Frame n) : Prop :=
  g.l = { f.l with pc := f.l.pc.shift (T f.pid).tp (T f.pid).tk } ∧ ∀ a, f.foot a → g.foot a

/-- Inside the block. -/
def ModeB (mem : Mem n) (running : Bool) (fv : BitVec 32) (f g : Frame n) : Prop :=
  f.l.pc = .at (T f.pid).tp ∧ (∀ a, f.foot a → g.foot a) ∧ ∃ j, j < (T f.pid).tk ∧
    g.l.pc = .at ((T f.pid).tp + j) ∧
    (running = true → ∀ m2, (∀ a, g.foot a → mem a = m2 a) →
      Rseq.run (T f.pid).twice fv j (f.l, m2) = (g.l, m2))

/-- In the abort handler. -/
def ModeC (f g : Frame n) : Prop :=
  (zone (T f.pid).prog f.l.pc = .abt ∨ zone (T f.pid).prog f.l.pc = .done (-1)) ∧
    g.l.pc = f.l.pc.shift (T f.pid).tp (T f.pid).tk

/-- Corresponding frames being executed. -/
def RTop (mem : Mem n) (x : Thread n) : Option (Frame n) → Option (Frame n) → Prop
  | none, none => True
  | some f, some g => FSame f g ∧ (ModeA T f g ∨ ModeB T mem x.run (x.fv f.fld) f g ∨ ModeC T f g)
  | _, _ => False

/-- Corresponding interrupted frames. -/
def RSav : Option (Frame n) → Option (Frame n) → Prop
  | none, none => True
  | some f, some g => FSame f g ∧ (ModeA T f g ∨ ModeC T f g)
  | _, _ => False

inductive RL : List (Option (Frame n)) → List (Option (Frame n)) → Prop
  | nil : RL [] []
  | cons {f g : Option (Frame n)} {fs gs : List (Option (Frame n))} (h : RSav T f g) (hr : RL fs gs) :
      RL (f :: fs) (g :: gs)

/-- Corresponding threads. -/
structure RT (mem : Mem n) (x y : Thread n) : Prop where
  top : RTop T mem x x.top y.top
  saved : RL T x.saved y.saved
  cs : y.cs = x.cs
  reg : y.reg = x.reg
  run : y.run = x.run
  kcpu : y.kcpu = x.kcpu
  kcid : y.kcid = x.kcid
  cpuId : y.cpuId = x.cpuId
  mmCid : y.mmCid = x.mmCid
  ev : y.ev = x.ev

/-- Corresponding states. -/
structure RSt (s s' : State n) : Prop where
  mem : s'.mem = s.mem
  th : ∀ t, RT T s.mem (s.th t) (s'.th t)

variable {T}

theorem RT.fv {mem : Mem n} {x y : Thread n} (h : RT T mem x y) (fl : Fld) : y.fv fl = x.fv fl := by
  cases fl
  · exact h.cpuId
  · exact h.mmCid

theorem RT.kv {mem : Mem n} {x y : Thread n} (h : RT T mem x y) (fl : Fld) : y.kv fl = x.kv fl := by
  cases fl
  · exact h.kcpu
  · exact h.kcid

theorem RL.length {fs gs : List (Option (Frame n))} (h : RL T fs gs) : gs.length = fs.length := by
  induction h with
  | nil => rfl
  | cons _ _ ih => simp [ih]

theorem RL.none {fs gs : List (Option (Frame n))} (h : RL T fs gs) (hn : ∀ g ∈ gs, g = none) :
    ∀ f ∈ fs, f = none := by
  induction h with
  | nil => simp
  | @cons f g fs gs h _ ih =>
    intro f' hf'
    rcases List.mem_cons.1 hf' with rfl | hf'
    · have := hn g (by simp)
      subst this
      cases f' with
      | none => rfl
      | some f => exact h.elim
    · exact ih (fun g hg => hn g (List.mem_cons_of_mem _ hg)) f' hf'

theorem RL.refl_nil : RL T ([] : List (Option (Frame n))) [] := .nil

theorem RTop.none_iff {mem : Mem n} {x : Thread n} {a b : Option (Frame n)} (h : RTop T mem x a b)
    (hb : b = none) : a = none := by
  subst hb
  cases a with
  | none => rfl
  | some f => exact h.elim

theorem RTop.some {mem : Mem n} {x : Thread n} {a b : Option (Frame n)} {g : Frame n}
    (h : RTop T mem x a b) (hb : b = some g) : ∃ f, a = some f ∧ FSame f g ∧
      (ModeA T f g ∨ ModeB T mem x.run (x.fv f.fld) f g ∨ ModeC T f g) := by
  subst hb
  cases a with
  | none => exact h.elim
  | some f => exact ⟨f, rfl, h⟩

theorem RSav.top {mem : Mem n} {x : Thread n} {a b : Option (Frame n)} (h : RSav T a b) :
    RTop T mem x a b := by
  cases a <;> cases b <;> first | trivial | exact h.elim | skip
  obtain ⟨h1, h2 | h2⟩ := h
  · exact ⟨h1, .inl h2⟩
  · exact ⟨h1, .inr (.inr h2)⟩

/-! ### The block -/

theorem at_tp {mem : Mem n} {x : Thread n} {f : Frame n} (h : FInv T mem x True f)
    (hpc : f.l.pc = .at (T f.pid).tp) :
    zone (T f.pid).prog f.l.pc = .body ∧ x.reg = true ∧ x.cs = some f.pid := by
  have F := (T f.pid).tfacts
  have Z := (T f.pid).facts
  have hz : zone (T f.pid).prog f.l.pc = .body := by
    rw [hpc]
    have := F.chk; have := F.commit; have := Z.sc; have := Z.cc; have := Z.ca; have := Z.an; have := Z.nl
    rcases zone_at_cases Z (i := (T f.pid).tp) with h'|h'|h'|h'|h'|h'|h' <;> first | exact h'.1 | omega
  have hi := h.rng (.inr hz)
  have hreg : x.reg = true := by
    cases hx : x.reg with
    | true => rfl
    | false => have := (hi.unreg hx).1; rw [hz] at this; simp at this
  exact ⟨hz, hreg, (hi.regd hreg).2.1⟩

/-- The whole block on the current memory. -/
theorem blk_run (hn : 4 ≤ n) {mem : Mem n} {x : Thread n} {f : Frame n} (h : FInv T mem x True f)
    (hrun : x.run = true) (hpc : f.l.pc = .at (T f.pid).tp) :
    Rseq.run (T f.pid).twice (x.fv f.fld) (T f.pid).tk (f.l, mem) =
      ({ f.l with pc := .at ((T f.pid).tp + (T f.pid).tk) }, mem) := by
  have F := (T f.pid).tfacts
  obtain ⟨hz, hreg, -⟩ := at_tp h hpc
  obtain ⟨-, -, r3⟩ := (h.rng (.inr hz)).regd hreg
  obtain ⟨-, r5, r6⟩ := r3 hrun
  have r6 : ∀ a, f.foot a → f.last a = mem a := by
    rcases r6 with r6 | r6
    · exact r6
    · exact (r6.not_after_cut (T f.pid) _ hpc F.cut (by rw [hpc] at hz; exact hz)).elim
  have hfv := Rep.cpu_eq (T f.pid).facts (h.base.impl hn) h.base.setup r5 (.inl hz)
  have hr := (r5.agree r6).count F.tgt h.base.setup.pc _ hpc (Nat.le_refl _)
  have hb := (T f.pid).block hn f.op h.base.kind f.cpu f.l0 mem h.base.setup
  rw [hfv] at hr ⊢
  rw [hr] at hb
  exact hb hpc

/-- One instruction of the block. -/
theorem blk_step (hn : 4 ≤ n) {mem m' : Mem n} {x : Thread n} {f : Frame n} {l l' : LSt n} {j : Nat}
    {ins : Instr} (h : FInv T mem x True f)
    (hrun : x.run = true) (hpc : f.l.pc = .at (T f.pid).tp) (hj : j < (T f.pid).tk)
    (hl : l.pc = .at ((T f.pid).tp + j))
    (hr : Rseq.run (T f.pid).twice (x.fv f.fld) j (f.l, mem) = (l, mem))
    (hc : (T f.pid).twice.code[(T f.pid).tp + j]? = some ins)
    (he : exec (T f.pid).twice (x.fv f.fld) ((T f.pid).tp + j) ins l mem = (l', m')) :
    m' = mem ∧ isCs ins = false ∧ l'.pc = .at ((T f.pid).tp + j + 1) ∧
    (j + 1 = (T f.pid).tk → l' = { f.l with pc := .at ((T f.pid).tp + (T f.pid).tk) }) ∧
    ∀ m2, Rseq.run (T f.pid).twice (x.fv f.fld) j (f.l, m2) = (l, m2) →
      (∀ a, touched ins l a → mem a = m2 a) →
      Rseq.run (T f.pid).twice (x.fv f.fld) (j + 1) (f.l, m2) = (l', m2) := by
  have F := (T f.pid).tfacts
  have hall := blk_run hn h hrun hpc
  have hcb : (T f.pid).blk[j]? = some ins := by rw [← (T f.pid).t_blk hj]; exact hc
  have hw := F.bwr j ins hcb
  have hm' : m' = mem := by
    have := exec_wr hw (T f.pid).twice (x.fv f.fld) ((T f.pid).tp + j) l mem
    rw [he] at this; exact this
  subst hm'
  have hr1 : Rseq.run (T f.pid).twice (x.fv f.fld) (j + 1) (f.l, m') = (l', m') := by
    rw [run_add, hr]; simp only [Rseq.run, Rseq.step, hl, hc, he]
  have hrest : Rseq.run (T f.pid).twice (x.fv f.fld) ((T f.pid).tk - (j + 1)) (l', m') =
      ({ f.l with pc := .at ((T f.pid).tp + (T f.pid).tk) }, m') := by
    rw [← hr1, ← run_add, show j + 1 + ((T f.pid).tk - (j + 1)) = (T f.pid).tk by omega]
    exact hall
  refine ⟨rfl, F.bcs j ins hcb, ?_, ?_, ?_⟩
  · have hs := exec_succs (T f.pid).twice (x.fv f.fld) ((T f.pid).tp + j) ins l m'
    rw [he] at hs
    rcases succs_tgts hs with hs | hs
    · exact hs
    · have hb := F.btgt j ins hcb _ hs
      have := (T f.pid).bug_run (x.fv f.fld) ((T f.pid).tk - (j + 1)) (l', m') hb
      rw [hrest] at this
      have := bugExit_at this
      have := (T f.pid).tp_lt
      omega
  · intro hk
    rw [show (T f.pid).tk - (j + 1) = 0 by omega] at hrest
    simp only [Rseq.run, Prod.mk.injEq, and_true] at hrest
    exact hrest
  · intro m2 h2 ha
    have h1 := exec_agree (T f.pid).twice (x.fv f.fld) ((T f.pid).tp + j) l m' m2 ha
    rw [run_add, h2]
    simp only [Rseq.run, Rseq.step, hl, hc]
    refine Prod.ext ?_ (exec_wr hw _ _ _ _ _)
    rw [← h1.1, he]

/-- A helper inside the block is not bound to return 1. -/
theorem blk_not_quiet (hn : 4 ≤ n) {mem : Mem n} {x : Thread n} {f g : Frame n}
    (h : FInv T mem x True f) (hrun : x.run = true) (hs : FSame f g)
    (hB : ModeB T mem x.run (x.fv f.fld) f g) (hq : Quiet (tw T g.pid) g.l) : False := by
  have F := (T f.pid).tfacts
  obtain ⟨hpc, -, j, hj, hgl, hr⟩ := hB
  have hr := hr hrun mem (fun _ _ => rfl)
  have hall := blk_run hn h hrun hpc
  have hz := (at_tp h hpc).1
  have hrest : Rseq.run (T f.pid).twice (x.fv f.fld) ((T f.pid).tk - j) (g.l, mem) =
      ({ f.l with pc := .at ((T f.pid).tp + (T f.pid).tk) }, mem) := by
    rw [← hr, ← run_add, show j + ((T f.pid).tk - j) = (T f.pid).tk by omega]
    exact hall
  have hq : Quiet (T f.pid).twice g.l := by rw [← hs.pid]; exact hq
  have hq2 := hq.run (x.fv f.fld) mem ((T f.pid).tk - j)
  rw [hrest] at hq2
  have hq3 := hq2.unshift (T f.pid) f.l (by
    dsimp only; rw [hpc, sh_at]; unfold sh; rw [if_neg (by omega)]) (.inl hz)
  exact hq3.not_after_cut (T f.pid) _ hpc F.cut (by rw [hpc] at hz; exact hz)

/-! ### The other threads -/

/-- The zone of the frame of the new build. -/
theorem mode_zone {mem : Mem n} {x : Thread n} {f g : Frame n} {P : Prop} {fv : BitVec 32} {b : Bool}
    (h : FInv T mem x P f) (hs : FSame f g)
    (hm : ModeA T f g ∨ ModeB T mem b fv f g ∨ ModeC T f g) :
    zone (tw T g.pid) g.l.pc = zone (T f.pid).prog f.l.pc := by
  unfold tw
  rw [hs.pid]
  rcases hm with hm | hm | hm
  · rw [hm.1]; exact (T f.pid).t_zone _ h.out
  · obtain ⟨hpc, -, j, hj, hgl, -⟩ := hm
    have hz : zone (T f.pid).prog f.l.pc = .body := by
      have F := (T f.pid).tfacts
      have Z := (T f.pid).facts
      rw [hpc]
      have := F.chk; have := F.commit; have := Z.sc; have := Z.cc; have := Z.ca; have := Z.an; have := Z.nl
      rcases zone_at_cases Z (i := (T f.pid).tp) with h'|h'|h'|h'|h'|h'|h' <;>
        first | exact h'.1 | omega
    rw [hgl, hz]; exact (T f.pid).t_zone_blk hj
  · rw [hm.2]; exact (T f.pid).t_zone _ h.out

/-- Politeness in the new build gives politeness in the old one. -/
theorem polite_of (hn : 4 ≤ n) {s s' s1 s1' : State n} {t : Nat} (hI : Inv T s) (hR : RSt T s s')
    (hp : TPolite (tw T) s' t s1') (hm : s1.mem = s1'.mem) : Polite T s t s1 := by
  intro u f hu hrun ht hz
  have hr := hR.th u
  have hi := (hI.th u).top f ht
  have htop := hr.top
  rw [ht] at htop
  cases hg : (s'.th u).top with
  | none => rw [hg] at htop; exact htop.elim
  | some g =>
    rw [hg] at htop
    obtain ⟨hs, hmode⟩ := htop
    have hzg := mode_zone hi hs hmode
    have hrun' : (s'.th u).run = true := by rw [hr.run]; exact hrun
    have := hp u g hu hrun' hg (by rw [hzg]; exact hz)
    rw [hm, ← hR.mem]
    rcases hmode with hA | hB | hC
    · rcases this with h | h
      · exact .inl fun a ha => h a (hA.2 a ha)
      · right
        have h : Quiet (T f.pid).twice g.l := by rw [← hs.pid]; exact h
        exact h.unshift (T f.pid) f.l hA.1 (.inl hz)
    · rcases this with h | h
      · exact .inl fun a ha => h a (hB.2.1 a ha)
      · exact (blk_not_quiet hn hi hrun hs hB h).elim
    · rcases hC.1 with h | h <;> rw [hz] at h <;> simp at h

/-- Threads that do not move. -/
theorem RT.other (hn : 4 ≤ n) {s s' s1' : State n} {t u : Nat} (hI : Inv T s) (hR : RSt T s s')
    (hp : TPolite (tw T) s' t s1') (hu : u ≠ t) : RT T s1'.mem (s.th u) (s'.th u) := by
  have hr := hR.th u
  refine ⟨?_, hr.saved, hr.cs, hr.reg, hr.run, hr.kcpu, hr.kcid, hr.cpuId, hr.mmCid, hr.ev⟩
  have htop := hr.top
  cases hf : (s.th u).top with
  | none =>
    rw [hf] at htop
    cases hg : (s'.th u).top with
    | none => trivial
    | some g => rw [hg] at htop; exact htop.elim
  | some f =>
    rw [hf] at htop
    cases hg : (s'.th u).top with
    | none => rw [hg] at htop; exact htop.elim
    | some g =>
      rw [hg] at htop
      obtain ⟨hs, hmode⟩ := htop
      refine ⟨hs, ?_⟩
      have hi := (hI.th u).top f hf
      have hzg := mode_zone hi hs hmode
      rcases hmode with hA | hB | hC
      · exact .inl hA
      · right; left
        have hB' := hB
        obtain ⟨hpc, hft, j, hj, hgl, hrn⟩ := hB
        refine ⟨hpc, hft, j, hj, hgl, fun hrun m2 hm2 => ?_⟩
        refine hrn hrun m2 fun a ha => ?_
        rw [← hm2 a ha, ← hR.mem]
        have hz := (at_tp hi hpc).1
        rcases hp u g hu (by rw [hr.run]; exact hrun) hg (by rw [hzg]; exact hz) with h | h
        · exact h a ha
        · exact (blk_not_quiet hn hi hrun hs hB' h).elim
      · exact .inr (.inr hC)

/-- Assemble corresponding successors. -/
theorem sim_one (hn : 4 ≤ n) {s s' : State n} {t : Nat} {lab : Lab n} {m1 : Mem n} {x y : Thread n}
    (hI : Inv T s) (hR : RSt T s s') (hp : TPolite (tw T) s' t { mem := m1, th := upd s'.th t y })
    (hs : Step T s t lab { mem := m1, th := upd s.th t x }) (hx : RT T m1 x y) :
    ∃ s1, Step T s t lab s1 ∧ Polite T s t s1 ∧ RSt T s1 { mem := m1, th := upd s'.th t y } := by
  refine ⟨_, hs, polite_of hn hI hR hp rfl, rfl, fun u => ?_⟩
  by_cases e : u = t
  · subst e; dsimp only; rw [updT_same, updT_same]; exact hx
  · dsimp only; rw [updT_other _ _ e, updT_other _ _ e]; exact RT.other hn hI hR hp e

end Verif.Rseq
