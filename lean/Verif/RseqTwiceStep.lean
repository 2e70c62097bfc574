import Verif.RseqTwiceSim
/-
Simulation of one step of a `RSEQ_COMPARE_TWICE` build.
-/

namespace Verif.Rseq

variable {n : Nat} {T : Nat → Site n}

/-- The kernel's rule on corresponding threads. -/
theorem fix_rel {mem : Mem n} {x y : Thread n} (hi : ∀ f, x.top = some f → FInv T mem x True f)
    (h : RT T mem x y) : RSav T (fixTop T x) (tfixTop (tw T) y) := by
  have htop := h.top
  unfold fixTop tfixTop
  cases hf : x.top with
  | none =>
    rw [hf] at htop
    cases hg : y.top with
    | none => trivial
    | some g => rw [hg] at htop; exact htop.elim
  | some f =>
    rw [hf] at htop
    have hi := hi f hf
    cases hg : y.top with
    | none => rw [hg] at htop; exact htop.elim
    | some g =>
      rw [hg] at htop
      obtain ⟨hs, hmode⟩ := htop
      have F := (T f.pid).tfacts
      have Z := (T f.pid).facts
      have z0 := Z.start1; have z1 := Z.sc; have z2 := Z.cc; have z3 := Z.ca; have z4 := Z.an
      have f1 := F.chk; have f2 := F.commit
      have hreg := h.reg
      have hcs := h.cs
      have hpid := hs.pid
      have tst : (tw T g.pid).start = (T f.pid).prog.start := by unfold tw; rw [hpid]; rfl
      have tcm : (tw T g.pid).commit = (T f.pid).prog.commit + (T f.pid).tk := by unfold tw; rw [hpid]; rfl
      have tab : (tw T g.pid).abort = (T f.pid).prog.abort + (T f.pid).tk := by unfold tw; rw [hpid]; rfl
      have hs' : ∀ a b : LSt n, FSame { f with l := a } { g with l := b } :=
        fun a b => ⟨hs.pid, hs.fld, hs.cpu, hs.op, hs.l0, hs.commits, hs.ep⟩
      rcases hmode with hA | hB | hC
      · cases hpc : f.l.pc with
        | ret r =>
          have hgl : g.l.pc = .ret r := by rw [hA.1]; dsimp only; rw [hpc]; rfl
          dsimp only
          rw [hpc, hgl]
          exact ⟨hs, .inl hA⟩
        | «at» i =>
          have hgl : g.l.pc = .at (sh (T f.pid).tp (T f.pid).tk i) := by
            rw [hA.1]; dsimp only; rw [hpc]; rfl
          dsimp only
          rw [hpc, hgl]
          dsimp only
          have hiff : (y.reg = true ∧ y.cs = some g.pid ∧
              (tw T g.pid).start ≤ sh (T f.pid).tp (T f.pid).tk i ∧
              sh (T f.pid).tp (T f.pid).tk i < (tw T g.pid).commit) ↔
              (x.reg = true ∧ x.cs = some f.pid ∧ (T f.pid).prog.start ≤ i ∧
              i < (T f.pid).prog.commit) := by
            rw [hreg, hcs, tst, tcm]
            have : ((T f.pid).prog.start ≤ sh (T f.pid).tp (T f.pid).tk i ∧
                sh (T f.pid).tp (T f.pid).tk i < (T f.pid).prog.commit + (T f.pid).tk) ↔
                ((T f.pid).prog.start ≤ i ∧ i < (T f.pid).prog.commit) := by
              unfold sh
              split <;> omega
            rw [this, hpid]
          by_cases hc : x.reg = true ∧ x.cs = some f.pid ∧ (T f.pid).prog.start ≤ i ∧
              i < (T f.pid).prog.commit
          · rw [if_pos hc, if_pos (hiff.2 hc)]
            refine ⟨hs' _ _, .inl ⟨?_, hA.2⟩⟩
            dsimp only
            rw [hA.1, sh_at, tab]
            unfold sh
            rw [if_neg (by omega)]
          · rw [if_neg hc, if_neg (fun h => hc (hiff.1 h))]
            exact ⟨hs, .inl hA⟩
      · obtain ⟨hpc, hft, j, hj, hgl, -⟩ := hB
        obtain ⟨-, hr, hc⟩ := at_tp hi hpc
        dsimp only
        rw [hpc, hgl]
        dsimp only
        rw [if_pos (c := x.reg = true ∧ _) ⟨hr, hc, by omega, by omega⟩,
          if_pos (c := y.reg = true ∧ _) ⟨by rw [hreg]; exact hr, by rw [hcs, hpid]; exact hc,
            by rw [tst]; omega, by rw [tcm]; omega⟩]
        refine ⟨hs' _ _, .inr ⟨.inl ?_, ?_⟩⟩
        · exact zone_abort Z
        · dsimp only
          rw [sh_at, tab]
          unfold sh
          rw [if_neg (by omega)]
      · cases hpc : f.l.pc with
        | ret r =>
          have hgl : g.l.pc = .ret r := by rw [hC.2, hpc]; rfl
          dsimp only
          rw [hpc, hgl]
          exact ⟨hs, .inr hC⟩
        | «at» i =>
          have hgl : g.l.pc = .at (sh (T f.pid).tp (T f.pid).tk i) := by rw [hC.2, hpc]; rfl
          have hi : (T f.pid).prog.abort ≤ i := by
            have := hC.1
            rw [hpc] at this
            rcases zone_at_cases Z (i := i) with h'|h'|h'|h'|h'|h'|h' <;> rw [h'.1] at this <;>
              first | (simp at this; done) | exact h'.2.1
          dsimp only
          rw [hpc, hgl]
          dsimp only
          have h2 : ¬ sh (T f.pid).tp (T f.pid).tk i < (tw T g.pid).commit := by
            rw [tcm]; unfold sh; split <;> omega
          rw [if_neg (c := x.reg = true ∧ _) (by omega), if_neg (fun h => h2 h.2.2.2)]
          exact ⟨hs, .inr hC⟩

/-- The thread changes none of the fields compared. -/
theorem RT.saved_top {mem : Mem n} {x y : Thread n} (h : RT T mem x y) {a b : Option (Frame n)}
    (hab : RTop T mem x a b) : RT T mem { x with top := a } { y with top := b } :=
  ⟨by cases a <;> cases b <;> exact hab, h.saved, h.cs, h.reg, h.run, h.kcpu, h.kcid, h.cpuId, h.mmCid, h.ev⟩

/-- A helper instruction. -/
theorem sim_exec (hn : 4 ≤ n) {s s' : State n} {t : Nat} (hI : Inv T s) (hR : RSt T s s')
    (g : Frame n) (i' : Nat) (ins' : Instr) (l' : LSt n) (m' : Mem n) (hr : (s'.th t).run = true)
    (ht : (s'.th t).top = some g) (hp : g.l.pc = .at i') (hc : (tw T g.pid).code[i']? = some ins')
    (he : exec (tw T g.pid) ((s'.th t).fv g.fld) i' ins' g.l s'.mem = (l', m')) (y : Thread n)
    (hy : y = { s'.th t with
            top := some { g with
              l := l'
              foot := fun x => touched ins' g.l x ∨ g.foot x
              last := if memFree ins' = true then g.last else m'
              commits := if i' + 1 = (tw T g.pid).commit then g.commits + 1 else g.commits
              ep := if isCs ins' = true then (s'.th t).ev else g.ep }
            cs := if isCs ins' = true then some g.pid else (s'.th t).cs })
    (hpol : TPolite (tw T) s' t { mem := m', th := upd s'.th t y }) :
    (m' = s'.mem ∧ RSt T s { mem := m', th := upd s'.th t y }) ∨
    ∃ s1, Step T s t .exec s1 ∧ Polite T s t s1 ∧ RSt T s1 { mem := m', th := upd s'.th t y } := by
  have hx := hR.th t
  obtain ⟨f, hf, hs, hmode⟩ := hx.top.some ht
  have hi := (hI.th t).top f hf
  have hrun : (s.th t).run = true := by rw [← hx.run]; exact hr
  have F := (T f.pid).tfacts
  have Z := (T f.pid).facts
  have z0 := Z.start1; have z1 := Z.sc; have z2 := Z.cc; have z3 := Z.ca; have z4 := Z.an
  have f1 := F.chk; have f2 := F.commit
  have hpid := hs.pid
  have hmem := hR.mem
  have hfv : (s'.th t).fv g.fld = (s.th t).fv f.fld := by rw [hs.fld]; exact hx.fv _
  unfold tw at hc he
  rw [hpid] at hc he
  rw [hfv, hmem] at he
  rcases hmode with hA | hB | hC
  · -- a copy of an old instruction
    right
    cases hpc : f.l.pc with
    | ret r =>
      have : g.l.pc = .ret r := by rw [hA.1]; dsimp only; rw [hpc]; rfl
      rw [hp] at this; simp at this
    | «at» i =>
      have hgl : g.l.pc = .at (sh (T f.pid).tp (T f.pid).tk i) := by
        rw [hA.1]; dsimp only; rw [hpc]; rfl
      rw [hp] at hgl
      injection hgl with hgl
      subst hgl
      obtain ⟨ins, hci⟩ := zone_code Z (i := i) (by rw [← hpc]; exact hi.out)
      have hc' := (T f.pid).t_code hci
      rw [hc] at hc'
      injection hc' with hc'
      subst hc'
      have hex := exec_shift (T f.pid).prog (T f.pid).twice rfl rfl ((s.th t).fv f.fld) (T f.pid).tp
        (T f.pid).tk i ins f.l (f.l.pc.shift (T f.pid).tp (T f.pid).tk) s.mem F.p1 (F.tgt i ins hci)
      rw [← hA.1, he] at hex
      obtain ⟨l1, m1, he1⟩ : ∃ l1 m1, exec (T f.pid).prog ((s.th t).fv f.fld) i ins f.l s.mem = (l1, m1) :=
        ⟨_, _, rfl⟩
      rw [he1] at hex
      simp only [Prod.mk.injEq] at hex
      obtain ⟨hl', rfl⟩ := hex
      refine sim_one hn hI hR hpol (Step.exec f i ins l1 m' hrun hf hpc hci he1) ?_
      have htch : ∀ a, touched (ins.shift (T f.pid).tp (T f.pid).tk) g.l a = touched ins f.l a := by
        intro a; rw [hA.1]; exact touched_shift ins _ _ f.l _ a
      have hcm : (sh (T f.pid).tp (T f.pid).tk i + 1 = (T f.pid).prog.commit + (T f.pid).tk) ↔
          (i + 1 = (T f.pid).prog.commit) := by
        unfold sh; split <;> omega
      subst hy
      refine ⟨?_, hx.saved, ?_, hx.reg, hx.run, hx.kcpu, hx.kcid, hx.cpuId, hx.mmCid, hx.ev⟩
      · refine ⟨⟨hs.pid, hs.fld, hs.cpu, hs.op, hs.l0, ?_, ?_⟩, ?_⟩
        · dsimp only
          unfold tw
          rw [hpid, (T f.pid).t_commit, hs.commits]
          simp only [hcm]
        · dsimp only; rw [isCs_shift, hx.ev, hs.ep]
        · by_cases hb : i + 1 = (T f.pid).tp ∧ l1.pc = .at (T f.pid).tp
          · right; left
            refine ⟨hb.2, ?_, 0, F.k1, ?_, ?_⟩
            · dsimp only
              rintro a (ha | ha)
              · exact .inl (by rw [htch]; exact ha)
              · exact .inr (hA.2 a ha)
            · dsimp only; rw [hl']; unfold nextPc; rw [if_pos hb]; rfl
            · intro _ m2 _
              dsimp only [Rseq.run]
              rw [hl']; unfold nextPc; rw [if_pos hb, ← hb.2]
          · left
            refine ⟨?_, ?_⟩
            · dsimp only; rw [hl']; unfold nextPc; rw [if_neg hb]
            · dsimp only
              rintro a (ha | ha)
              · exact .inl (by rw [htch]; exact ha)
              · exact .inr (hA.2 a ha)
      · dsimp only; rw [isCs_shift, hpid, hx.cs]
  · -- an instruction of the block
    left
    obtain ⟨hpc, hft, j, hj, hgl, hrn⟩ := hB
    rw [hp] at hgl
    injection hgl with hgl
    subst hgl
    obtain ⟨b1, b2, b3, b4, b5⟩ := blk_step hn hi hrun hpc hj hp (hrn hrun s.mem (fun _ _ => rfl)) hc he
    subst b1
    refine ⟨hmem.symm, rfl, fun u => ?_⟩
    by_cases e : u = t
    · subst e
      dsimp only
      rw [updT_same]
      subst hy
      refine ⟨?_, hx.saved, ?_, hx.reg, hx.run, hx.kcpu, hx.kcid, hx.cpuId, hx.mmCid, hx.ev⟩
      · dsimp only
        rw [hf]
        refine ⟨⟨hs.pid, hs.fld, hs.cpu, hs.op, hs.l0, ?_, ?_⟩, ?_⟩
        · dsimp only
          unfold tw
          rw [hpid, (T f.pid).t_commit, if_neg (by omega)]
          exact hs.commits
        · dsimp only; rw [if_neg (by rw [b2]; simp)]; exact hs.ep
        · by_cases hk : j + 1 = (T f.pid).tk
          · left
            refine ⟨?_, fun a ha => .inr (hft a ha)⟩
            dsimp only
            rw [b4 hk, hpc, sh_at]
            unfold sh
            rw [if_neg (by omega)]
          · right; left
            refine ⟨hpc, fun a ha => .inr (hft a ha), j + 1, by omega, by dsimp only; rw [b3]; rfl, ?_⟩
            intro _ m2 hm2
            dsimp only at hm2 ⊢
            exact b5 m2 (hrn hrun m2 fun a ha => hm2 a (.inr ha)) fun a ha => hm2 a (.inl ha)
      · dsimp only; rw [if_neg (by rw [b2]; simp)]; exact hx.cs
    · dsimp only
      rw [updT_other _ _ e]
      exact hR.th u
  · -- abort handler
    right
    cases hpc : f.l.pc with
    | ret r =>
      have : g.l.pc = .ret r := by rw [hC.2, hpc]; rfl
      rw [hp] at this; simp at this
    | «at» i =>
      have hgl : g.l.pc = .at (sh (T f.pid).tp (T f.pid).tk i) := by rw [hC.2, hpc]; rfl
      rw [hp] at hgl
      injection hgl with hgl
      subst hgl
      have hz : zone (T f.pid).prog (.at i) = .abt := by
        have := hC.1
        rw [hpc] at this
        rcases zone_at_cases Z (i := i) with h'|h'|h'|h'|h'|h'|h' <;> rw [h'.1] at this <;>
          first | (simp at this; done) | exact h'.1
      have hib : (T f.pid).prog.abort ≤ i ∧ i < (T f.pid).prog.ne := by
        rcases zone_at_cases Z (i := i) with h'|h'|h'|h'|h'|h'|h' <;> rw [h'.1] at hz <;>
          first | (simp at hz; done) | exact h'.2
      obtain ⟨ins, hci⟩ := zone_code Z (i := i) (by rw [hz]; simp)
      have hc' := (T f.pid).t_code hci
      rw [hc] at hc'
      injection hc' with hc'
      subst hc'
      have hab := abt_step Z hci hz (fv := (s.th t).fv f.fld) (l := f.l) (m := s.mem)
      obtain ⟨l1, m1, he1⟩ : ∃ l1 m1, exec (T f.pid).prog ((s.th t).fv f.fld) i ins f.l s.mem = (l1, m1) :=
        ⟨_, _, rfl⟩
      have hm1 : m1 = s.mem := by
        have := (exec_memFree hab.1 (T f.pid).prog ((s.th t).fv f.fld) i f.l s.mem s.mem).1
        rw [he1] at this; exact this
      have hm' : m' = s.mem := by
        have hmf : memFree (ins.shift (T f.pid).tp (T f.pid).tk) = true := by
          rw [memFree_shift]; exact hab.1
        have := (exec_memFree hmf (T f.pid).twice ((s.th t).fv f.fld)
          (sh (T f.pid).tp (T f.pid).tk i) g.l s.mem s.mem).1
        rw [he] at this; exact this
      have hpc' : l'.pc = l1.pc.shift (T f.pid).tp (T f.pid).tk := by
        have hsi : sh (T f.pid).tp (T f.pid).tk i = i + (T f.pid).tk := by
          unfold sh; rw [if_neg (by omega)]
        rcases F.abt i ins hci hib.1 hib.2 with ⟨r, q, rfl⟩ | ⟨tt, rfl⟩
        · simp only [exec, Instr.shift, LSt.setR, Prod.mk.injEq] at he he1
          rw [← he.1, ← he1.1, hsi]
          dsimp only
          rw [sh_at]
          unfold sh
          rw [if_neg (by omega)]
          congr 1; omega
        · simp only [exec, Instr.shift, Prod.mk.injEq] at he he1
          rw [← he.1, ← he1.1]
      subst hm'
      rw [hm1] at he1
      refine sim_one hn hI hR hpol (Step.exec f i ins l1 _ hrun hf hpc hci he1) ?_
      rw [he1] at hab
      have hcm : ¬ (sh (T f.pid).tp (T f.pid).tk i + 1 = (T f.pid).prog.commit + (T f.pid).tk) := by
        unfold sh; split <;> omega
      have hcm2 : ¬ (i + 1 = (T f.pid).prog.commit) := by omega
      subst hy
      refine ⟨?_, hx.saved, ?_, hx.reg, hx.run, hx.kcpu, hx.kcid, hx.cpuId, hx.mmCid, hx.ev⟩
      · refine ⟨⟨hs.pid, hs.fld, hs.cpu, hs.op, hs.l0, ?_, ?_⟩, .inr (.inr ⟨hab.2.2, hpc'⟩)⟩
        · dsimp only
          unfold tw
          rw [hpid, (T f.pid).t_commit, if_neg hcm, if_neg hcm2]
          exact hs.commits
        · dsimp only; rw [isCs_shift, hx.ev, hs.ep]
      · dsimp only; rw [isCs_shift, hpid, hx.cs]

/-- **Every step of the new build** is an instruction of an inserted block, or a step of the old build. -/
theorem sim_step (hn : 4 ≤ n) {s s' s1' : State n} {t : Nat} {lab : Lab n} (hI : Inv T s)
    (hR : RSt T s s') (hs : TStep T (tw T) s' t lab s1') (hp : TPolite (tw T) s' t s1') :
    (lab = .exec ∧ s1'.mem = s'.mem ∧ RSt T s s1') ∨
    ∃ s1, Step T s t lab s1 ∧ Polite T s t s1 ∧ RSt T s1 s1' := by
  obtain ⟨m, th⟩ := s
  obtain ⟨m0, th'⟩ := s'
  obtain rfl : m0 = m := hR.mem
  have hx := hR.th t
  have hxi := hI.th t
  dsimp only at hx hxi
  cases hs with
  | invoke f hr ht hf hu =>
    right
    dsimp only at hr ht hu
    refine sim_one hn hI hR hp (Step.invoke f (by rw [← hx.run]; exact hr) (hx.top.none_iff ht) hf ?_) ?_
    · dsimp only; intro h; rw [← hx.fv]; exact hu (by rw [hx.reg]; exact h)
    · refine hx.saved_top ⟨⟨rfl, rfl, rfl, rfl, rfl, rfl, rfl⟩, .inl ⟨?_, fun _ h => h⟩⟩
      have hpc : f.l.pc = .at 0 := by rw [hf.l]; exact hf.setup.pc
      rw [hpc, sh_at]
      unfold sh
      rw [if_pos (T f.pid).tfacts.p1, ← hpc]
  | exec g i ins l' m' hr ht hp' hc he =>
    rcases sim_exec hn hI hR g i ins l' m' hr ht hp' hc he _ rfl hp with h | h
    · exact .inl ⟨rfl, h⟩
    · exact .inr h
  | ret g r hr ht hp' =>
    right
    dsimp only at hr ht
    obtain ⟨f, hf, hs, hmode⟩ := hx.top.some ht
    have hpc : f.l.pc = .ret r := by
      have key : g.l.pc = f.l.pc.shift (T f.pid).tp (T f.pid).tk → f.l.pc = .ret r := by
        intro h
        rw [hp'] at h
        cases hpc : f.l.pc with
        | ret r' => rw [hpc] at h; exact h.symm
        | «at» i => rw [hpc] at h; simp [Pc.shift] at h
      rcases hmode with h | h | h
      · exact key (by rw [h.1])
      · obtain ⟨-, -, j, -, hgl, -⟩ := h
        rw [hp'] at hgl; simp at hgl
      · exact key h.2
    exact sim_one hn hI hR hp (Step.ret f r (by rw [← hx.run]; exact hr) hf hpc)
      (hx.saved_top (by trivial))
  | user m' hr ht =>
    right
    dsimp only at hr ht
    refine ⟨_, Step.user m' (by rw [← hx.run]; exact hr) (hx.top.none_iff ht),
      polite_of hn hI hR hp rfl, rfl, fun u => ?_⟩
    by_cases e : u = t
    · subst e
      refine ⟨?_, hx.saved, hx.cs, hx.reg, hx.run, hx.kcpu, hx.kcid, hx.cpuId, hx.mmCid, hx.ev⟩
      dsimp only
      rw [ht, hx.top.none_iff ht]
      trivial
    · exact RT.other (s := { mem := m0, th := th }) (s' := { mem := m0, th := th' }) hn hI hR hp e
  | preempt hr =>
    right
    dsimp only at hr
    refine sim_one hn hI hR hp (Step.preempt (by rw [← hx.run]; exact hr))
      ⟨?_, hx.saved, hx.cs, hx.reg, rfl, hx.kcpu, hx.kcid, hx.cpuId, hx.mmCid, hx.ev⟩
    dsimp only
    have htop := hx.top
    cases hf : (th t).top with
    | none =>
      rw [hf] at htop
      cases hg : (th' t).top with
      | none => trivial
      | some g => rw [hg] at htop; exact htop.elim
    | some f =>
      rw [hf] at htop
      cases hg : (th' t).top with
      | none => rw [hg] at htop; exact htop.elim
      | some g =>
        rw [hg] at htop
        obtain ⟨hs, h | h | h⟩ := htop
        · exact ⟨hs, .inl h⟩
        · obtain ⟨h1, h2, j, h3, h4, -⟩ := h
          exact ⟨hs, .inr (.inl ⟨h1, h2, j, h3, h4, fun h => by simp at h⟩)⟩
        · exact ⟨hs, .inr (.inr h)⟩
  | resume c k hr hd =>
    right
    dsimp only at hr hd
    refine sim_one hn hI hR hp (Step.resume c k (by rw [← hx.run]; exact hr) ?_)
      ⟨?_, hx.saved, ?_, hx.reg, rfl, rfl, rfl, ?_, ?_, ?_⟩
    · intro u hu hru
      have h := hR.th u
      dsimp only at h hru ⊢
      have := hd u hu (by rw [h.run]; exact hru)
      rw [h.kcpu, h.kcid] at this
      exact this
    · exact (fix_rel hxi.top hx).top
    · dsimp only [fixCs]; rw [hx.reg, hx.cs]
    · dsimp only; rw [hx.reg, hx.cpuId]
    · dsimp only; rw [hx.reg, hx.mmCid]
    · dsimp only; rw [hx.ev]
  | signal hr =>
    right
    dsimp only at hr
    refine sim_one hn hI hR hp (Step.signal (by rw [← hx.run]; exact hr))
      ⟨?_, ?_, ?_, hx.reg, hx.run, hx.kcpu, hx.kcid, hx.cpuId, hx.mmCid, ?_⟩
    · trivial
    · exact .cons (fix_rel hxi.top hx) hx.saved
    · dsimp only [fixCs]; rw [hx.reg, hx.cs]
    · dsimp only; rw [hx.ev]
  | sigret g rest hr ht hs' =>
    right
    dsimp only at hr ht hs'
    have hsv := hx.saved
    rw [hs'] at hsv
    cases hfs : (th t).saved with
    | nil => rw [hfs] at hsv; cases hsv
    | cons f fs =>
      rw [hfs] at hsv
      cases hsv with
      | cons h1 h2 =>
        exact sim_one hn hI hR hp (Step.sigret f fs (by rw [← hx.run]; exact hr) (hx.top.none_iff ht) hfs)
          ⟨h1.top, h2, hx.cs, hx.reg, hx.run, hx.kcpu, hx.kcid, hx.cpuId, hx.mmCid, hx.ev⟩
  | register hr ht hs' hn' =>
    right
    dsimp only at hr ht hs' hn'
    refine sim_one hn hI hR hp (Step.register (by rw [← hx.run]; exact hr) (hx.top.none_iff ht)
      (hx.saved.none hs') (by rw [← hx.reg]; exact hn'))
      ⟨?_, hx.saved, hx.cs, rfl, hx.run, hx.kcpu, hx.kcid, hx.kcpu, hx.kcid, hx.ev⟩
    dsimp only
    rw [ht, hx.top.none_iff ht]
    trivial
  | unregister hr ht hs' hn' =>
    right
    dsimp only at hr ht hs' hn'
    refine sim_one hn hI hR hp (Step.unregister (by rw [← hx.run]; exact hr) (hx.top.none_iff ht)
      (hx.saved.none hs') (by rw [← hx.reg]; exact hn'))
      ⟨?_, hx.saved, hx.cs, rfl, hx.run, hx.kcpu, hx.kcid, rfl, rfl, hx.ev⟩
    dsimp only
    rw [ht, hx.top.none_iff ht]
    trivial
  | clear hr ht =>
    right
    dsimp only at hr ht
    refine sim_one hn hI hR hp (Step.clear (by rw [← hx.run]; exact hr) (hx.top.none_iff ht))
      ⟨?_, hx.saved, rfl, hx.reg, hx.run, hx.kcpu, hx.kcid, hx.cpuId, hx.mmCid, hx.ev⟩
    dsimp only
    rw [ht, hx.top.none_iff ht]
    trivial

end Verif.Rseq
