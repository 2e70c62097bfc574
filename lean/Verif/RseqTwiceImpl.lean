import Verif.RseqTwiceLocal
/-
A helper of a `RSEQ_COMPARE_TWICE` build executed without interruption.
-/

namespace Verif.Rseq

variable {n : Nat}

/-- Uninterrupted execution never leaves the code. -/
theorem step_not_out {p : Prog n} (Z : ZoneFacts p) (fv : BitVec 32) (s : LSt n × Mem n)
    (h : zone p s.1.pc ≠ .out) : zone p (step p fv s).1.pc ≠ .out := by
  obtain ⟨l, m⟩ := s
  cases hpc : l.pc with
  | ret r =>
    have : step p fv (l, m) = (l, m) := by simp only [step, hpc]
    rw [this]; exact h
  | «at» i =>
    dsimp only at h
    rw [hpc] at h
    obtain ⟨ins, hc⟩ := zone_code Z h
    simp only [step, hpc, hc]
    rcases zone_at_cases Z (i := i) with ⟨hz, -⟩|⟨hz, -⟩|⟨hz, -⟩|⟨hz, -⟩|⟨hz, -⟩|⟨hz, -⟩|⟨hz, -⟩
    · have := pre_step Z hc hz (fv := fv) (l := l) (m := m)
      rw [this.2.2.2.1, this.2.2.2.2]; split <;> simp
    · rcases (chk_step Z hc hz (fv := fv) (l := l) (m := m)).2.2 with h | h | h <;> rw [h] <;> simp
    · have hb := body_step Z hc hz (fv := fv) (l := l) (m := m)
      by_cases hcm : i + 1 = p.commit
      · rw [(hb.2.2.1 hcm).2]; simp
      · rcases (hb.2.2.2 hcm).2 with h | h | h <;> rw [h] <;> simp
    · rcases (post_step Z hc hz (fv := fv) (l := l) (m := m)).2.2 with h | h <;> rw [h] <;> simp
    · rcases (abt_step Z hc hz (fv := fv) (l := l) (m := m)).2.2 with h | h <;> rw [h] <;> simp
    · rcases (neq_step Z hc hz (fv := fv) (l := l) (m := m)).2.2 with h | h <;> rw [h] <;> simp
    · exact absurd hz h

theorem run_succ_last (p : Prog n) (fv : BitVec 32) (k : Nat) (s : LSt n × Mem n) :
    run p fv (k + 1) s = step p fv (run p fv k s) := by
  rw [run_add]; rfl

theorem run_not_out {p : Prog n} (Z : ZoneFacts p) (fv : BitVec 32) (k : Nat) (s : LSt n × Mem n)
    (h : zone p s.1.pc ≠ .out) : zone p (run p fv k s).1.pc ≠ .out := by
  induction k with
  | zero => exact h
  | succ k ih => rw [run_succ_last]; exact step_not_out Z fv _ ih

/-- Index `i ≤ p` is reached after exactly `i` steps, with unchanged memory. -/
theorem Site.run_count (S : Site n) (fv : BitVec 32) (l0 : LSt n) (m : Mem n) (h0 : l0.pc = .at 0)
    (k : Nat) : ∀ i, (run S.prog fv k (l0, m)).1.pc = .at i → i ≤ S.tp →
      run S.prog fv k (l0, m) = run S.prog fv i (l0, m) ∧ (run S.prog fv k (l0, m)).2 = m := by
  have F := S.tfacts
  induction k with
  | zero =>
    intro i hi _
    have hi : l0.pc = .at i := hi
    rw [h0] at hi
    injection hi with hi
    subst hi
    exact ⟨rfl, rfl⟩
  | succ k ih =>
    intro j hj hle
    rw [run_succ_last] at hj ⊢
    generalize hs : run S.prog fv k (l0, m) = s at hj ih ⊢
    obtain ⟨l, mm⟩ := s
    cases hpc : l.pc with
    | ret r => simp only [step, hpc] at hj; exact absurd hj (by simp)
    | «at» i =>
      cases hc : S.prog.code[i]? with
      | none =>
        have hst : step S.prog fv (l, mm) = (l, mm) := by simp only [step, hpc, hc]
        rw [hst] at hj ⊢
        exact ih j hj hle
      | some ins =>
        have hst : step S.prog fv (l, mm) = exec S.prog fv i ins l mm := by simp only [step, hpc, hc]
        rw [hst] at hj ⊢
        have hsu := exec_succs S.prog fv i ins l mm
        rw [hj] at hsu
        rcases succs_tgts hsu with hsu | hsu
        · injection hsu with hsu
          subst hsu
          obtain ⟨e1, e2⟩ := ih i hpc (by omega)
          have e2 : mm = m := e2
          subst e2
          refine ⟨?_, exec_wr (S.noWr i ins (by omega) hc) _ _ _ _ _⟩
          rw [run_succ_last, ← e1, hst]
        · have := beyond_at (F.tgt i ins hc _ hsu)
          omega

/-- The new program reaches the counterpart of every state that the old one reaches. -/
theorem Site.run_twice (hn : 4 ≤ n) (S : Site n) (op : Op n) (hk : S.kind = op.kind)
    (hok : CallOK S.arch S.al op) (cpu fv : BitVec 32) (l0 : LSt n) (m : Mem n)
    (hs : Setup (clobbers S.arch op.kind) (signExt S.arch) S.al op cpu l0) (k : Nat) :
    ∃ k', run S.twice fv k' (l0, m) =
      ({ (run S.prog fv k (l0, m)).1 with pc := (run S.prog fv k (l0, m)).1.pc.shift S.tp S.tk },
        (run S.prog fv k (l0, m)).2) := by
  have F := S.tfacts
  have Z := S.facts
  have h0 := hs.pc
  induction k with
  | zero =>
    refine ⟨0, ?_⟩
    show (l0, m) = ({ l0 with pc := l0.pc.shift S.tp S.tk }, m)
    rw [h0, sh_at]
    unfold sh
    rw [if_pos F.p1, ← h0]
  | succ k ih =>
    obtain ⟨k', ih⟩ := ih
    have hzk : zone S.prog (run S.prog fv k (l0, m)).1.pc ≠ .out := by
      refine run_not_out Z fv k _ ?_
      show zone S.prog l0.pc ≠ .out
      rw [h0, (zone_pre_iff (p := S.prog)).2 (by have := Z.start1; omega)]
      simp
    have hcnt := S.run_count fv l0 m h0 (k + 1)
    rw [run_succ_last] at hcnt ⊢
    generalize run S.prog fv k (l0, m) = s at ih hcnt hzk ⊢
    obtain ⟨l, mm⟩ := s
    dsimp only at ih hzk
    cases hpc : l.pc with
    | ret r =>
      have : step S.prog fv (l, mm) = (l, mm) := by simp only [step, hpc]
      rw [this]; exact ⟨k', ih⟩
    | «at» i =>
      rw [hpc] at hzk
      obtain ⟨ins, hc⟩ := zone_code Z hzk
      have hst : step S.prog fv (l, mm) = exec S.prog fv i ins l mm := by simp only [step, hpc, hc]
      rw [hst] at hcnt ⊢
      have hst' : run S.twice fv (k' + 1) (l0, m) =
          ({ (exec S.prog fv i ins l mm).1 with
              pc := nextPc S.tp S.tk i (exec S.prog fv i ins l mm).1.pc },
            (exec S.prog fv i ins l mm).2) := by
        rw [run_succ_last, ih, hpc, sh_at]
        simp only [step, S.t_code hc]
        exact exec_shift S.prog S.twice rfl rfl fv S.tp S.tk i ins l _ mm F.p1 (F.tgt i ins hc)
      by_cases hb : i + 1 = S.tp ∧ (exec S.prog fv i ins l mm).1.pc = .at S.tp
      · obtain ⟨c1, c2⟩ := hcnt S.tp hb.2 (Nat.le_refl _)
        -- the CPU comparison has succeeded
        have hz : zone S.prog (.at S.tp) = .body := by
          have := F.chk; have := F.commit; have := Z.sc; have := Z.cc; have := Z.ca; have := Z.an
          have := Z.nl
          rcases zone_at_cases Z (i := S.tp) with h'|h'|h'|h'|h'|h'|h' <;> first | exact h'.1 | omega
        have hfv : fv = cpu := by
          apply Decidable.byContradiction
          intro hne
          obtain ⟨k2, a, -, -⟩ := (helpers_implement_pseudocode hn _ S.rel S.be _ S.csa op _
            (by rw [← hk]; exact S.ok) hok cpu fv l0 m hs).2 hne
          obtain ⟨j, hj⟩ := returns_through c1.symm a
          have := after_check_run Z fv j (exec S.prog fv i ins l mm) (.inl (by rw [hb.2]; exact hz))
          rw [hj, a] at this
          simp [zone] at this
        have hblk := S.block hn op hk cpu l0 m hs
        subst hfv
        rw [← c1] at hblk
        have hblk := hblk hb.2
        refine ⟨k' + 1 + S.tk, ?_⟩
        rw [run_add, hst', hb.2]
        have e1 : nextPc S.tp S.tk i (.at S.tp) = .at S.tp := by
          unfold nextPc; rw [if_pos ⟨hb.1, rfl⟩]
        rw [e1, sh_at]
        have e2 : ({ (exec S.prog fv i ins l mm).1 with pc := .at S.tp } : LSt n) =
            (exec S.prog fv i ins l mm).1 := by rw [← hb.2]
        rw [e2, c2, hblk]
        unfold sh
        rw [if_neg (by omega)]
      · refine ⟨k' + 1, ?_⟩
        rw [hst']
        unfold nextPc
        rw [if_neg hb]

end Verif.Rseq
