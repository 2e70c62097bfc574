import Verif.RseqTwiceRun
/-
The new program against the old one: code lookups, zones, the block, and the exits that end in `rseq_bug`.
-/

namespace Verif.Rseq

variable {n : Nat} (S : Site n)

theorem Site.t_len : S.twice.code.length = S.prog.code.length + S.tk + S.tail.length := by
  have := S.tp_lt
  rw [S.twice_eq]
  simp only [insertBlock, List.length_append, List.length_map, List.length_take, List.length_drop]
  rw [Nat.min_eq_left (by omega)]
  show _ = _ + S.blk.length + _
  omega

theorem Site.t_start : S.twice.start = S.prog.start := rfl
theorem Site.t_chk : S.twice.chk = S.prog.chk := rfl
theorem Site.t_commit : S.twice.commit = S.prog.commit + S.tk := rfl
theorem Site.t_abort : S.twice.abort = S.prog.abort + S.tk := rfl
theorem Site.t_ne : S.twice.ne = S.prog.ne + S.tk := rfl
theorem Site.t_be : S.twice.be = S.prog.be := rfl

/-- The copy of the instruction at `i`. -/
theorem Site.t_code {i : Nat} {ins : Instr} (h : S.prog.code[i]? = some ins) :
    S.twice.code[sh S.tp S.tk i]? = some (ins.shift S.tp S.tk) := by
  have hp := S.tp_lt
  have hi : i < S.prog.code.length := by
    by_cases hi : i < S.prog.code.length
    · exact hi
    · rw [List.getElem?_eq_none (by omega)] at h; simp at h
  rw [S.twice_eq]
  unfold sh
  split
  · rename_i hlt
    rw [ins_lt (by omega) hlt, h]; rfl
  · rename_i hge
    have := ins_ge (P := S.prog) (p := S.tp) (blk := S.blk) (tail := S.tail) (by omega) (by omega : S.tp ≤ i) hi
    rw [h] at this
    exact this

theorem Site.t_blk {j : Nat} (h : j < S.tk) : S.twice.code[S.tp + j]? = S.blk[j]? := by
  have hp := S.tp_lt
  rw [S.twice_eq, ins_blk (by omega) h]

theorem Site.t_tail {i : Nat} {ins : Instr} (h : S.prog.code.length + S.tk ≤ i)
    (hc : S.twice.code[i]? = some ins) : ins ∈ S.tail := by
  have hp := S.tp_lt
  rw [S.twice_eq] at hc
  simp only [insertBlock] at hc
  have hk : S.tk = S.blk.length := rfl
  rw [List.getElem?_append_right (by simp; omega), List.getElem?_append_right (by simp; omega),
    List.getElem?_append_right (by simp; omega)] at hc
  exact List.mem_of_getElem? hc

theorem sh_at (p k i : Nat) : Pc.shift p k (.at i) = .at (sh p k i) := rfl

/-- Zones of corresponding positions. -/
theorem Site.t_zone (q : Pc) (h : zone S.prog q ≠ .out) :
    zone S.twice (q.shift S.tp S.tk) = zone S.prog q := by
  have F := S.tfacts
  have Z := S.facts
  have f1 := F.chk; have f2 := F.commit
  have z1 := Z.sc; have z2 := Z.cc; have z3 := Z.ca; have z4 := Z.an; have z5 := Z.nl
  cases q with
  | ret r => rfl
  | «at» i =>
    have hi : i < S.prog.code.length := by
      rcases zone_at_cases Z (i := i) with h'|h'|h'|h'|h'|h'|h' <;> first | omega | exact absurd h'.1 h
    rw [sh_at]
    have hl := S.t_len
    simp only [zone, S.t_start, S.t_chk, S.t_commit, S.t_abort, S.t_ne, hl]
    unfold sh
    by_cases hip : i < S.tp
    · rw [if_pos hip]
      simp only [show i < S.prog.commit by omega, show i < S.prog.commit + S.tk by omega, if_true]
    · rw [if_neg hip]
      simp only [show ¬ i < S.prog.start by omega, show ¬ i < S.prog.chk by omega,
        show ¬ i + S.tk < S.prog.start by omega, show ¬ i + S.tk < S.prog.chk by omega, if_false,
        Nat.add_lt_add_iff_right, hi, if_true, show i + S.tk < S.prog.code.length + S.tk + S.tail.length by omega]

theorem Site.t_zone_blk {j : Nat} (h : j < S.tk) : zone S.twice (.at (S.tp + j)) = .body := by
  have F := S.tfacts
  have f1 := F.chk; have f2 := F.commit
  have z1 := S.facts.sc
  simp only [zone, S.t_start, S.t_chk, S.t_commit]
  simp only [show ¬ S.tp + j < S.prog.start by omega, show ¬ S.tp + j < S.prog.chk by omega,
    show S.tp + j < S.prog.commit + S.tk by omega, if_true, if_false]

/-! ### Exits through `rseq_bug` -/

theorem Site.bug_step (fv : BitVec 32) (s : LSt n × Mem n)
    (h : bugExit (S.prog.code.length + S.tk) s.1.pc = true) :
    bugExit (S.prog.code.length + S.tk) (step S.twice fv s).1.pc = true := by
  obtain ⟨l, m⟩ := s
  cases hpc : l.pc with
  | ret r =>
    have : step S.twice fv (l, m) = (l, m) := by simp only [step, hpc]
    rw [this]; exact h
  | «at» i =>
    simp only [step, hpc]
    cases hc : S.twice.code[i]? with
    | none => exact h
    | some ins =>
      have hi := bugExit_at (show bugExit _ (.at i) = true by rw [← hpc]; exact h)
      rcases succs_tgts (exec_succs S.twice fv i ins l m) with hs | hs
      · dsimp only; rw [hs]
        exact Nat.ble_eq_true_of_le (by omega)
      · exact S.tail_tgts _ ins (S.t_tail hi hc) _ hs

theorem Site.bug_run (fv : BitVec 32) (k : Nat) (s : LSt n × Mem n)
    (h : bugExit (S.prog.code.length + S.tk) s.1.pc = true) :
    bugExit (S.prog.code.length + S.tk) (run S.twice fv k s).1.pc = true := by
  induction k generalizing s with
  | zero => exact h
  | succ k ih => simp only [run]; exact ih _ (S.bug_step fv s h)

/-! ### The number of steps before the block -/

theorem Rep.count {P : Prog n} {p : Nat}
    (tgt : ∀ (i : Nat) (ins : Instr), P.code[i]? = some ins → ∀ t ∈ tgts ins, beyond p t = true)
    {fv : BitVec 32} {m : Mem n} {l0 l : LSt n} {F : W n → Prop} (h0 : l0.pc = .at 0)
    (h : Rep P fv m l0 l F) : ∀ i, l.pc = .at i → i ≤ p → Rseq.run P fv i (l0, m) = (l, m) := by
  induction h with
  | refl =>
    intro i hi _
    rw [h0] at hi
    injection hi with hi
    subst hi
    rfl
  | @step l l' F i ins _ hp hc he ih =>
    intro j hj hle
    have hs := exec_succs P fv i ins l m
    rw [he] at hs
    dsimp only at hs
    rw [hj] at hs
    rcases succs_tgts hs with hs | hs
    · injection hs with hs
      subst hs
      rw [run_add, ih i hp (by omega)]
      simp only [Rseq.run, Rseq.step, hp, hc, he]
    · have := beyond_at (tgt i ins hc _ hs)
      omega

/-! ### `Quiet` -/

/-- After the last comparison the helper is bound to commit. -/
theorem Quiet.not_after_cut {l : LSt n} (h : Quiet S.prog l) :
    ∀ i, l.pc = .at i → cut S.prog ≤ i → zone S.prog (.at i) = .body → False := by
  induction h with
  | done h => intro i hi; rw [h] at hi; simp at hi
  | @step l l' i ins hp hc hm hf he hq ih =>
    intro j hj hcut hz
    rw [hp] at hj
    injection hj with hj
    subst hj
    by_cases hcm : i + 1 = S.prog.commit
    · have := ((body_step S.facts hc hz (fv := 0#32) (l := l) (m := fun _ => 0#8)).2.2.1 hcm).1
      cases ins <;> simp_all [isStore, memFree]
    · obtain ⟨k, h1, h2, h3⟩ := (cut_step S.facts S.cutOK hc hz hcm).2 hcut 0#32 l (fun _ => 0#8)
      rw [he] at h1
      exact ih k h1 h2 h3

theorem Quiet.step1 {P : Prog n} {l : LSt n} (h : Quiet P l) (fv : BitVec 32) (m : Mem n) :
    Quiet P (Rseq.step P fv (l, m)).1 ∧ (Rseq.step P fv (l, m)).2 = m := by
  cases h with
  | done h => simp only [Rseq.step, h]; exact ⟨.done h, trivial⟩
  | @step _ l' i ins hp hc hm hf he hq =>
    simp only [Rseq.step, hp, hc]
    rw [he]
    exact ⟨hq, (exec_memFree hm P fv i l m m).1⟩

theorem Quiet.run {P : Prog n} {l : LSt n} (h : Quiet P l) (fv : BitVec 32) (m : Mem n) (k : Nat) :
    Quiet P (Rseq.run P fv k (l, m)).1 := by
  induction k generalizing l with
  | zero => exact h
  | succ k ih =>
    simp only [Rseq.run]
    have := h.step1 fv m
    have h2 : Rseq.step P fv (l, m) = ((Rseq.step P fv (l, m)).1, m) := Prod.ext rfl this.2
    rw [h2]
    exact ih this.1

/-- A helper of the new build that is bound to return 1 corresponds to one of the old build. -/
theorem Quiet.unshift {l' : LSt n} (h : Quiet S.twice l') : ∀ l : LSt n,
    l' = { l with pc := l.pc.shift S.tp S.tk } →
    (zone S.prog l.pc = .body ∨ zone S.prog l.pc = .neq ∨ zone S.prog l.pc = .done 1) →
    Quiet S.prog l := by
  have F := S.tfacts
  induction h with
  | @done l' h =>
    intro l hl hz
    subst hl
    cases hpc : l.pc with
    | ret r => dsimp only at h; rw [hpc] at h; exact .done (by rw [hpc]; exact h)
    | «at» i => dsimp only at h; rw [hpc] at h; simp [Pc.shift] at h
  | @step l1' l2' i' ins' hp hc hm hf he hq ih =>
    intro l hl hz
    subst hl
    dsimp only at hp
    cases hpc : l.pc with
    | ret r => rw [hpc] at hp; simp [Pc.shift] at hp
    | «at» i =>
      rw [hpc, sh_at] at hp
      injection hp with hp
      subst hp
      rw [hpc] at hz
      obtain ⟨ins, hci⟩ := zone_code S.facts (i := i) (by rcases hz with h|h|h <;> rw [h] <;> simp)
      have hc' := S.t_code hci
      rw [hc] at hc'
      injection hc' with hc'
      subst hc'
      rw [memFree_shift] at hm
      rw [cpuFree_shift] at hf
      have hex : ∀ (fv : BitVec 32) (m : Mem n), l2' =
          { (exec S.prog fv i ins l m).1 with
            pc := nextPc S.tp S.tk i (exec S.prog fv i ins l m).1.pc } := by
        intro fv m
        rw [← he fv m, exec_shift S.prog S.twice rfl rfl fv S.tp S.tk i ins l _ m F.p1 (F.tgt i ins hci)]
      have hconst : ∀ (fv : BitVec 32) (m : Mem n),
          (exec S.prog fv i ins l m).1 = (exec S.prog 0#32 i ins l (fun _ => 0#8)).1 := by
        intro fv m
        rw [exec_cpuFree hf S.prog fv 0#32]
        exact (exec_memFree hm S.prog 0#32 i l m (fun _ => 0#8)).2
      refine .step hpc hci hm hf hconst ?_
      have h0 := hex 0#32 (fun _ => 0#8)
      by_cases hb : i + 1 = S.tp ∧ (exec S.prog 0#32 i ins l (fun _ => 0#8)).1.pc = .at S.tp
      · -- into the block: its first instruction reads the CPU field
        exfalso
        have hpc' : l2'.pc = .at S.tp := by rw [h0]; unfold nextPc; rw [if_pos hb]
        obtain ⟨b, hb1, hb2⟩ := S.blk_first
        have hcb : S.twice.code[S.tp]? = some b := by
          have := S.t_blk (j := 0) F.k1
          rw [Nat.add_zero] at this
          rw [this]; exact hb1
        cases hq with
        | done h => rw [hpc'] at h; simp at h
        | step hp2 hc2 hm2 hf2 he2 hq2 =>
          rw [hpc'] at hp2
          injection hp2 with hp2
          rw [← hp2, hcb] at hc2
          injection hc2 with hc2
          rw [← hc2, hb2] at hf2
          simp at hf2
      · apply ih
        · rw [h0]; unfold nextPc; rw [if_neg hb]
        · rcases hz with hz | hz | hz
          · have hbs := body_step S.facts hci hz (fv := 0#32) (l := l) (m := fun _ => 0#8)
            by_cases hcm : i + 1 = S.prog.commit
            · have := (hbs.2.2.1 hcm).1
              cases ins <;> simp_all [isStore, memFree]
            · exact (hbs.2.2.2 hcm).2
          · exact .inr (neq_step S.facts hci hz (fv := 0#32) (l := l) (m := fun _ => 0#8)).2.2
          · rcases zone_at_cases S.facts (i := i) with h'|h'|h'|h'|h'|h'|h' <;> simp [hz] at h'

end Verif.Rseq
