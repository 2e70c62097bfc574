import Verif.RseqInjectLocal
/-
Uninterrupted execution of injected programs: the loops end.
-/

namespace Verif.Rseq

variable {n : Nat}

theorem run_one (p : Prog n) (fv : BitVec 32) {l : LSt n} {m : Mem n} {i : Nat} {ins : Instr}
    (hp : l.pc = .at i) (hc : p.code[i]? = some ins) : run p fv 1 (l, m) = exec p fv i ins l m := by
  simp only [run, step, hp, hc]

/-- What a loop may change. -/
structure LoopRel (J : Inj) (l l' : LSt n) : Prop where
  slots : l'.slots = l.slots
  regs : ∀ x, x ≠ J.reg → l'.regs x = l.regs x
  zf : J.flags = false → l'.zf = l.zf

theorem LoopRel.refl (J : Inj) (l : LSt n) : LoopRel J l l := ⟨rfl, fun _ _ => rfl, fun _ => rfl⟩

theorem LoopRel.trans {J : Inj} {a b c : LSt n} (h1 : LoopRel J a b) (h2 : LoopRel J b c) : LoopRel J a c :=
  ⟨h2.slots.trans h1.slots, fun x hx => (h2.regs x hx).trans (h1.regs x hx),
    fun hf => (h2.zf hf).trans (h1.zf hf)⟩

theorem run_then (p : Prog n) (fv : BitVec 32) {l l1 : LSt n} {m : Mem n} {a : Nat}
    (h : run p fv a (l, m) = (l1, m)) {l2 : LSt n} {b : Nat} (h2 : run p fv b (l1, m) = (l2, m)) :
    run p fv (a + b) (l, m) = (l2, m) := by
  rw [run_add, h, h2]

theorem sub_one_toNat {x : W n} (h : x ≠ 0#(8 * n)) :
    (x + BitVec.ofInt (8 * n) (-1)).toNat + 1 = x.toNat := by
  have h1 : 0 < x.toNat := by
    rcases Nat.eq_zero_or_pos x.toNat with h0 | h0
    · exact absurd (BitVec.eq_of_toNat_eq (by simpa using h0)) h
    · exact h0
  have h2 := x.isLt
  rw [ofInt_neg_one, ← BitVec.sub_eq_add_neg, BitVec.toNat_sub]
  have h3 : (1#(8 * n)).toNat = 1 := by
    rw [BitVec.toNat_ofNat]
    exact Nat.mod_eq_of_lt (by omega)
  rw [h3, show 2 ^ (8 * n) - 1 + x.toNat = (x.toNat - 1) + 2 ^ (8 * n) by omega, Nat.add_mod_right,
    Nat.mod_eq_of_lt (by omega)]
  omega

section
variable (J : Inj) (Q : Prog n) (fv : BitVec 32)

/-- The countdown, with condition codes: at the decrement, with a positive counter. -/
theorem count_flags (hf : J.flags = true) {b num : Nat}
    (hc : ∀ o ins, (J.loop b num)[o]? = some ins → Q.code[b + o]? = some ins) :
    ∀ (c : Nat) (l : LSt n) (m : Mem n), l.pc = .at (b + 3) → (l.regs J.reg).toNat = c → l.regs J.reg ≠ 0#(8 * n) →
      ∃ k l', run Q fv k (l, m) = (l', m) ∧ l'.pc = .at (b + 5) ∧ LoopRel J l l' := by
  have c3 := hc 3 (.addf J.reg J.reg (-1)) (by simp [Inj.loop, hf])
  have c4 := hc 4 (.jne (.at (b + 3))) (by simp [Inj.loop, hf])
  intro c
  induction c with
  | zero =>
    intro l m _ h0 hne
    exact absurd (BitVec.eq_of_toNat_eq (by simpa using h0)) hne
  | succ c ih =>
    intro l m hp hv hne
    have h1 := run_one Q fv (m := m) hp c3
    have hs := sub_one_toNat hne
    simp only [exec] at h1
    generalize hl1 : LSt.mk (upd l.regs J.reg (l.regs J.reg + BitVec.ofInt (8 * n) (-1))) l.slots
      (l.regs J.reg + BitVec.ofInt (8 * n) (-1) == 0#(8 * n)) (Pc.at (b + 3 + 1)) = l1 at h1
    have hl1r : l1.regs J.reg = l.regs J.reg + BitVec.ofInt (8 * n) (-1) := by rw [← hl1]; simp [upd]
    have hl1z : l1.zf = (l1.regs J.reg == 0#(8 * n)) := by rw [hl1r, ← hl1]
    have hl1p : l1.pc = .at (b + 4) := by rw [← hl1]
    have hr1 : LoopRel J l l1 := by
      refine ⟨by rw [← hl1], fun x hx => by rw [← hl1]; simp [upd, hx], fun h => by rw [hf] at h; cases h⟩
    have h2 := run_one Q fv (m := m) hl1p c4
    simp only [exec, LSt.br] at h2
    by_cases hz : l1.regs J.reg = 0#(8 * n)
    · rw [hl1z, hz] at h2
      simp only [beq_self_eq_true, Bool.not_true, Bool.false_eq_true, if_false] at h2
      exact ⟨_, _, run_then Q fv h1 h2, rfl, hr1.trans ⟨rfl, fun _ _ => rfl, fun h => by rw [hf] at h; cases h⟩⟩
    · have hb : (!l1.zf) = true := by rw [hl1z]; simpa using hz
      rw [hb] at h2
      simp only [if_true] at h2
      obtain ⟨k, l', h3, h4, h5⟩ := ih { l1 with pc := .at (b + 3) } m rfl
        (by dsimp only; rw [hl1r]; omega) hz
      exact ⟨_, _, run_then Q fv (run_then Q fv h1 h2) h3, h4,
        hr1.trans ⟨h5.slots, h5.regs, h5.zf⟩⟩

/-- The countdown, without condition codes. -/
theorem count_plain (hf : J.flags = false) {b num : Nat}
    (hc : ∀ o ins, (J.loop b num)[o]? = some ins → Q.code[b + o]? = some ins) :
    ∀ (c : Nat) (l : LSt n) (m : Mem n), l.pc = .at (b + 2) → (l.regs J.reg).toNat = c → l.regs J.reg ≠ 0#(8 * n) →
      ∃ k l', run Q fv k (l, m) = (l', m) ∧ l'.pc = .at (b + 4) ∧ LoopRel J l l' := by
  have c3 := hc 2 (.addi J.reg J.reg (-1)) (by simp [Inj.loop, hf])
  have c4 := hc 3 (.cbnz J.reg (.at (b + 2))) (by simp [Inj.loop, hf])
  intro c
  induction c with
  | zero =>
    intro l m _ h0 hne
    exact absurd (BitVec.eq_of_toNat_eq (by simpa using h0)) hne
  | succ c ih =>
    intro l m hp hv hne
    have h1 := run_one Q fv (m := m) hp c3
    have hs := sub_one_toNat hne
    simp only [exec] at h1
    generalize hl1 : l.setR (b + 2) J.reg (l.regs J.reg + BitVec.ofInt (8 * n) (-1)) = l1 at h1
    have hl1r : l1.regs J.reg = l.regs J.reg + BitVec.ofInt (8 * n) (-1) := by rw [← hl1]; simp [LSt.setR, upd]
    have hl1p : l1.pc = .at (b + 3) := by rw [← hl1]; rfl
    have hr1 : LoopRel J l l1 := by
      refine ⟨by rw [← hl1]; rfl, fun x hx => by rw [← hl1]; simp [LSt.setR, upd, hx], fun _ => by rw [← hl1]; rfl⟩
    have h2 := run_one Q fv (m := m) hl1p c4
    simp only [exec, LSt.br] at h2
    by_cases hz : l1.regs J.reg = 0#(8 * n)
    · rw [hz] at h2
      simp only [bne_self_eq_false, Bool.false_eq_true, if_false] at h2
      exact ⟨_, _, run_then Q fv h1 h2, rfl, hr1.trans ⟨rfl, fun _ _ => rfl, fun _ => rfl⟩⟩
    · have hb : (l1.regs J.reg != 0#(8 * n)) = true := by simpa using hz
      rw [hb] at h2
      simp only [if_true] at h2
      obtain ⟨k, l', h3, h4, h5⟩ := ih { l1 with pc := .at (b + 2) } m rfl
        (by dsimp only; rw [hl1r]; omega) hz
      exact ⟨_, _, run_then Q fv (run_then Q fv h1 h2) h3, h4,
        hr1.trans ⟨h5.slots, h5.regs, h5.zf⟩⟩

/-- One loop ends. -/
theorem loop_ends {b num : Nat} (hc : ∀ o ins, (J.loop b num)[o]? = some ins → Q.code[b + o]? = some ins)
    (l : LSt n) (m : Mem n) (hp : l.pc = .at b) :
    ∃ k l', run Q fv k (l, m) = (l', m) ∧ l'.pc = .at (b + J.len) ∧ LoopRel J l l' := by
  cases hf : J.flags with
  | true =>
    have hlen : J.len = 5 := by simp [Inj.len, hf]
    have c0 := hc 0 (.ldS J.reg (200 + num)) (by simp [Inj.loop, hf])
    have c1 := hc 1 (.tst J.reg) (by simp [Inj.loop, hf])
    have c2 := hc 2 (.je (.at (b + 5))) (by simp [Inj.loop, hf])
    have h1 := run_one Q fv (m := m) hp c0
    simp only [exec] at h1
    generalize hl1 : l.setR (b + 0) J.reg (l.slots (200 + num)) = l1 at h1
    have hr1 : LoopRel J l l1 :=
      ⟨by rw [← hl1]; rfl, fun x hx => by rw [← hl1]; simp [LSt.setR, upd, hx], fun h => by rw [hf] at h; cases h⟩
    have hp1 : l1.pc = .at (b + 1) := by rw [← hl1]; rfl
    have h2 := run_one Q fv (m := m) hp1 c1
    simp only [exec, LSt.setF] at h2
    have h3 := run_one Q fv (m := m) (l := { l1 with zf := l1.regs J.reg == 0#(8 * n), pc := .at (b + 1 + 1) }) rfl c2
    simp only [exec, LSt.br] at h3
    have hr2 : ∀ z pc, LoopRel J l { l1 with zf := z, pc := pc } := fun z pc =>
      hr1.trans ⟨rfl, fun _ _ => rfl, fun h => by rw [hf] at h; cases h⟩
    by_cases hz : l1.regs J.reg = 0#(8 * n)
    · rw [hz] at h3 h2
      simp only [beq_self_eq_true, if_true] at h3 h2
      exact ⟨_, _, run_then Q fv (run_then Q fv h1 h2) h3, by rw [hlen], hr2 _ _⟩
    · have hb : (l1.regs J.reg == 0#(8 * n)) = false := by simpa using hz
      rw [hb] at h3 h2
      simp only [Bool.false_eq_true, if_false] at h3
      obtain ⟨k, l', h4, h5, h6⟩ := count_flags J Q fv hf hc _
        { l1 with zf := false, pc := .at (b + 3) } m rfl rfl hz
      exact ⟨_, _, run_then Q fv (run_then Q fv (run_then Q fv h1 h2) h3) h4, by rw [hlen]; exact h5,
        (hr2 _ _).trans h6⟩
  | false =>
    have hlen : J.len = 4 := by simp [Inj.len, hf]
    have c0 := hc 0 (.ldS J.reg (200 + num)) (by simp [Inj.loop, hf])
    have c1 := hc 1 (.cbz J.reg (.at (b + 4))) (by simp [Inj.loop, hf])
    have h1 := run_one Q fv (m := m) hp c0
    simp only [exec] at h1
    generalize hl1 : l.setR (b + 0) J.reg (l.slots (200 + num)) = l1 at h1
    have hr1 : LoopRel J l l1 :=
      ⟨by rw [← hl1]; rfl, fun x hx => by rw [← hl1]; simp [LSt.setR, upd, hx], fun _ => by rw [← hl1]; rfl⟩
    have hp1 : l1.pc = .at (b + 1) := by rw [← hl1]; rfl
    have h2 := run_one Q fv (m := m) hp1 c1
    simp only [exec, LSt.br] at h2
    have hr2 : ∀ pc, LoopRel J l { l1 with pc := pc } := fun pc =>
      hr1.trans ⟨rfl, fun _ _ => rfl, fun _ => rfl⟩
    by_cases hz : l1.regs J.reg = 0#(8 * n)
    · rw [hz] at h2
      simp only [beq_self_eq_true, if_true] at h2
      exact ⟨_, _, run_then Q fv h1 h2, by rw [hlen], hr2 _⟩
    · have hb : (l1.regs J.reg == 0#(8 * n)) = false := by simpa using hz
      rw [hb] at h2
      simp only [Bool.false_eq_true, if_false] at h2
      obtain ⟨k, l', h4, h5, h6⟩ := count_plain J Q fv hf hc _
        { l1 with pc := .at (b + 2) } m rfl rfl hz
      exact ⟨_, _, run_then Q fv (run_then Q fv h1 h2) h4, by rw [hlen]; exact h5, (hr2 _).trans h6⟩

/-- Consecutive loops end. -/
theorem loops_end : ∀ (ns : List Nat) (b : Nat),
    (∀ o ins, (J.loops b ns)[o]? = some ins → Q.code[b + o]? = some ins) →
    ∀ (l : LSt n) (m : Mem n), l.pc = .at b →
    ∃ k l', run Q fv k (l, m) = (l', m) ∧ l'.pc = .at (b + J.len * ns.length) ∧ LoopRel J l l' := by
  intro ns
  induction ns with
  | nil => intro b _ l m hp; exact ⟨0, l, rfl, hp, .refl J l⟩
  | cons a r ih =>
    intro b hc l m hp
    obtain ⟨k1, l1, h1, h2, h3⟩ := loop_ends J Q fv (b := b) (num := a) (fun o ins ho => hc o ins (by
      rw [Inj.loops, List.getElem?_append_left (List.getElem?_eq_some_iff.1 ho).1]; exact ho)) l m hp
    obtain ⟨k2, l2, h4, h5, h6⟩ := ih (b + J.len) (fun o ins ho => by
      have := hc (J.len + o) ins (by
        rw [Inj.loops, List.getElem?_append_right (by rw [J.loop_length]; omega), J.loop_length,
          Nat.add_sub_cancel_left]; exact ho)
      rw [← Nat.add_assoc] at this; exact this) l1 m h2
    refine ⟨_, _, run_then Q fv h1 h4, ?_, h3.trans h6⟩
    rw [h5, List.length_cons, Nat.mul_succ]; congr 1; omega

end

section
variable {J : Inj} {ps : List (Nat × Nat)} {P : Prog n} {D : InjDead J ps P}

/-- Corresponding states at the label of the same instruction. -/
def AtLabel (J : Inj) (ps : List (Nat × Nat)) (l l' : LSt n) : Prop :=
  ∀ i, l.pc = .at i → l'.pc = .at (newAt (J.w ps) i)

/-- An instruction without the loops takes finitely many instructions with them. -/
theorem inj_one (fv : BitVec 32) {l l' : LSt n} (h : LRel D l l') (hl : AtLabel J ps l l') (m : Mem n) :
    ∃ k l1', run (J.prog ps P) fv k (l', m) = (l1', (step P fv (l, m)).2) ∧
      LRel D (step P fv (l, m)).1 l1' ∧ AtLabel J ps (step P fv (l, m)).1 l1' := by
  cases hp : l.pc with
  | ret r => exact ⟨0, l', by simp [run, step, hp], by simpa [step, hp] using h, by simpa [step, hp] using hl⟩
  | «at» i =>
    cases hc : P.code[i]? with
    | none =>
      exact ⟨0, l', by simp [run, step, hp, hc], by simpa [step, hp, hc] using h,
        by simpa [step, hp, hc] using hl⟩
    | some ins =>
      have hi := (List.getElem?_eq_some_iff.1 hc).1
      -- the loops
      have hloops : ∀ o ins', (J.loops (newAt (J.w ps) i) (ptsAt ps i))[o]? = some ins' →
          (J.prog ps P).code[newAt (J.w ps) i + o]? = some ins' := by
        intro o ins' ho
        have hlt : o < J.w ps i := by
          have := (List.getElem?_eq_some_iff.1 ho).1
          rw [J.loops_length] at this; exact this
        have h0 := J.code_loop ps P.code 0 i o hi (by rw [Nat.zero_add]; exact hlt)
        rw [Nat.zero_add, show newAt (J.w ps) 0 = 0 from rfl, Nat.sub_zero] at h0
        exact h0.trans ho
      have hpre : ∃ k1 l1, run (J.prog ps P) fv k1 (l', m) = (l1, m) ∧
          l1.pc = .at (newAt (J.w ps) i + J.w ps i) ∧ LRel D l l1 := by
        rcases Nat.eq_zero_or_pos (J.w ps i) with h0 | h0
        · exact ⟨0, l', rfl, by rw [h0]; exact hl i hp, h⟩
        · obtain ⟨k1, l1, r1, r2, r3⟩ :=
            loops_end J (J.prog ps P) fv (ptsAt ps i) (newAt (J.w ps) i) hloops l' m (hl i hp)
          refine ⟨k1, l1, r1, r2, ?_⟩
          obtain ⟨d1, d2⟩ := D.pts i hi h0
          refine ⟨r3.slots.trans h.slots, fun x hx => (r3.regs x hx).trans (h.regs x hx), fun i0 hi0 hd => ?_,
            fun i0 hi0 hd => ?_, fun r => ?_, fun i0 hi0 => ?_⟩
          · rw [hp] at hi0; injection hi0 with hi0; subst hi0; rw [d1] at hd; cases hd
          · rw [hp] at hi0; injection hi0 with hi0; subst hi0
            cases hf : J.flags with
            | true => rw [d2 hf] at hd; cases hd
            | false => rw [r3.zf hf]; exact h.zf i hp hd
          · rw [hp, r2]; constructor <;> (intro h; cases h)
          · rw [hp] at hi0; injection hi0 with hi0; subst hi0
            exact ⟨J.w ps i, Nat.le_refl _, r2⟩
      obtain ⟨k1, l1, r1, r2, hl1⟩ := hpre
      have hc' := J.prog_old ps P hc
      have h2 := run_one (J.prog ps P) fv (m := m) r2 hc'
      have hst : step P fv (l, m) = exec P fv i ins l m := by simp [step, hp, hc]
      rw [hst]
      obtain ⟨-, b5, -, b7, b8⟩ := hl1.old hp rfl hc fv m
      refine ⟨k1 + 1, _, ?_, b7, fun i1 hi1 => ?_⟩
      · rw [run_add, r1, h2, ← b5]
      · rw [b8, hi1]; rfl

/-- Uninterrupted execution. -/
theorem inj_run (fv : BitVec 32) : ∀ (k : Nat) (l l' : LSt n) (m : Mem n), LRel D l l' → AtLabel J ps l l' →
    ∃ k' l1', run (J.prog ps P) fv k' (l', m) = (l1', (run P fv k (l, m)).2) ∧
      LRel D (run P fv k (l, m)).1 l1' := by
  intro k
  induction k with
  | zero => intro l l' m h _; exact ⟨0, l', rfl, h⟩
  | succ k ih =>
    intro l l' m h hl
    obtain ⟨k1, l1', h1, h2, h3⟩ := inj_one fv h hl m
    obtain ⟨k2, l2', h4, h5⟩ := ih _ _ (step P fv (l, m)).2 h2 h3
    exact ⟨k1 + k2, l2', by rw [run_add, h1]; exact h4, h5⟩

/-- An injected helper returns what the helper returns. -/
theorem inj_returns (D : InjDead J ps P) {fv : BitVec 32} {clob : List Nat} {l : LSt n} {m m' : Mem n} {r : Int}
    (h0 : l.pc = .at 0) (h : Returns P fv clob l m r m') :
    Returns (J.prog ps P) fv (J.reg :: clob) l m r m' := by
  obtain ⟨k, h1, h2, h3⟩ := h
  obtain ⟨k', l1', e1, e2⟩ := inj_run (D := D) fv k l l m (LRel.start D h0) (fun i hi => by
    rw [h0] at hi; injection hi with hi; subst hi; exact h0)
  refine ⟨k', ?_, ?_, fun x hx => ?_⟩
  · rw [e1]; exact (e2.ret r).1 h1
  · rw [e1]; exact h2
  · simp only [List.mem_cons, not_or] at hx
    rw [e1, ← h3 x hx.2]; exact e2.regs x hx.1

end

end Verif.Rseq
