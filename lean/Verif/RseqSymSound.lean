import Verif.RseqSymStep
/-
Soundness of the symbolic execution of one instruction.
-/

namespace Verif.Rseq

variable {n : Nat} {al : Opnd → Nat} {env : Nat → W n} {σ : Sy} {l : LSt n}

theorem Rel.br (hn : 1 ≤ n) (h : Rel al env σ l) {i : Nat} {z : Option Lin} {onz zb c : Bool} {t : Pc}
    (hz : ∀ x, z = some x → (zb = true ↔ ev env x = 0#(8 * n))) (hc : c = (zb == onz)) :
    ∃ σ' ∈ σ.br i z onz t, Rel al env σ' (l.br i c t) ∧ σ'.tree.conc env = σ.tree.conc env := by
  subst hc
  cases z with
  | none =>
    by_cases hb : (zb == onz) = true
    · refine ⟨_, List.mem_cons_self, h.congr ?_ rfl rfl rfl rfl h.zf, rfl⟩
      simp only [LSt.br]; rw [if_pos hb]
    · refine ⟨σ.nx i, by simp [Sy.br], h.congr ?_ rfl rfl rfl rfl h.zf, rfl⟩
      simp only [LSt.br, Sy.nx]; rw [if_neg hb]
  | some x =>
    have hx := hz x rfl
    by_cases hb : (zb == onz) = true
    · refine ⟨_, List.mem_cons_self, h.congr ?_ rfl rfl rfl rfl h.zf, ?_⟩
      · simp only [LSt.br]; rw [if_pos hb]
      · apply conc_advance hn
        rw [← hx, beq_iff_eq.1 hb]
    · refine ⟨{ σ with pc := .at (i + 1), tree := σ.tree.advance x (!onz) }, by simp [Sy.br],
        h.congr ?_ rfl rfl rfl rfl h.zf, ?_⟩
      · simp only [LSt.br]; rw [if_neg hb]
      · apply conc_advance hn
        rw [← hx]
        revert hb; cases zb <;> cases onz <;> simp

theorem sub_zero_iff (a b : W n) : (a == b) = true ↔ a - b = 0#(8 * n) := by
  rw [beq_iff_eq]
  constructor
  · rintro rfl; simp
  · intro h
    rw [← BitVec.sub_add_cancel a b, h]; simp

attribute [local irreducible] lat ev

/-- The conclusion. -/
def Sound (al : Opnd → Nat) (env : Nat → W n) (σ : Sy) (be : Bool) (m : Mem n) (quiet : Bool) (L : List Sy)
    (r : LSt n × Mem n) : Prop :=
  ∃ σ' ∈ L, ∃ env' as, Rel al env' σ' r.1 ∧ Runs (σ.tree.conc env) as (σ'.tree.conc env') ∧
    (quiet = true → as = []) ∧ Does be m as r.2

/-- No access, same environment. -/
theorem Sound.quiet {be qu : Bool} {m : Mem n} {L : List Sy} {l' : LSt n} {σ' : Sy} (hm : σ' ∈ L)
    (hr : Rel al env σ' l') (ht : σ'.tree.conc env = σ.tree.conc env) : Sound al env σ be m qu L (l', m) :=
  ⟨σ', hm, env, [], hr, by rw [ht]; exact .nil, fun _ => rfl, .none⟩

theorem Rel.setR {sep : Nat → Nat → Bool} (hsep : SepR sep al) (h : Rel al env σ l) {r i : Nat} {v : Option Lin}
    {σ' : Sy} (hp : σ.put sep r v = some σ') {y : W n} (hv : ∀ x, v = some x → y = ev env x) :
    Rel al env (σ'.nx i) (l.setR i (rn al r) y) ∧ (σ'.nx i).tree = σ.tree := by
  obtain ⟨h1, h2, -, -, -⟩ := h.put hsep hp hv
  exact ⟨h1.congr rfl rfl rfl rfl rfl h1.zf, h2⟩

/-- Setting a register, no access. -/
theorem Sound.reg {sep : Nat → Nat → Bool} (hsep : SepR sep al) (h : Rel al env σ l) {r i : Nat} {v : Option Lin}
    {be qu : Bool} {m : Mem n} {L : List Sy} (hp : (σ.put sep r v).map (fun σ => [σ.nx i]) = some L) {y : W n}
    (hv : ∀ x, v = some x → y = ev env x) : Sound al env σ be m qu L (l.setR i (rn al r) y, m) := by
  obtain ⟨σ', hp', rfl⟩ := Option.map_eq_some_iff.1 hp
  obtain ⟨h1, h2⟩ := h.setR (i := i) hsep hp' hv
  exact .quiet (σ' := σ'.nx i) (by simp) h1 (by rw [h2])

theorem flag_iff {be : Bool} {x y : W n} (h : x = y) (hb : be = (x == 0#(8 * n))) : be = true ↔ y = 0#(8 * n) := by
  subst h; subst hb; simp

set_option maxHeartbeats 1000000 in
theorem step_sound (hn : 1 ≤ n) {sep : Nat → Nat → Bool} (hsep : SepR sep al) (h : Rel al env σ l) {i : Nat}
    {ins : Instr} {L : List Sy} (hs : σ.step sep i ins = some L) (p : Prog n)
    (fv : BitVec 32) (m : Mem n) :
    Sound al env σ p.be m (memFree ins) L (exec p fv i (ins.ren (rn al)) l m) := by
  have noval : ∀ (y : W n) (x : Lin), (none : Option Lin) = some x → y = ev env x := by intro y x hx; cases hx
  cases ins with
  | cs r => exact Sound.reg hsep h hs (noval _)
  | ldCpuS r => exact Sound.reg hsep h hs (noval _)
  | ldCpuZ r => exact Sound.reg hsep h hs (noval _)
  | sub32 r a b => exact Sound.reg hsep h hs (noval _)
  | cmpCpu r =>
    simp only [Sy.step, Option.some.injEq] at hs
    subst hs
    exact .quiet (List.mem_singleton.2 rfl) (h.congr rfl rfl rfl rfl rfl (by intro x hx; cases hx)) rfl
  | cmp32 a b =>
    simp only [Sy.step, Option.some.injEq] at hs
    subst hs
    exact .quiet (List.mem_singleton.2 rfl) (h.congr rfl rfl rfl rfl rfl (by intro x hx; cases hx)) rfl
  | cmp a b =>
    simp only [Sy.step, Option.some.injEq] at hs
    subst hs
    refine .quiet (List.mem_singleton.2 rfl) (h.congr rfl rfl rfl rfl rfl ?_) rfl
    intro x hx
    rw [← h.diff hx]
    exact sub_zero_iff _ _
  | tst r =>
    simp only [Sy.step, Option.some.injEq] at hs
    subst hs
    refine .quiet (List.mem_singleton.2 rfl) (h.congr rfl rfl rfl rfl rfl ?_) rfl
    intro x hx
    rw [← h.get hx]
    exact beq_iff_eq
  | cmpM b r =>
    simp only [Sy.step, Option.bind_eq_bind, Option.bind_eq_some_iff, Option.some.injEq, Prod.exists] at hs
    obtain ⟨a, ha, k, σ', hl, rfl⟩ := hs
    obtain ⟨h1, h2, h3, h4, h5, h6⟩ := h.load hl (ldw p.be m (l.regs (rn al b)))
    refine ⟨_, List.mem_singleton.2 rfl, _, _, h1.congr rfl rfl rfl rfl rfl ?_, h2, nofun, .one ⟨by rw [← h.get ha], rfl⟩⟩
    intro x hx
    obtain ⟨y, hy, rfl⟩ := Option.map_eq_some_iff.1 hx
    rw [ev_sub, h4, ← h1.get hy]
    exact sub_zero_iff _ _
  | jne t =>
    simp only [Sy.step, Option.some.injEq] at hs
    subst hs
    obtain ⟨σ', hm, hr, ht⟩ := h.br hn (i := i) (z := σ.zf) (onz := false) (zb := l.zf) (c := !l.zf) (t := t) h.zf
      (by cases l.zf <;> rfl)
    exact .quiet hm hr ht
  | je t =>
    simp only [Sy.step, Option.some.injEq] at hs
    subst hs
    obtain ⟨σ', hm, hr, ht⟩ := h.br hn (i := i) (z := σ.zf) (onz := true) (zb := l.zf) (c := l.zf) (t := t) h.zf
      (by cases l.zf <;> rfl)
    exact .quiet hm hr ht
  | bne a b t =>
    simp only [Sy.step, Option.some.injEq] at hs
    subst hs
    obtain ⟨σ', hm, hr, ht⟩ := h.br hn (i := i) (z := σ.diff a b) (onz := false)
      (zb := l.regs (rn al a) == l.regs (rn al b)) (c := l.regs (rn al a) != l.regs (rn al b)) (t := t)
      (fun x hx => by rw [← h.diff hx]; exact sub_zero_iff _ _)
      (by unfold bne; cases (l.regs (rn al a) == l.regs (rn al b)) <;> rfl)
    exact .quiet hm hr ht
  | beq a b t =>
    simp only [Sy.step, Option.some.injEq] at hs
    subst hs
    obtain ⟨σ', hm, hr, ht⟩ := h.br hn (i := i) (z := σ.diff a b) (onz := true)
      (zb := l.regs (rn al a) == l.regs (rn al b)) (c := l.regs (rn al a) == l.regs (rn al b)) (t := t)
      (fun x hx => by rw [← h.diff hx]; exact sub_zero_iff _ _)
      (by cases (l.regs (rn al a) == l.regs (rn al b)) <;> rfl)
    exact .quiet hm hr ht
  | cbnz r t =>
    simp only [Sy.step, Option.some.injEq] at hs
    subst hs
    obtain ⟨σ', hm, hr, ht⟩ := h.br hn (i := i) (z := σ.get r) (onz := false)
      (zb := l.regs (rn al r) == 0#(8 * n)) (c := l.regs (rn al r) != 0#(8 * n)) (t := t)
      (fun x hx => by rw [← h.get hx]; exact beq_iff_eq)
      (by unfold bne; cases (l.regs (rn al r) == 0#(8 * n)) <;> rfl)
    exact .quiet hm hr ht
  | cbz r t =>
    simp only [Sy.step, Option.some.injEq] at hs
    subst hs
    obtain ⟨σ', hm, hr, ht⟩ := h.br hn (i := i) (z := σ.get r) (onz := true)
      (zb := l.regs (rn al r) == 0#(8 * n)) (c := l.regs (rn al r) == 0#(8 * n)) (t := t)
      (fun x hx => by rw [← h.get hx]; exact beq_iff_eq)
      (by cases (l.regs (rn al r) == 0#(8 * n)) <;> rfl)
    exact .quiet hm hr ht
  | cbnz32 r t =>
    simp only [Sy.step, Option.some.injEq] at hs
    subst hs
    obtain ⟨σ', hm, hr, ht⟩ := h.br hn (i := i) (z := none) (onz := false)
      (zb := !((l.regs (rn al r)).setWidth 32 != 0#32)) (c := (l.regs (rn al r)).setWidth 32 != 0#32) (t := t)
      (fun x hx => by cases hx)
      (by cases ((l.regs (rn al r)).setWidth 32 != 0#32) <;> rfl)
    exact .quiet hm hr ht
  | jmp t =>
    simp only [Sy.step, Option.some.injEq] at hs
    subst hs
    exact .quiet (List.mem_singleton.2 rfl) (h.congr rfl rfl rfl rfl rfl h.zf) rfl
  | mov r a => exact Sound.reg hsep h hs fun x hx => h.get hx
  | add r a b => exact Sound.reg hsep h hs fun x hx => h.sum hx
  | sub r a b => exact Sound.reg hsep h hs fun x hx => h.diff hx
  | addi r a k => exact Sound.reg hsep h hs fun x hx => h.plus hx
  | addf r a k =>
    simp only [Sy.step] at hs
    obtain ⟨σ', hp, rfl⟩ := Option.map_eq_some_iff.1 hs
    obtain ⟨h1, h2, -, -, -⟩ := h.put hsep hp (y := l.regs (rn al a) + BitVec.ofInt (8 * n) k)
      fun x hx => h.plus hx
    refine .quiet (List.mem_singleton.2 rfl) (h1.congr rfl rfl rfl rfl rfl ?_) (by simp only [Sy.nx]; rw [h2])
    intro x hx
    exact flag_iff (h.plus hx) rfl
  | addf2 r b =>
    simp only [Sy.step] at hs
    obtain ⟨σ', hp, rfl⟩ := Option.map_eq_some_iff.1 hs
    obtain ⟨h1, h2, -, -, -⟩ := h.put hsep hp (y := l.regs (rn al r) + l.regs (rn al b)) fun x hx => h.sum hx
    refine .quiet (List.mem_singleton.2 rfl) (h1.congr rfl rfl rfl rfl rfl ?_) (by simp only [Sy.nx]; rw [h2])
    intro x hx
    exact flag_iff (h.sum hx) rfl
  | ld r b =>
    simp only [Sy.step, Option.bind_eq_bind, Option.bind_eq_some_iff, Option.some.injEq, Prod.exists] at hs
    obtain ⟨a, ha, k, σ', hl, σ'', hp, rfl⟩ := hs
    obtain ⟨h1, h2, h3, h4, -⟩ := h.load hl (ldw p.be m (l.regs (rn al b)))
    obtain ⟨h5, h6⟩ := h1.setR (i := i) hsep hp (y := ldw p.be m (l.regs (rn al b)))
      (fun x hx => by rw [← Option.some.inj hx]; exact h4.symm)
    rw [← h6] at h2
    exact ⟨_, List.mem_singleton.2 rfl, _, _, h5, h2, nofun, .one ⟨by rw [← h.get ha], rfl⟩⟩
  | ldx r a b =>
    simp only [Sy.step, Option.bind_eq_bind, Option.bind_eq_some_iff, Option.some.injEq, Prod.exists] at hs
    obtain ⟨c, ha, k, σ', hl, σ'', hp, rfl⟩ := hs
    obtain ⟨h1, h2, h3, h4, -⟩ := h.load hl (ldw p.be m (l.regs (rn al a) + l.regs (rn al b)))
    obtain ⟨h5, h6⟩ := h1.setR (i := i) hsep hp (y := ldw p.be m (l.regs (rn al a) + l.regs (rn al b)))
      (fun x hx => by rw [← Option.some.inj hx]; exact h4.symm)
    rw [← h6] at h2
    exact ⟨_, List.mem_singleton.2 rfl, _, _, h5, h2, nofun, .one ⟨by rw [← h.sum ha], rfl⟩⟩
  | st r b =>
    simp only [Sy.step, Option.bind_eq_bind, Option.bind_eq_some_iff, Option.some.injEq] at hs
    obtain ⟨a, ha, x, hx, σ', hl, rfl⟩ := hs
    obtain ⟨h1, h2, h3⟩ := h.store hl
    refine ⟨_, List.mem_singleton.2 rfl, _, _, h1.congr rfl rfl rfl rfl rfl h1.zf, h2, nofun, .one ?_⟩
    show _ = _
    rw [← h.get ha, ← h.get hx]; rfl
  | stl r b =>
    simp only [Sy.step, Option.bind_eq_bind, Option.bind_eq_some_iff, Option.some.injEq] at hs
    obtain ⟨a, ha, x, hx, σ', hl, rfl⟩ := hs
    obtain ⟨h1, h2, h3⟩ := h.store hl
    refine ⟨_, List.mem_singleton.2 rfl, _, _, h1.congr rfl rfl rfl rfl rfl h1.zf, h2, nofun, .one ?_⟩
    show _ = _
    rw [← h.get ha, ← h.get hx]; rfl
  | addM r b =>
    simp only [Sy.step, Option.bind_eq_bind, Option.bind_eq_some_iff, Option.some.injEq, Prod.exists] at hs
    obtain ⟨a, ha, k, σ', hl, x, hx, σ'', hst, rfl⟩ := hs
    obtain ⟨h1, h2, h3, h4, h5, h6⟩ := h.load hl (ldw p.be m (l.regs (rn al b)))
    obtain ⟨g1, g2, g3⟩ := h1.store hst
    have hz : σ''.zf = none := by
      unfold Sy.store at hst
      split at hst
      · split at hst
        · injection hst with hst
          subst hst
          unfold Sy.load at hl
          split at hl
          · split at hl
            · injection hl with hl
              injection hl with e1 e2
              subst e2; rfl
            · cases hl
          · cases hl
        · cases hst
      · cases hst
    have hae : ev (upd env k (ldw p.be m (l.regs (rn al b)))) a = ev env a := by
      refine ev_upd ?_
      simp only [Sy.fresh, Bool.and_eq_true, List.all_eq_true, beq_iff_eq] at h6
      exact h6.1 _ (lookup_mem ha)
    refine ⟨_, List.mem_singleton.2 rfl, _, _, g1.congr rfl rfl rfl rfl rfl ?_, h2.trans g2, nofun, ?_⟩
    · intro y hy
      simp only [Sy.nx] at hy
      rw [hz] at hy; cases hy
    · rw [hae, ev_add, h4, ← h1.get hx]
      exact .rmw ⟨by rw [← h.get ha], rfl⟩ (by show _ = _; rw [← h.get ha]; rfl)
  | ldb r b =>
    simp only [Sy.step, Option.bind_eq_bind, Option.bind_eq_some_iff, Option.some.injEq] at hs
    obtain ⟨a, ha, σ', hl, σ'', hp, rfl⟩ := hs
    obtain ⟨h1, h2, h3, h4⟩ := h.loadB hn hl (m (l.regs (rn al b)))
    obtain ⟨h5, h6⟩ := h1.setR (i := i) hsep hp (y := (m (l.regs (rn al b))).setWidth (8 * n))
      (fun x hx => by rw [← Option.some.inj hx]; exact h4.symm)
    rw [← h6] at h2
    exact ⟨_, List.mem_singleton.2 rfl, _, _, h5, h2, nofun, .one ⟨by rw [← h.get ha], rfl⟩⟩
  | ldbx r a b =>
    simp only [Sy.step, Option.bind_eq_bind, Option.bind_eq_some_iff, Option.some.injEq] at hs
    obtain ⟨c, ha, σ', hl, σ'', hp, rfl⟩ := hs
    obtain ⟨h1, h2, h3, h4⟩ := h.loadB hn hl (m (l.regs (rn al a) + l.regs (rn al b)))
    obtain ⟨h5, h6⟩ := h1.setR (i := i) hsep hp
      (y := (m (l.regs (rn al a) + l.regs (rn al b))).setWidth (8 * n))
      (fun x hx => by rw [← Option.some.inj hx]; exact h4.symm)
    rw [← h6] at h2
    exact ⟨_, List.mem_singleton.2 rfl, _, _, h5, h2, nofun, .one ⟨by rw [← h.sum ha], rfl⟩⟩
  | stb r b =>
    simp only [Sy.step, Option.bind_eq_bind, Option.bind_eq_some_iff, Option.some.injEq] at hs
    obtain ⟨a, ha, x, hx, σ', hl, rfl⟩ := hs
    obtain ⟨h1, h2, h3⟩ := h.storeB hl
    refine ⟨_, List.mem_singleton.2 rfl, _, _, h1.congr rfl rfl rfl rfl rfl h1.zf, h2, nofun, .one ?_⟩
    show _ = _
    rw [← h.get ha, ← h.get hx]; rfl
  | stbx r a b =>
    simp only [Sy.step, Option.bind_eq_bind, Option.bind_eq_some_iff, Option.some.injEq] at hs
    obtain ⟨c, ha, x, hx, σ', hl, rfl⟩ := hs
    obtain ⟨h1, h2, h3⟩ := h.storeB hl
    refine ⟨_, List.mem_singleton.2 rfl, _, _, h1.congr rfl rfl rfl rfl rfl h1.zf, h2, nofun, .one ?_⟩
    show _ = _
    rw [← h.sum ha, ← h.get hx]; rfl
  | lbzu r b =>
    simp only [Sy.step, Option.bind_eq_bind, Option.bind_eq_some_iff, Option.some.injEq] at hs
    obtain ⟨a, ha, σ1, hp1, σ2, hl, σ3, hp2, rfl⟩ := hs
    have hae : l.regs (rn al b) + 1#(8 * n) = ev env a := by
      have := h.plus ha
      rw [← this]; simp
    obtain ⟨g1, g2, -, -, -⟩ := h.put hsep hp1 (y := l.regs (rn al b) + 1#(8 * n))
      (fun x hx => by rw [← Option.some.inj hx]; exact hae)
    obtain ⟨h1, h2, h3, h4⟩ := g1.loadB hn hl (m (l.regs (rn al b) + 1#(8 * n)))
    obtain ⟨h5, h6⟩ := h1.setR (i := i) hsep hp2 (y := (m (l.regs (rn al b) + 1#(8 * n))).setWidth (8 * n))
      (fun x hx => by rw [← Option.some.inj hx]; exact h4.symm)
    rw [g2] at h2
    rw [← h6] at h2
    exact ⟨_, List.mem_singleton.2 rfl, _, _, h5, h2, nofun, .one ⟨by rw [← hae], rfl⟩⟩
  | stbu r b =>
    simp only [Sy.step, Option.bind_eq_bind, Option.bind_eq_some_iff, Option.some.injEq] at hs
    obtain ⟨a, ha, x, hx, σ1, hp1, σ2, hl, rfl⟩ := hs
    have hae : l.regs (rn al b) + 1#(8 * n) = ev env a := by
      have := h.plus ha
      rw [← this]; simp
    obtain ⟨g1, g2, -, -, -⟩ := h.put hsep hp1 (y := l.regs (rn al b) + 1#(8 * n))
      (fun x hx => by rw [← Option.some.inj hx]; exact hae)
    obtain ⟨h1, h2, h3⟩ := g1.storeB hl
    rw [g2] at h2
    refine ⟨_, List.mem_singleton.2 rfl, _, _, h1.congr rfl rfl rfl rfl rfl h1.zf, h2, nofun, .one ?_⟩
    show _ = _
    rw [← hae, ← h.get hx]; rfl
  | ldS r s =>
    exact Sound.reg hsep h hs fun x hx => h.slots _ (lookup_mem hx)
  | stS r s =>
    simp only [Sy.step] at hs
    split at hs
    · cases hs
    · injection hs with hs
      subst hs
      refine .quiet (List.mem_singleton.2 rfl) ⟨h.one, rfl, h.regs, ?_, h.zf⟩ rfl
      intro q hq
      simp only [List.mem_filter] at hq
      have hne : q.1 ≠ s := by simpa using hq.2
      simp only [upd]
      rw [if_neg hne]
      exact h.slots q hq.1
  | fence =>
    simp only [Sy.step, Option.some.injEq] at hs
    subst hs
    exact .quiet (List.mem_singleton.2 rfl) (h.congr rfl rfl rfl rfl rfl h.zf) rfl

end Verif.Rseq
