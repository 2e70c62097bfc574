import Verif.RseqRegsProps
import Verif.RseqWord
/-
Where the helpers write, in every execution: also when other threads race with them on their data.
-/

namespace Verif.Rseq

variable {n : Nat}

/-- The final store is to the variable of the call (its address register is not one that the helper
modifies), and `rseq_load_cbne_load_cbne_store` has no other store. -/
def finOK (k : Kind) (p : Prog n) : Bool :=
  (match p.code[p.commit - 1]? with
   | some (.st _ b) | some (.stl _ b) | some (.addM _ b) => k == .addLoadLoadAddStore || b == sym .v
   | _ => false) &&
  (annot p (p.commit - 1)).dirty.all (· ∈ [sym .src, sym .dst, sym .len]) &&
  (k == .cbneMemcpyStore || (annot p (p.commit - 1)).dirty == []) &&
  (!(k == .cbneCbneStore) || ((p.code.take (p.commit - 1)).drop p.chk).all fun ins => !(isSt ins))

/-- Only these architectures modify their inputs. -/
def dirtyOK (arch : Arch) (p : Prog n) : Bool :=
  modifiesInputs arch || (annot p (p.commit - 1)).dirty == []

theorem all_fin8 : ∀ (arch : Arch) (k : Kind) (rel : Bool),
    ∀ p ∈ program sym false (0 : W 8) arch k rel, (finOK k p && dirtyOK arch p) = true := by
  intro arch k rel
  cases arch <;> cases k <;> cases rel <;> intro p hp <;>
    first | (cases hp; done) | (cases hp; decide +kernel)

theorem all_fin (be : Bool) (csa : W n) (arch : Arch) (k : Kind) (rel : Bool) :
    ∀ p ∈ program sym be csa arch k rel, finOK k p = true ∧ dirtyOK arch p = true := by
  intro p hp
  rw [like_program] at hp
  obtain ⟨q, hq, rfl⟩ := Option.map_eq_some_iff.1 hp
  have := all_fin8 arch k rel q hq
  rw [Bool.and_eq_true] at this
  exact this

/-- There is a memory on which the call succeeds. -/
theorem succeeds_somewhere (hn : 4 ≤ n) (be : Bool) (op : Op n) (h : op.kind ≠ .cbneCbneStore) :
    ∃ m, (pseudo be op m).1 = 0 := by
  cases op with
  | cbneStore v e w => exact ⟨stw be (fun _ => 0#8) v e, by simp [pseudo, ldw_stw_same]⟩
  | cbneStoreStore v e v2 w2 w => exact ⟨stw be (fun _ => 0#8) v e, by simp [pseudo, ldw_stw_same]⟩
  | cbneMemcpyStore v e d s k w => exact ⟨stw be (fun _ => 0#8) v e, by simp [pseudo, ldw_stw_same]⟩
  | addStore v c => exact ⟨fun _ => 0#8, rfl⟩
  | addLoadLoadAddStore p o i => exact ⟨fun _ => 0#8, rfl⟩
  | cbneCbneStore v e v2 e2 w => exact absurd rfl h
  | cbeqStoreAddLoadStore v e o l =>
    refine ⟨stw be (fun _ => 0#8) v (e + 1#(8 * n)), ?_⟩
    have : e + 1#(8 * n) ≠ e := by
      intro h
      have h2 : (e + 1#(8 * n)) - e = e - e := by rw [h]
      rw [add_sub_cancel_w, BitVec.sub_self] at h2
      have h3 : (1 : Nat) % 2 ^ (8 * n) = 0 := by
        have := congrArg BitVec.toNat h2
        simpa using this
      rw [Nat.mod_eq_of_lt (Nat.one_lt_two_pow (by omega))] at h3
      cases h3
    simp [pseudo, ldw_stw_same, this]

variable {T : Nat → Site n}

/-- An instruction that is not in the body writes nothing. -/
theorem stores_body {f : Frame n} {i : Nat} {ins : Instr} (hc : (T f.pid).prog.code[i]? = some ins)
    (hnb : zone (T f.pid).prog (.at i) ≠ .body) : memFree ins = true := by
  have Z := (T f.pid).facts
  have m : Mem n := fun _ => 0#8
  rcases zone_at_cases Z (i := i) with ⟨hz, -⟩|⟨hz, -⟩|⟨hz, -⟩|⟨hz, -⟩|⟨hz, -⟩|⟨hz, -⟩|⟨hz, h'⟩
  · exact (pre_step Z hc hz (fv := 0#32) (l := f.l) (m := m)).1
  · exact (chk_step Z hc hz (fv := 0#32) (l := f.l) (m := m)).1
  · exact absurd hz hnb
  · exact (post_step Z hc hz (fv := 0#32) (l := f.l) (m := m)).1
  · exact (abt_step Z hc hz (fv := 0#32) (l := f.l) (m := m)).1
  · exact (neq_step Z hc hz (fv := 0#32) (l := f.l) (m := m)).1
  · rw [List.getElem?_eq_none (by omega)] at hc; cases hc

/-- A store before the final one is to a documented attempt target. -/
theorem attempt_store (hn : 4 ≤ n) {x : Thread n} {f : Frame n} {P : Prop} (h : GInv T x P f) {i : Nat}
    {ins : Instr} (hp : f.l.pc = .at i) (hc : (T f.pid).prog.code[i]? = some ins)
    (hz : zone (T f.pid).prog (.at i) = .body) (hcm : i + 1 ≠ (T f.pid).prog.commit) (a : W n)
    (ha : stores ins f.l a) : targets f.op a := by
  obtain ⟨q, hq, hpq⟩ := (T f.pid).exSym
  have hb := h.body (by rw [hp]; exact hz)
  have hr : (T f.pid).prog.chk ≤ i ∧ i < (T f.pid).prog.commit := by
    rcases zone_at_cases (T f.pid).facts (i := i) with h|h|h|h|h|h|h <;> simp_all
  have hcq : q.commit = (T f.pid).prog.commit := by rw [hpq]; rfl
  by_cases hk : f.op.kind = .cbneCbneStore
  · exfalso
    have := (all_fin _ _ _ _ _ q hq).1
    simp only [finOK, Bool.and_eq_true] at this
    have h4 := this.2
    rw [h.base.kind, hk] at h4
    simp only [beq_self_eq_true, Bool.not_true, Bool.false_or, List.all_eq_true] at h4
    obtain ⟨ins0, rfl, -⟩ := h.base.tfacts hq hz hc
    rw [hpq] at hc hr hcm
    simp only [Prog.ren, List.getElem?_map, Option.map_eq_some_iff] at hc hr hcm
    obtain ⟨ins1, hc1, he⟩ := hc
    have hmem : ins1 ∈ (q.code.take (q.commit - 1)).drop q.chk := by
      refine List.mem_of_getElem? (i := i - q.chk) ?_
      rw [List.getElem?_drop, List.getElem?_take, if_pos (by omega), ← hc1]
      congr 1; omega
    have h5 := h4 _ hmem
    rw [← he] at ha
    revert ha h5
    cases ins1 <;> simp [isSt, stores, Instr.ren]
  · obtain ⟨m, hm⟩ := succeeds_somewhere hn (T f.pid).prog.be f.op hk
    obtain ⟨j, l', F, h1, h2⟩ := hb.sim q hq m hm
    obtain ⟨hsim, -⟩ := h2 i hp
    obtain ⟨ins0, rfl, hF, hD, hfree⟩ := h.base.tfacts hq hz hc
    have hsok := h.base.foot hn f.cpu f.cpu f.l0 m h.base.setup j
    rw [h1] at hsok
    unfold SOK at hsok
    rw [hsim.pc, hp] at hsok
    dsimp only at hsok
    rw [hc] at hsok
    dsimp only at hsok
    rcases hsok.2 with h' | h'
    · exact absurd h' hcm
    · exact (h' a ((hsim.stores hfree hF.ok (by rw [hcq]; exact hcm) a).1 ha)).1

/-- At the final store, `v` and `newv` are still in their registers. -/
theorem final_reg {x : Thread n} {f : Frame n} {P : Prop} (h : GInv T x P f) (hk : FrameKeeps T f)
    {i : Nat} (hp : f.l.pc = .at i) (hcm : i + 1 = (T f.pid).prog.commit) {q : Prog n}
    (hq : (T f.pid).IsSym q) (o : Opnd) (v : W n) (hval : f.op.val o = some v) (ho : o = .v ∨ o = .newv) :
    f.l.regs ((T f.pid).al o) = v := by
  have hpq := Site.sym_prog hq
  obtain ⟨hk, -⟩ := hk q hq
  obtain ⟨hfin, hdir⟩ := all_fin _ _ _ _ _ q hq
  have hreg0 := h.base.setup.reg o v hval
  have hfree := h.base.setup.free o v hval
  have hi : q.commit - 1 = i := by
    have : q.commit = (T f.pid).prog.commit := by rw [hpq]; rfl
    omega
  simp only [finOK, dirtyOK, hi, Bool.and_eq_true] at hfin hdir
  obtain ⟨⟨⟨-, f2⟩, f3⟩, -⟩ := hfin
  rw [hp] at hk
  dsimp only at hk
  rw [hk.regs _ (by rw [h.base.kind]; exact hfree) ?_, hreg0]
  intro d hd
  have hmem := List.all_eq_true.1 f2 d hd
  have hmc : (T f.pid).kind = .cbneMemcpyStore := by
    simp only [Bool.or_eq_true, beq_iff_eq] at f3
    rcases f3 with h | h
    · exact h
    · rw [h] at hd; cases hd
  have hmi : modifiesInputs (T f.pid).arch = true := by
    simp only [Bool.or_eq_true, beq_iff_eq] at hdir
    rcases hdir with h | h
    · exact h
    · rw [h] at hd; cases hd
  have hown : OwnRegs (T f.pid).al := by
    have hok := h.base.ok
    have hkd := h.base.kind
    rw [hmc] at hkd
    cases hop : f.op <;> rw [hop] at hok hkd <;> simp only [Op.kind] at hkd <;>
      first | (cases hkd; done) | exact hok.2 hmi
  simp only [List.mem_cons, List.not_mem_nil, or_false, decide_eq_true_eq] at hmem
  rcases ho with rfl | rfl
  · rcases hmem with rfl | rfl | rfl
    · exact fun e => hown.vs e.symm
    · exact fun e => hown.vd e.symm
    · exact fun e => hown.vl e.symm
  · rcases hmem with rfl | rfl | rfl
    · exact fun e => hown.ns e.symm
    · exact fun e => hown.nd e.symm
    · exact fun e => hown.nl e.symm

/-- The final store is to the variable. -/
theorem final_store {x : Thread n} {f : Frame n} {P : Prop} (h : GInv T x P f) (hk : FrameKeeps T f)
    {i : Nat} {ins : Instr} (hp : f.l.pc = .at i) (hc : (T f.pid).prog.code[i]? = some ins)
    (hcm : i + 1 = (T f.pid).prog.commit) (v : W n) (hv : f.op.v = some v) (a : W n)
    (ha : stores ins f.l a) : InWord v a := by
  obtain ⟨q, hq, hpq⟩ := (T f.pid).exSym
  obtain ⟨hfin, -⟩ := all_fin _ _ _ _ _ q hq
  have hval : f.op.val .v = some v := by
    cases hop : f.op <;> rw [hop] at hv <;> simp_all [Op.v, Op.val]
  have hnk : (T f.pid).kind ≠ .addLoadLoadAddStore := by
    rw [h.base.kind]
    cases hop : f.op <;> rw [hop] at hv <;> simp_all [Op.v, Op.kind]
  have hi : q.commit - 1 = i := by
    have : q.commit = (T f.pid).prog.commit := by rw [hpq]; rfl
    omega
  simp only [finOK, hi, Bool.and_eq_true] at hfin
  have f1 := hfin.1.1.1
  have hreg := final_reg h hk hp hcm hq .v v hval (.inl rfl)
  rw [hpq] at hc
  simp only [Prog.ren, List.getElem?_map, Option.map_eq_some_iff] at hc
  obtain ⟨ins1, hc1, rfl⟩ := hc
  rw [hc1] at f1
  have key : ∀ b, (((T f.pid).kind == .addLoadLoadAddStore || b == sym .v) = true) →
      f.l.regs (rn (T f.pid).al b) = v := by
    intro b hb
    simp only [Bool.or_eq_true, beq_iff_eq] at hb
    rcases hb with hb | rfl
    · exact absurd hb hnk
    · exact hreg
  cases ins1 <;> simp only [Bool.false_eq_true] at f1 <;> simp only [Instr.ren, stores] at ha
  all_goals (rw [key _ f1] at ha; exact ha)

end Verif.Rseq
