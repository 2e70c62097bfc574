import Verif.RseqBound
/-
The number that every instruction of a helper makes smaller.
-/

namespace Verif.Rseq

variable {n : Nat}

/-- Placement of the operands of a memory copy. -/
structure CopyRegs (own : Bool) (clob : List Nat) (al : Opnd → Nat) : Prop where
  small : ∀ x ∈ clob, x < 1000
  len : al .len ∉ clob
  src : al .src ∉ clob
  dst : al .dst ∉ clob
  own : own = true → al .src ≠ al .len ∧ al .dst ≠ al .len

/-- What holds before an instruction. -/
def MdHolds (al : Opnd → Nat) (len : W n) (L : Option Lp) (l : LSt n) : Md → Prop
  | .pre g z nz => l.regs (al .len) = len ∧ l.slots 4 = len ∧
      (g = true → ∀ L', L = some L' → l.regs (rn al L'.r) = len) ∧
      (z = true → l.zf = (len == 0#(8 * n))) ∧ (nz = true → len ≠ 0#(8 * n))
  | .up => ∀ L', L = some L' → l.regs (rn al L'.r) ≠ 0#(8 * n)
  | .dn z => z = true → ∀ L', L = some L' → l.zf = (l.regs (rn al L'.r) == 0#(8 * n))
  | .post => True

/-- The state of a helper while it runs. -/
def Alive (al : Opnd → Nat) (len : W n) (c : List Instr) (l : LSt n) : Prop :=
  match l.pc with
  | .ret _ => True
  | .at i => i < c.length ∧ MdHolds al len (loopOf c) l (mdAt (loopOf c) c i)

/-- Rounds of the loop still to come. -/
def rounds (al : Opnd → Nat) (len : W n) (L : Option Lp) (l : LSt n) : Md → Nat
  | .pre _ _ _ => len.toNat
  | .up => match L with
    | none => 0
    | some L => (l.regs (rn al L.r)).toNat - 1
  | .dn _ => match L with
    | none => 0
    | some L => (l.regs (rn al L.r)).toNat
  | .post => 0

/-- Instructions still to come, at most. -/
def fuel (al : Opnd → Nat) (len : W n) (c : List Instr) (l : LSt n) : Nat :=
  match l.pc with
  | .ret _ => 0
  | .at i => (c.length - i) + 6 * rounds al len (loopOf c) l (mdAt (loopOf c) c i)

theorem exec_zf (p : Prog n) (fv : BitVec 32) (i : Nat) (ins : Instr) (l : LSt n) (m : Mem n)
    (h : setsF ins = false) : (exec p fv i ins l m).1.zf = l.zf := by
  cases ins <;> simp_all [exec, setsF, LSt.setR, LSt.nx, LSt.br]

theorem succs_plain {i : Nat} {ins : Instr} (h1 : isJmp ins = false) (h2 : (tgts ins).isEmpty = true) :
    succs i ins = [.at (i + 1)] := by
  cases ins <;> simp_all [isJmp, tgts, succs]

theorem succs_noJmp {i : Nat} {ins : Instr} (h1 : isJmp ins = false) {q : Pc} (h : q ∈ succs i ins) :
    q ∈ tgts ins ∨ q = .at (i + 1) := by
  cases ins <;> simp_all [isJmp, tgts, succs]

theorem tgts_ren (f : Nat → Nat) (ins : Instr) : tgts (ins.ren f) = tgts ins := by cases ins <;> rfl
theorem isJmp_ren (f : Nat → Nat) (ins : Instr) : isJmp (ins.ren f) = isJmp ins := by cases ins <;> rfl

theorem rn_sym (al : Opnd → Nat) (o : Opnd) : rn al (sym o) = al o := by
  cases o <;> rfl

theorem rn_small {al : Opnd → Nat} {x : Nat} (h : x < 1000) : rn al x = x := by simp [rn, h]

/-- Registers written apart from the counter are not the counter. -/
theorem apart_ne {own : Bool} {clob : List Nat} {al : Opnd → Nat} (hE : CopyRegs own clob al) {r w : Nat}
    (hr : r ∈ clob ∨ r = sym .len) (h : apart own clob r w = true) : rn al w ≠ rn al r := by
  simp only [apart, Bool.and_eq_true, bne_iff_ne, ne_eq, Bool.or_eq_true, decide_eq_true_eq, beq_iff_eq] at h
  obtain ⟨hne, h⟩ := h
  rcases h with hw | ⟨hw, hc⟩
  · rw [rn_small (hE.small w hw)]
    rcases hr with hr | rfl
    · rw [rn_small (hE.small r hr)]; exact hne
    · rw [rn_sym]; intro e; exact hE.len (e ▸ hw)
  · rcases hr with hr | rfl
    · rw [rn_small (hE.small r hr)]
      rcases hw with rfl | rfl <;> rw [rn_sym]
      · intro e; exact hE.src (e ▸ hr)
      · intro e; exact hE.dst (e ▸ hr)
    · have ho : own = true := by
        rcases hc with hc | hc
        · have := hE.small _ hc; simp only [sym] at this; omega
        · exact hc
      rcases hw with rfl | rfl <;> rw [rn_sym, rn_sym]
      · exact (hE.own ho).1
      · exact (hE.own ho).2

theorem dec_toNat {x : W n} (h : x ≠ 0#(8 * n)) :
    (x + BitVec.ofInt (8 * n) (-1)).toNat = x.toNat - 1 := by
  have hx : x.toNat ≠ 0 := fun e => h (by apply BitVec.eq_of_toNat_eq; simpa using e)
  have hlt := x.isLt
  rw [BitVec.toNat_add, BitVec.toNat_ofInt]
  have h1 : (1 : Nat) < 2 ^ (8 * n) := by omega
  have : ((-1 : Int) % ((2 ^ (8 * n) : Nat) : Int)).toNat = 2 ^ (8 * n) - 1 := by
    rw [Int.neg_emod]
    have : ((1 : Int) % ((2 ^ (8 * n) : Nat) : Int)) = 1 := Int.emod_eq_of_lt (by omega) (by omega)
    split
    · rename_i hd
      have := Int.emod_eq_zero_of_dvd hd
      omega
    · rw [this]; omega
  rw [this, show x.toNat + (2 ^ (8 * n) - 1) = x.toNat - 1 + 2 ^ (8 * n) by omega, Nat.add_mod_right,
    Nat.mod_eq_of_lt (by omega)]

/-- Going out of the loop part. -/
theorem Alive.fwd {al : Opnd → Nat} {len : W n} {c : List Instr} {i : Nat} {l l' : LSt n}
    (hi : l.pc = .at i) (hl : i < c.length) (hf : fwd (loopOf c) c i l'.pc = true) :
    Alive al len c l' ∧ fuel al len c l' + 1 ≤ fuel al len c l := by
  unfold Alive fuel
  rw [hi]
  cases hp : l'.pc with
  | ret r => dsimp only; exact ⟨trivial, by omega⟩
  | «at» j =>
    rw [hp] at hf
    simp only [Rseq.fwd, Bool.and_eq_true, decide_eq_true_eq, beq_iff_eq] at hf
    obtain ⟨h1, h2, h3⟩ := hf
    dsimp only
    rw [h3]
    exact ⟨⟨h2, trivial⟩, by simp only [rounds]; omega⟩

theorem mdAt_pre_succ {L : Lp} {c : List Instr} {i : Nat} {ins : Instr} (h : i + 1 < L.h)
    (hc : c[i]? = some ins) : mdAt (some L) c (i + 1) = nxPre L.r (mdAt (some L) c i) ins := by
  have h1 : i < L.h := by omega
  simp only [mdAt, h, h1, if_true]
  rw [List.take_add_one, hc]
  simp [List.foldl_append]

theorem mdAt_head {L : Lp} {c : List Instr} (h : L.h ≤ L.d) : mdAt (some L) c L.h = .up := by
  simp [mdAt, h]

theorem mdAt_in {L : Lp} {c : List Instr} {i : Nat} (h1 : L.h ≤ i) (h2 : i ≤ L.d) :
    mdAt (some L) c i = .up := by
  simp [mdAt, h2, show ¬ i < L.h by omega]

theorem mdAt_after {L : Lp} {c : List Instr} {i : Nat} (h0 : L.h ≤ L.d) (h1 : L.d < L.b) (h2 : L.b < i) :
    mdAt (some L) c i = .post := by
  simp [mdAt, show ¬ i < L.h by omega, show ¬ i ≤ L.d by omega, show ¬ i ≤ L.b by omega]

/-- Before the loop. -/
theorem pre_exec {own : Bool} {clob : List Nat} {al : Opnd → Nat} {len : W n} {c : List Instr} {L : Lp}
    (hL : loopOf c = some L) (hl : lpOK clob c (some L) = true) (hE : CopyRegs own clob al) {i : Nat}
    {ins : Instr} (hc : c[i]? = some ins) {g z nz : Bool} (hm : mdAt (some L) c i = .pre g z nz)
    (hk : bInstrOK own clob (some L) c i ins = true) (P : Prog n) (fv : BitVec 32) (l : LSt n) (m : Mem n)
    (hi : l.pc = .at i) (h : MdHolds al len (some L) l (.pre g z nz)) :
    Alive al len c (exec P fv i (ins.ren (rn al)) l m).1 ∧
      fuel al len c (exec P fv i (ins.ren (rn al)) l m).1 + 1 ≤ fuel al len c l := by
  have hlt := (List.getElem?_eq_some_iff.1 hc).1
  obtain ⟨h1, h2, h3, h4, h5⟩ := h
  simp only [bInstrOK, hm, Bool.and_eq_true, decide_eq_true_eq, List.all_eq_true, Bool.not_eq_true',
    nxPre, Bool.or_eq_true] at hk
  obtain ⟨k1, k2, k3, k4, k5, k6, k7⟩ := hk
  simp only [lpOK, Bool.and_eq_true, decide_eq_true_eq, Bool.or_eq_true, beq_iff_eq] at hl
  obtain ⟨l1, l2, l3, l4, l5, l6⟩ := hl
  have hs := exec_succs P fv i (ins.ren (rn al)) l m
  rw [succs_ren] at hs
  by_cases ht : (exec P fv i (ins.ren (rn al)) l m).1.pc ∈ tgts ins
  · refine Alive.fwd hi hlt ?_
    rw [hL]
    exact k6 _ ht
  have hpc : (exec P fv i (ins.ren (rn al)) l m).1.pc = .at (i + 1) := (succs_noJmp k5 hs).resolve_left ht
  have f1 : (exec P fv i (ins.ren (rn al)) l m).1.regs (al .len) = len := by
    rw [exec_regs, h1]
    rw [writes_ren]
    intro hx
    obtain ⟨w, hw, e⟩ := List.mem_map.1 hx
    have := k2 w hw
    rw [rn_small (hE.small w this)] at e
    exact hE.len (e ▸ this)
  have f2 : (exec P fv i (ins.ren (rn al)) l m).1.slots 4 = len := by
    by_cases hst : ∃ r s, ins = .stS r s
    · obtain ⟨r, s, rfl⟩ := hst
      simp only [bInstrOK.slot_ok, decide_eq_true_eq] at k4
      simp only [Instr.ren, exec, upd]
      rw [if_neg (by omega)]; exact h2
    · rw [exec_slots, h2]
      intro r s e
      apply hst
      cases ins <;> simp [Instr.ren] at e
      exact ⟨_, _, rfl⟩
  have f3 : (g || loadsLen L.r ins) = true →
      (exec P fv i (ins.ren (rn al)) l m).1.regs (rn al L.r) = len := by
    intro hg
    cases hload : loadsLen L.r ins with
    | true =>
      cases ins <;> simp [loadsLen] at hload
      · obtain ⟨rfl, rfl⟩ := hload
        simp [Instr.ren, exec, LSt.setR, upd, rn_sym, h1]
      · obtain ⟨rfl, rfl⟩ := hload
        simp [Instr.ren, exec, LSt.setR, upd, h2]
    | false =>
      rw [hload, Bool.or_false] at hg
      simp only [bInstrOK.r_ok, hload, hg, Bool.not_true, Bool.false_or, decide_eq_true_eq] at k3
      rw [exec_regs, h3 hg L rfl]
      rw [writes_ren]
      intro hx
      obtain ⟨w, hw, e⟩ := List.mem_map.1 hx
      have hwc := k2 w hw
      rw [rn_small (hE.small w hwc)] at e
      rcases l1 with hr | hr
      · rw [rn_small (hE.small _ hr)] at e
        exact k3 (e ▸ hw)
      · rw [hr, rn_sym] at e
        exact hE.len (e ▸ hwc)
  have f4 : (if setsF ins = true then testsLen g L.r ins else z) = true →
      (exec P fv i (ins.ren (rn al)) l m).1.zf = (len == 0#(8 * n)) := by
    intro hz
    cases hf : setsF ins with
    | false =>
      rw [hf] at hz
      rw [exec_zf _ _ _ _ _ _ (by rw [setsF_ren]; exact hf)]
      exact h4 (by simpa using hz)
    | true =>
      rw [hf, if_pos rfl] at hz
      cases ins <;> simp [testsLen] at hz
      simp only [Instr.ren, exec, LSt.setF]
      rcases hz with rfl | ⟨hg, rfl⟩
      · rw [rn_sym, h1]
      · rw [h3 hg L rfl]
  have f5 : (nz || ((z && isJe ins) || leavesIfZero g L.r ins)) = true → len ≠ 0#(8 * n) := by
    intro hz
    simp only [Bool.or_eq_true, Bool.and_eq_true] at hz
    rcases hz with hz | ⟨hz, hj⟩ | hz
    · exact h5 hz
    · cases ins <;> simp [isJe] at hj
      rename_i t
      intro e
      apply ht
      have := h4 hz
      simp [Instr.ren, exec, LSt.br, tgts, this, e]
    · cases ins <;> simp [leavesIfZero] at hz
      rename_i x t
      intro e
      apply ht
      have hx : l.regs (rn al x) = len := by
        rcases hz with rfl | ⟨hg, rfl⟩
        · rw [rn_sym, h1]
        · exact h3 hg L rfl
      simp [Instr.ren, exec, LSt.br, tgts, hx, e]
  unfold Alive fuel
  rw [hpc, hi, hL]
  dsimp only
  rw [hm]
  simp only [rounds]
  by_cases hh : i + 1 < L.h
  · rw [mdAt_pre_succ hh hc, hm]
    simp only [nxPre, MdHolds]
    refine ⟨⟨by omega, f1, f2, ?_, f4, f5⟩, by omega⟩
    intro hg L' e
    cases e
    exact f3 hg
  · have e : i + 1 = L.h := by omega
    have hk7 := k7.resolve_left hh
    have hreg := f3 (by simpa using hk7.1)
    have hne := f5 (by simpa using hk7.2)
    rw [e, mdAt_head l3]
    simp only [MdHolds, rounds]
    have hn0 : len.toNat ≠ 0 := fun e => hne (by apply BitVec.eq_of_toNat_eq; simpa using e)
    refine ⟨⟨by omega, ?_⟩, by rw [hreg]; omega⟩
    intro L' e
    cases e
    rw [hreg]; exact hne

/-- In the loop, before the decrement and at it. -/
theorem up_exec {own : Bool} {clob : List Nat} {al : Opnd → Nat} {len : W n} {c : List Instr} {L : Lp}
    (hL : loopOf c = some L) (hl : lpOK clob c (some L) = true) (hE : CopyRegs own clob al) {i : Nat}
    {ins : Instr} (hc : c[i]? = some ins) (hm : mdAt (some L) c i = .up)
    (hk : bInstrOK own clob (some L) c i ins = true) (P : Prog n) (fv : BitVec 32) (l : LSt n) (m : Mem n)
    (hi : l.pc = .at i) (h : MdHolds al len (some L) l .up) :
    Alive al len c (exec P fv i (ins.ren (rn al)) l m).1 ∧
      fuel al len c (exec P fv i (ins.ren (rn al)) l m).1 + 1 ≤ fuel al len c l := by
  have hlt := (List.getElem?_eq_some_iff.1 hc).1
  simp only [lpOK, Bool.and_eq_true, decide_eq_true_eq, Bool.or_eq_true, beq_iff_eq] at hl
  obtain ⟨l1, l2, l3, l4, l5, l6⟩ := hl
  simp only [bInstrOK, hm, Bool.and_eq_true, decide_eq_true_eq, List.all_eq_true, Bool.not_eq_true',
    Bool.or_eq_true, beq_iff_eq] at hk
  obtain ⟨k1, k2, k3, k4⟩ := hk
  have hr := h L rfl
  have hr0 : (l.regs (rn al L.r)).toNat ≠ 0 := fun e => hr (by apply BitVec.eq_of_toNat_eq; simpa using e)
  have hs := exec_succs P fv i (ins.ren (rn al)) l m
  rw [succs_ren, succs_plain k2 k3] at hs
  have hpc : (exec P fv i (ins.ren (rn al)) l m).1.pc = .at (i + 1) := by simpa using hs
  unfold Alive fuel
  rw [hpc, hi, hL]
  dsimp only
  rw [hm]
  rcases k4 with ⟨k4, k5⟩ | ⟨k4, k5⟩
  · have hreg : (exec P fv i (ins.ren (rn al)) l m).1.regs (rn al L.r) = l.regs (rn al L.r) := by
      rw [exec_regs]
      rw [writes_ren]
      intro hx
      obtain ⟨w, hw, e⟩ := List.mem_map.1 hx
      exact apart_ne hE l1 (k5 w hw) e
    rw [mdAt_in (by omega) (by omega)]
    simp only [MdHolds, rounds, hreg]
    exact ⟨⟨by omega, fun L' e => by cases e; rw [hreg]; exact hr⟩, by omega⟩
  · subst k4
    have key : ∀ zz : Bool, mdAt (some L) c (L.d + 1) = .dn zz →
        (exec P fv L.d (ins.ren (rn al)) l m).1.regs (rn al L.r) =
          l.regs (rn al L.r) + BitVec.ofInt (8 * n) (-1) →
        (zz = true → (exec P fv L.d (ins.ren (rn al)) l m).1.zf =
          ((exec P fv L.d (ins.ren (rn al)) l m).1.regs (rn al L.r) == 0#(8 * n))) →
        (L.d + 1 < c.length ∧ MdHolds al len (some L) (exec P fv L.d (ins.ren (rn al)) l m).1
          (mdAt (some L) c (L.d + 1))) ∧
        c.length - (L.d + 1) + 6 * rounds al len (some L) (exec P fv L.d (ins.ren (rn al)) l m).1
          (mdAt (some L) c (L.d + 1)) + 1 ≤ c.length - L.d + 6 * rounds al len (some L) l .up := by
      intro zz e1 e2 e3
      rw [e1]
      simp only [MdHolds, rounds]
      refine ⟨⟨by omega, fun hz L' e => by cases e; exact e3 hz⟩, ?_⟩
      rw [e2, dec_toNat hr]
      omega
    cases ins <;> simp only [Bool.and_eq_true, beq_iff_eq, reduceCtorEq] at k5
    · rename_i x y k
      obtain ⟨rfl, rfl, rfl, k8⟩ := k5
      exact key _ k8 (by simp [Instr.ren, exec, LSt.setR, upd]) (by simp)
    · rename_i x y k
      obtain ⟨rfl, rfl, rfl, k8⟩ := k5
      exact key _ k8 (by simp [Instr.ren, exec, upd]) (fun _ => by simp [Instr.ren, exec, upd])

/-- In the loop, behind the decrement. -/
theorem dn_exec {own : Bool} {clob : List Nat} {al : Opnd → Nat} {len : W n} {c : List Instr} {L : Lp}
    (hL : loopOf c = some L) (hl : lpOK clob c (some L) = true) (hE : CopyRegs own clob al) {i : Nat}
    {ins : Instr} (hc : c[i]? = some ins) {z : Bool} (hm : mdAt (some L) c i = .dn z)
    (hk : bInstrOK own clob (some L) c i ins = true) (P : Prog n) (fv : BitVec 32) (l : LSt n) (m : Mem n)
    (hi : l.pc = .at i) (h : MdHolds al len (some L) l (.dn z)) :
    Alive al len c (exec P fv i (ins.ren (rn al)) l m).1 ∧
      fuel al len c (exec P fv i (ins.ren (rn al)) l m).1 + 1 ≤ fuel al len c l := by
  have hlt := (List.getElem?_eq_some_iff.1 hc).1
  simp only [lpOK, Bool.and_eq_true, decide_eq_true_eq, Bool.or_eq_true, beq_iff_eq] at hl
  obtain ⟨l1, l2, l3, l4, l5, l6⟩ := hl
  simp only [bInstrOK, hm, Bool.and_eq_true, decide_eq_true_eq, List.all_eq_true, Bool.not_eq_true',
    Bool.or_eq_true, beq_iff_eq] at hk
  obtain ⟨k1, k2⟩ := hk
  rcases k2 with ⟨k2, k3, k4, k5, k6⟩ | ⟨k2, k3⟩
  · have hs := exec_succs P fv i (ins.ren (rn al)) l m
    rw [succs_ren, succs_plain k4 k5] at hs
    have hpc : (exec P fv i (ins.ren (rn al)) l m).1.pc = .at (i + 1) := by simpa using hs
    unfold Alive fuel
    rw [hpc, hi, hL]
    dsimp only
    rw [hm]
    have hreg : (exec P fv i (ins.ren (rn al)) l m).1.regs (rn al L.r) = l.regs (rn al L.r) := by
      rw [exec_regs]
      rw [writes_ren]
      intro hx
      obtain ⟨w, hw, e⟩ := List.mem_map.1 hx
      exact apart_ne hE l1 (k3 w hw) e
    cases hmd : mdAt (some L) c (i + 1) with
    | pre g z nz => rw [hmd] at k6; simp at k6
    | up => rw [hmd] at k6; simp at k6
    | post => rw [hmd] at k6; simp at k6
    | dn z' =>
      rw [hmd] at k6
      simp only [MdHolds, rounds, hreg]
      refine ⟨⟨by omega, ?_⟩, by omega⟩
      intro hz' L' e
      cases e
      simp only [Bool.or_eq_true, Bool.and_eq_true, Bool.not_eq_true', beq_iff_eq, hz', Bool.true_eq_false,
        false_or] at k6
      rw [hreg]
      rcases k6 with rfl | ⟨hz, hf⟩
      · simp [Instr.ren, exec, LSt.setF]
      · rw [exec_zf _ _ _ _ _ _ (by rw [setsF_ren]; exact hf)]
        exact h hz L rfl
  · subst k2
    -- either the loop is left or the counter is not zero
    have hreg : (exec P fv L.b (ins.ren (rn al)) l m).1.regs = l.regs := by
      rcases k3 with rfl | ⟨-, rfl⟩ <;> rfl
    have hpc : (exec P fv L.b (ins.ren (rn al)) l m).1.pc =
        if l.regs (rn al L.r) = 0#(8 * n) then .at (L.b + 1) else .at L.h := by
      rcases k3 with rfl | ⟨hz, rfl⟩
      · by_cases e : l.regs (rn al L.r) = 0#(8 * n) <;> simp [Instr.ren, exec, LSt.br, e]
      · have := h hz L rfl
        by_cases e : l.regs (rn al L.r) = 0#(8 * n) <;> simp [Instr.ren, exec, LSt.br, this, e]
    by_cases e : l.regs (rn al L.r) = 0#(8 * n)
    · rw [if_pos e] at hpc
      refine Alive.fwd hi hlt ?_
      rw [hpc, hL]
      simp only [fwd, mdAt_after l3 l4 (Nat.lt_succ_self _)]
      simp [l5]
    · rw [if_neg e] at hpc
      have hr0 : (l.regs (rn al L.r)).toNat ≠ 0 := fun e' => e (by apply BitVec.eq_of_toNat_eq; simpa using e')
      unfold Alive fuel
      rw [hpc, hi, hL]
      dsimp only
      rw [hm, mdAt_head l3]
      simp only [MdHolds, rounds, hreg]
      exact ⟨⟨by omega, fun L' e' => by cases e'; exact e⟩, by omega⟩

/-- Every instruction makes the number smaller. -/
theorem bcheck_exec {own : Bool} {clob : List Nat} {al : Opnd → Nat} {len : W n} {p : Prog n}
    (hb : bcheck own clob p = true) (hE : (loopOf p.code).isSome = true → CopyRegs own clob al) (P : Prog n)
    (fv : BitVec 32) (i : Nat) (ins : Instr) (l : LSt n) (m : Mem n) (hi : l.pc = .at i)
    (hc : (p.ren (rn al)).code[i]? = some ins) (h : Alive al len p.code l) :
    Alive al len p.code (exec P fv i ins l m).1 ∧
      fuel al len p.code (exec P fv i ins l m).1 + 1 ≤ fuel al len p.code l := by
  simp only [Prog.ren, List.getElem?_map, Option.map_eq_some_iff] at hc
  obtain ⟨ins0, hc, rfl⟩ := hc
  have hlt := (List.getElem?_eq_some_iff.1 hc).1
  simp only [bcheck, Bool.and_eq_true, List.all_eq_true] at hb
  obtain ⟨hl, -, -, -, -, hk⟩ := hb
  have hk := hk i (List.mem_range.2 hlt)
  rw [hc] at hk
  dsimp only at hk
  have hk := (Bool.and_eq_true _ _ ▸ hk).1
  unfold Alive at h
  rw [hi] at h
  have h := h.2
  cases hL : loopOf p.code with
  | none =>
    rw [hL] at hk
    refine Alive.fwd hi hlt ?_
    rw [hL]
    simp only [bInstrOK, mdAt, List.all_eq_true] at hk
    have hs := exec_succs P fv i (ins0.ren (rn al)) l m
    rw [succs_ren] at hs
    exact hk _ hs
  | some L =>
    have hE := hE (by rw [hL]; rfl)
    rw [hL] at hl hk h
    cases hm : mdAt (some L) p.code i with
    | pre g z nz => rw [hm] at h; exact pre_exec hL hl hE hc hm hk P fv l m hi h
    | up => rw [hm] at h; exact up_exec hL hl hE hc hm hk P fv l m hi h
    | dn z => rw [hm] at h; exact dn_exec hL hl hE hc hm hk P fv l m hi h
    | post =>
      refine Alive.fwd hi hlt ?_
      rw [hL]
      simp only [bInstrOK, hm, List.all_eq_true] at hk
      have hs := exec_succs P fv i (ins0.ren (rn al)) l m
      rw [succs_ren] at hs
      exact hk _ hs

/-- The kernel's jump to the abort handler does not make it larger. -/
theorem bcheck_abort {own : Bool} {clob : List Nat} {al : Opnd → Nat} {len : W n} {p : Prog n}
    (hb : bcheck own clob p = true) (l : LSt n) {i : Nat} (hi : l.pc = .at i) (hlt : i < p.commit) :
    Alive al len p.code { l with pc := .at p.abort } ∧
      fuel al len p.code { l with pc := .at p.abort } ≤ fuel al len p.code l := by
  simp only [bcheck, Bool.and_eq_true, decide_eq_true_eq, beq_iff_eq] at hb
  obtain ⟨-, -, h1, h2, h3, -⟩ := hb
  unfold Alive fuel
  rw [hi]
  dsimp only
  rw [h3]
  simp only [rounds, MdHolds]
  exact ⟨⟨h1, trivial⟩, by omega⟩

/-- Behind the commit, control only goes on. -/
theorem bcheck_ahead {own : Bool} {clob : List Nat} {al : Opnd → Nat} {p : Prog n}
    (hb : bcheck own clob p = true) (P : Prog n) (fv : BitVec 32) (i : Nat) (ins : Instr) (l : LSt n) (m : Mem n)
    (hc : (p.ren (rn al)).code[i]? = some ins) (hle : p.commit ≤ i) (j : Nat)
    (hj : (exec P fv i ins l m).1.pc = .at j) : p.commit ≤ j := by
  simp only [Prog.ren, List.getElem?_map, Option.map_eq_some_iff] at hc
  obtain ⟨ins0, hc, rfl⟩ := hc
  have hlt := (List.getElem?_eq_some_iff.1 hc).1
  simp only [bcheck, Bool.and_eq_true, List.all_eq_true] at hb
  obtain ⟨-, -, -, -, -, hk⟩ := hb
  have hk := hk i (List.mem_range.2 hlt)
  rw [hc] at hk
  simp only [Bool.and_eq_true, Bool.or_eq_true, decide_eq_true_eq, List.all_eq_true] at hk
  have hk := hk.2.resolve_left (by omega)
  have hs := exec_succs P fv i (ins0.ren (rn al)) l m
  rw [succs_ren, hj] at hs
  have := hk _ hs
  simp only [ahead, decide_eq_true_eq] at this
  omega

/-- At the start of a call. -/
theorem bcheck_start {own : Bool} {clob : List Nat} {al : Opnd → Nat} {len : W n} {p : Prog n}
    (hb : bcheck own clob p = true) (l : LSt n) (hi : l.pc = .at 0)
    (hr : (loopOf p.code).isSome = true → l.regs (al .len) = len ∧ l.slots 4 = len) :
    Alive al len p.code l ∧
      fuel al len p.code l ≤ p.code.length + 6 * (if (loopOf p.code).isSome then len.toNat else 0) := by
  simp only [bcheck, Bool.and_eq_true, decide_eq_true_eq] at hb
  obtain ⟨hl, h1, -⟩ := hb
  unfold Alive fuel
  rw [hi]
  dsimp only
  cases hL : loopOf p.code with
  | none => simp [mdAt, MdHolds, rounds, h1]
  | some L =>
    rw [hL] at hl hr
    simp only [lpOK, Bool.and_eq_true, decide_eq_true_eq, Bool.or_eq_true, beq_iff_eq] at hl
    obtain ⟨-, l2, -⟩ := hl
    obtain ⟨r1, r2⟩ := hr rfl
    simp only [mdAt, l2, if_true, List.take_zero, List.foldl_nil, MdHolds, rounds, Option.isSome_some]
    refine ⟨⟨h1, r1, r2, ?_, by simp, by simp⟩, by omega⟩
    intro hg L' e
    cases e
    rw [beq_iff_eq.1 hg, rn_sym]; exact r1

end Verif.Rseq
