import Verif.RseqInjectLocal
/-
At every injection point of every helper the scratch register and the condition codes are dead.

The check runs on the programs over symbolic registers (`RseqRegs.lean`), so that it covers every choice of
operand registers outside the scratch register.
-/

namespace Verif.Rseq

variable {n : Nat}

/-- `r` is not read before it is written, going straight on. -/
def deadR (r : Nat) : List Instr → Bool
  | [] => true
  | .jmp _ :: _ => true
  | ins :: rest => r ∉ reads ins && (r ∈ writes ins || deadR r rest)

/-- The condition codes are not read before they are set, going straight on. -/
def deadF : List Instr → Bool
  | [] => true
  | .jmp _ :: _ => true
  | ins :: rest => !readsF ins && (setsF ins || deadF rest)

/-- The position is outside the helper or in `d`. -/
def toDead (d : Nat → Bool) : Pc → Bool
  | .at j => d j
  | .ret _ => true

/-- Symbolic registers of an instruction are operands of the helper. -/
def opsOK (k : Kind) (x : Nat) : Bool :=
  decide (x < 1000) || (decide (Opnd.ofNum (x - 1000) ∈ k.opnds) || decide (Opnd.ofNum (x - 1000) = .cpu))

/-- Check of one instruction. -/
def iInstr (J : Inj) (ps : List (Nat × Nat)) (k : Kind) (c : List Instr) (i : Nat) (ins : Instr) : Bool :=
  (reads ins ++ writes ins).all (opsOK k) &&
  ((J.w ps i == 0 || (deadR J.reg (c.drop i) && (!J.flags || deadF (c.drop i)))) &&
  ((!deadR J.reg (c.drop i) || (J.reg ∉ reads ins &&
    (J.reg ∈ writes ins || (succs i ins).all (toDead fun j => deadR J.reg (c.drop j))))) &&
  (!deadF (c.drop i) || (!readsF ins &&
    (setsF ins || (succs i ins).all (toDead fun j => deadF (c.drop j)))))))

/-- Check of a program. -/
def icheck (J : Inj) (ps : List (Nat × Nat)) (k : Kind) (p : Prog n) : Bool :=
  decide (J.reg < 1000) && (deadR J.reg (p.code.drop p.abort) && (deadF (p.code.drop p.abort) &&
  (List.range p.code.length).all (fun i =>
    match p.code[i]? with
    | none => true
    | some ins => iInstr J ps k p.code i ins)))

theorem all_icheck8 : ∀ (a : Arch) (k : Kind) (rel : Bool), ∀ p ∈ program sym false (0 : W 8) a k rel,
    icheck (injOf a) (injAt a k p.commit) k p = true := by
  intro a k rel
  cases a <;> cases k <;> cases rel <;> intro p hp <;>
    first | (cases hp; done) | (cases hp; decide +kernel)

/-- The block of a `RSEQ_COMPARE_TWICE` helper. -/
def blkOf (al : Opnd → Nat) (a : Arch) (k : Kind) (P : Prog n) : List Instr :=
  twiceBlk al (twiceExit P.code.length a k).1 (twiceExit P.code.length a k).2 (.ret 4) a k

theorem all_icheckTwice8 : ∀ (a : Arch) (k : Kind) (rel : Bool), ∀ p ∈ program sym false (0 : W 8) a k rel,
    icheck (injOf a) (injAtTwice a k p.commit (blkOf sym a k p).length) k (twiceOf sym a k p) = true := by
  intro a k rel
  cases a <;> cases k <;> cases rel <;> intro p hp <;>
    first | (cases hp; done) | (cases hp; decide +kernel)

/-! ### All operand registers -/

theorem reads_ren (f : Nat → Nat) (ins : Instr) : reads (ins.ren f) = (reads ins).map f := by cases ins <;> rfl
theorem readsF_ren (f : Nat → Nat) (ins : Instr) : readsF (ins.ren f) = readsF ins := by cases ins <;> rfl
theorem setsF_ren (f : Nat → Nat) (ins : Instr) : setsF (ins.ren f) = setsF ins := by cases ins <;> rfl

/-- What the check says about one instruction. -/
theorem icheck_at {J : Inj} {ps : List (Nat × Nat)} {k : Kind} {q : Prog n} (h : icheck J ps k q = true)
    {i : Nat} {ins : Instr} (hc : q.code[i]? = some ins) : iInstr J ps k q.code i ins = true := by
  simp only [icheck, Bool.and_eq_true, List.all_eq_true] at h
  have hi := (List.getElem?_eq_some_iff.1 hc).1
  have := h.2.2.2 i (List.mem_range.2 hi)
  rw [hc] at this
  exact this

theorem rn_ne {J : Inj} {k : Kind} {al : Opnd → Nat} (hr : J.reg < 1000)
    (hal : ∀ o, o ∈ k.opnds ∨ o = .cpu → al o ≠ J.reg) {x : Nat} (hx : opsOK k x = true) :
    rn al x = J.reg ↔ x = J.reg := by
  simp only [opsOK, Bool.or_eq_true, decide_eq_true_eq] at hx
  unfold rn
  split
  · exact Iff.rfl
  · rename_i h1
    have := hal (Opnd.ofNum (x - 1000)) (by rcases hx with h | h | h; · exact absurd h h1
                                            · exact .inl h
                                            · exact .inr h)
    exact ⟨fun e => absurd e this, fun e => by omega⟩

/-- The annotation, for every placement of the operands. -/
def deadOf {J : Inj} {ps : List (Nat × Nat)} {k : Kind} {q : Prog n} (h : icheck J ps k q = true)
    (al : Opnd → Nat) (hal : ∀ o, o ∈ k.opnds ∨ o = .cpu → al o ≠ J.reg) : InjDead J ps (q.ren (rn al)) where
  r i := deadR J.reg (q.code.drop i)
  f i := deadF (q.code.drop i)
  pts := by
    intro i hi hw
    simp only [Prog.ren, List.length_map] at hi
    have := icheck_at h (List.getElem?_eq_getElem hi)
    simp only [iInstr, Bool.and_eq_true, Bool.or_eq_true, beq_iff_eq, Bool.not_eq_true'] at this
    rcases this.2.1 with e | e
    · omega
    · refine ⟨e.1, fun hf => ?_⟩
      rcases e.2 with e | e
      · rw [hf] at e; cases e
      · exact e
  abort := by
    simp only [icheck, Bool.and_eq_true] at h
    exact ⟨h.2.1, h.2.2.1⟩
  reg := by
    intro i ins hc hd
    simp only [Prog.ren, List.getElem?_map, Option.map_eq_some_iff] at hc
    obtain ⟨ins0, hc0, rfl⟩ := hc
    have hr : J.reg < 1000 := by
      simp only [icheck, Bool.and_eq_true, decide_eq_true_eq] at h; exact h.1
    have := icheck_at h hc0
    simp only [iInstr, Bool.and_eq_true, Bool.or_eq_true, Bool.not_eq_true', decide_eq_true_eq,
      List.all_eq_true, List.mem_append] at this
    obtain ⟨ho, -, h3, -⟩ := this
    rcases h3 with e | ⟨e1, e2⟩
    · rw [hd] at e; cases e
    rw [reads_ren, writes_ren, succs_ren]
    constructor
    · intro hm
      obtain ⟨x, hx, e⟩ := List.mem_map.1 hm
      rw [rn_ne hr hal (ho x (.inl hx))] at e
      subst e; exact e1 hx
    · rcases e2 with e2 | e2
      · exact .inl (List.mem_map.2 ⟨_, e2, (rn_ne hr hal (ho _ (.inr e2))).2 rfl⟩)
      · exact .inr fun j hj => e2 _ hj
  flag := by
    intro i ins hc hd
    simp only [Prog.ren, List.getElem?_map, Option.map_eq_some_iff] at hc
    obtain ⟨ins0, hc0, rfl⟩ := hc
    have := icheck_at h hc0
    simp only [iInstr, Bool.and_eq_true, Bool.or_eq_true, Bool.not_eq_true', decide_eq_true_eq,
      List.all_eq_true] at this
    obtain ⟨-, -, -, h3⟩ := this
    rcases h3 with e | ⟨e1, e2⟩
    · rw [hd] at e; cases e
    rw [readsF_ren, setsF_ren, succs_ren]
    refine ⟨e1, ?_⟩
    rcases e2 with e2 | e2
    · exact .inl e2
    · exact .inr fun j hj => e2 _ hj

/-- The program of a site over symbolic registers. -/
theorem Site.symbolic (S : Site n) : ∃ q, program sym false (0 : W 8) S.arch S.kind S.rel = some q ∧
    S.prog = (q.like S.be S.csa).ren (rn S.al) := by
  have h := S.ok
  rw [rename_program, like_program, Option.map_map] at h
  obtain ⟨q, hq, e⟩ := Option.map_eq_some_iff.1 h
  exact ⟨q, hq, e.symm⟩

theorem Site.dead_exists (S : Site n) (h : S.InjOK) :
    Nonempty (InjDead (injOf S.arch) (injAt S.arch S.kind S.prog.commit) S.prog) := by
  obtain ⟨q, hq, e⟩ := S.symbolic
  have hc : icheck (injOf S.arch) (injAt S.arch S.kind (q.like S.be S.csa).commit) S.kind
      (q.like S.be S.csa) = true := all_icheck8 _ _ _ q hq
  rw [e]
  exact ⟨deadOf hc S.al h⟩

theorem shift_ren (f : Nat → Nat) (p k : Nat) (ins : Instr) :
    (ins.ren f).shift p k = (ins.shift p k).ren f := by cases ins <;> rfl

theorem twiceBlk_ren (al : Opnd → Nat) (e1 e2 e3 : Pc) (a : Arch) (k : Kind) :
    twiceBlk al e1 e2 e3 a k = (twiceBlk sym e1 e2 e3 a k).map (Instr.ren (rn al)) := by
  cases a <;> cases k <;> rfl

theorem twiceOf_ren (al : Opnd → Nat) (a : Arch) (k : Kind) (P : Prog n) :
    twiceOf al a k (P.ren (rn al)) = (twiceOf sym a k P).ren (rn al) := by
  have hl : (P.ren (rn al)).code.length = P.code.length := by simp [Prog.ren]
  unfold twiceOf
  rw [hl, twiceBlk_ren]
  generalize twiceBlk sym _ _ _ a k = blk
  have ht : (if hasTear a k then tearDown al else []) =
      (if hasTear a k then tearDown sym else []).map (Instr.ren (rn al)) := by
    split <;> rfl
  rw [ht]
  simp only [insertBlock, Prog.ren, List.length_map, List.map_append, List.map_map, ← List.map_take,
    ← List.map_drop, Function.comp_def, shift_ren]

theorem Site.deadTwice_exists (S : Site n) (h : S.InjOK) :
    Nonempty (InjDead (injOf S.arch) (injAtTwice S.arch S.kind S.prog.commit S.blk.length) S.twice) := by
  obtain ⟨q, hq, e⟩ := S.symbolic
  have hc : icheck (injOf S.arch) (injAtTwice S.arch S.kind q.commit (blkOf sym S.arch S.kind q).length) S.kind
      (twiceOf sym S.arch S.kind (q.like S.be S.csa)) = true := all_icheckTwice8 _ _ _ q hq
  have hl : S.blk.length = (blkOf sym S.arch S.kind q).length := by
    unfold Site.blk blkOf
    rw [e, twiceBlk_ren]
    simp [Prog.ren, Prog.like]
  have ht : S.twice = (twiceOf sym S.arch S.kind (q.like S.be S.csa)).ren (rn S.al) := by
    unfold Site.twice; rw [e]; exact twiceOf_ren _ _ _ _
  have hcm : S.prog.commit = q.commit := by rw [e]; rfl
  rw [ht, hl, hcm]
  exact ⟨deadOf hc S.al h⟩

/-- The annotation of a site. -/
noncomputable def Site.dead (S : Site n) (h : S.InjOK) :
    InjDead (injOf S.arch) (injAt S.arch S.kind S.prog.commit) S.prog := Classical.choice (S.dead_exists h)

noncomputable def Site.deadTwice (S : Site n) (h : S.InjOK) :
    InjDead (injOf S.arch) (injAtTwice S.arch S.kind S.prog.commit S.blk.length) S.twice :=
  Classical.choice (S.deadTwice_exists h)

end Verif.Rseq
