import Verif.RseqRegs
/-
Data flow from loaded values.

Under races a load of a helper can return anything.  Which addresses the helper stores to before its
final store, and where its loops end, nevertheless depend on its arguments only.  The proof compares two
executions of the same helper: the real one, whose loads return arbitrary values, and one on a constant
memory on which the comparison succeeds.  `tcheck` verifies on each program that registers that receive
loaded values (`loadDsts`) influence neither a store address before the final store nor a branch, except
the branches to the comparison-failed exit, which all precede the first store (`lastNe`).
-/

namespace Verif.Rseq

variable {n : Nat}

/-- The operands of a helper. -/
def Kind.opnds : Kind → List Opnd
  | .cbneStore => [.v, .expect, .newv]
  | .cbeqStoreAddLoadStore => [.v, .expectnot, .voffp, .load]
  | .addStore => [.v, .count]
  | .addLoadLoadAddStore => [.ptr, .off, .inc]
  | .cbneCbneStore => [.v, .expect, .v2, .expect2, .newv]
  | .cbneStoreStore => [.v, .expect, .v2, .newv2, .newv]
  | .cbneMemcpyStore => [.v, .expect, .dst, .src, .len, .newv]

theorem Op.val_opnds (op : Op n) (o : Opnd) (ho : o ∈ op.kind.opnds) : ∃ x, op.val o = some x := by
  cases op <;> simp only [Op.kind, Kind.opnds, List.mem_cons, List.not_mem_nil, or_false] at ho <;>
    rcases ho with rfl | ho <;> try exact ⟨_, rfl⟩
  all_goals (rcases ho with rfl | ho <;> try exact ⟨_, rfl⟩)
  all_goals (try rcases ho with rfl | ho <;> try exact ⟨_, rfl⟩)
  all_goals (try rcases ho with rfl | ho <;> try exact ⟨_, rfl⟩)
  all_goals (try rcases ho with rfl | ho <;> try exact ⟨_, rfl⟩)
  all_goals (try subst ho; exact ⟨_, rfl⟩)

/-- The register that receives a loaded value. -/
def loadDst : Instr → Option Nat
  | .ld r _ | .ldx r _ _ | .ldb r _ | .ldbx r _ _ | .lbzu r _ => some r
  | _ => none

/-- The instruction writes shared memory. -/
def isSt : Instr → Bool
  | .st .. | .stl .. | .addM .. | .stb .. | .stbx .. | .stbu .. => true
  | _ => false

/-- A (symbolic) register whose value does not come from memory, given those whose value may. -/
def clean (D : List Nat) (k : Kind) (x : Nat) : Bool :=
  if x < 1000 then x ∉ D else Opnd.ofNum (x - 1000) ∈ k.opnds

/-- What is known before an instruction: registers that may hold values from memory, and whether the flag
does not depend on memory. -/
structure TAnn where
  D : List Nat
  z : Bool

/-- Registers after writing `r`; `c`: the value does not come from memory. -/
def setD (D : List Nat) (c : Bool) (r : Nat) : List Nat := if c then D.filter (· ≠ r) else r :: D

/-- What is known after an instruction. -/
def tflow (k : Kind) (a : TAnn) : Instr → TAnn
  | .cs r | .ldCpuS r | .ldCpuZ r | .ldS r _ => { a with D := setD a.D true r }
  | .mov r x | .addi r x _ => { a with D := setD a.D (clean a.D k x) r }
  | .add r x y | .sub r x y | .sub32 r x y => { a with D := setD a.D (clean a.D k x && clean a.D k y) r }
  | .addf r x _ => ⟨setD a.D (clean a.D k x) r, clean a.D k x⟩
  | .addf2 r y => ⟨setD a.D (clean a.D k r && clean a.D k y) r, clean a.D k r && clean a.D k y⟩
  | .ld r _ | .ldx r _ _ | .ldb r _ | .ldbx r _ _ | .lbzu r _ => { a with D := r :: a.D }
  | .cmp x y | .cmp32 x y => { a with z := clean a.D k x && clean a.D k y }
  | .tst r | .cmpCpu r => { a with z := clean a.D k r }
  | .cmpM .. | .addM .. => { a with z := false }
  | _ => a

/-- A branch target of the comparison-failed exit. -/
def toNe (p : Prog n) (t : Pc) : Bool := zone p t == .neq || zone p t == .done 1

/-- Index after the last branch of the body to that exit. -/
def lastNe (p : Prog n) : Nat :=
  (List.range p.commit).foldl (fun b i => if p.chk ≤ i ∧ ((p.code[i]?.map fun ins =>
    (succs i ins).any (toNe p)).getD false) = true then i + 1 else b) 0

/-- The annotation of instruction `i` of the body. -/
def tann (k : Kind) (p : Prog n) (i : Nat) : TAnn :=
  let a := ((p.code.take i).drop p.chk).foldl (tflow k) ⟨[], false⟩
  let loads := fun j => ((p.code.take p.commit).drop j).filterMap loadDst
  if i < lastNe p then a
  else if ((p.code.take p.commit).drop i).all (fun ins => (succs i ins).length = 1) then
    { a with D := loads p.chk ++ a.D }
  else { a with D := loads (lastNe p) ++ a.D }

/-- Branches, stores and spills do not depend on loaded values, except branches to the
comparison-failed exit. -/
def tOK (k : Kind) (p : Prog n) (a : TAnn) (i : Nat) : Instr → Bool
  | .mov r x | .addi r x _ | .addf r x _ => clean a.D k x || decide (r < 1000)
  | .add r x y | .sub r x y | .sub32 r x y => (clean a.D k x && clean a.D k y) || decide (r < 1000)
  | .addf2 r y => (clean a.D k r && clean a.D k y) || decide (r < 1000)
  | .ld r _ | .ldx r _ _ | .ldb r _ | .ldbx r _ _ => decide (r < 1000)
  | .jne t | .je t => a.z || (decide (i < lastNe p) && toNe p t)
  | .bne x y t | .beq x y t => (clean a.D k x && clean a.D k y) || (decide (i < lastNe p) && toNe p t)
  | .cbnz r t | .cbz r t | .cbnz32 r t => clean a.D k r || (decide (i < lastNe p) && toNe p t)
  | .lbzu r b => decide (r < 1000) && clean a.D k b
  | .st _ b | .stl _ b | .addM _ b | .stb _ b => decide (i + 1 = p.commit) || clean a.D k b
  | .stbx _ x b => clean a.D k x && clean a.D k b
  | .stbu _ b => clean a.D k b
  | .stS r _ => clean a.D k r
  | _ => true

/-- `b` claims no more than `a`. -/
def TAnn.le (a b : TAnn) : Bool := a.D.all (· ∈ b.D) && (!b.z || a.z)

/-- The check of a program. -/
def tcheck (clob : List Nat) (k : Kind) (p : Prog n) : Bool :=
  (List.range p.code.length).all fun i =>
    match p.code[i]? with
    | none => true
    | some ins =>
      !(decide (p.chk ≤ i) && decide (i < p.commit)) ||
      ((tann k p i).D.all (· ∈ clob) &&
        tOK k p (tann k p i) i ins &&
        (!(decide (i < lastNe p)) || !(isSt ins)) &&
        (decide (i + 1 = p.commit) || (succs i ins).all fun t =>
          (decide (i < lastNe p) || !(toNe p t)) &&
          (toNe p t ||
            match t with
            | .at j => (tflow k (tann k p i) ins).le (tann k p j) &&
                (decide (i < lastNe p) || decide (lastNe p ≤ j))
            | .ret _ => false)))

theorem all_tcheck8 : ∀ (arch : Arch) (k : Kind) (rel : Bool),
    ∀ p ∈ program sym false (0 : W 8) arch k rel, tcheck (clobbers arch k) k p = true := by
  intro arch k rel
  cases arch <;> cases k <;> cases rel <;> intro p hp <;>
    first | (cases hp; done) | (cases hp; decide +kernel)

theorem all_tcheck (be : Bool) (csa : W n) (arch : Arch) (k : Kind) (rel : Bool) :
    ∀ p ∈ program sym be csa arch k rel, tcheck (clobbers arch k) k p = true := by
  intro p hp
  rw [like_program] at hp
  obtain ⟨q, hq, rfl⟩ := Option.map_eq_some_iff.1 hp
  exact all_tcheck8 arch k rel q hq

/-- What `tcheck` says about one instruction. -/
structure TFacts (clob : List Nat) (k : Kind) (p : Prog n) (i : Nat) (ins : Instr) : Prop where
  D : ∀ x ∈ (tann k p i).D, x ∈ clob
  ok : tOK k p (tann k p i) i ins = true
  noSt : i < lastNe p → isSt ins = false
  ne : i + 1 ≠ p.commit → ∀ t ∈ succs i ins, toNe p t = true → i < lastNe p
  next : i + 1 ≠ p.commit → ∀ t ∈ succs i ins, toNe p t = true ∨
    ∃ j, t = .at j ∧ (tflow k (tann k p i) ins).le (tann k p j) = true ∧ (i < lastNe p ∨ lastNe p ≤ j)

theorem tcheck_at {clob : List Nat} {k : Kind} {p : Prog n} (h : tcheck clob k p = true) {i : Nat}
    {ins : Instr} (hc : p.code[i]? = some ins) (h1 : p.chk ≤ i) (h2 : i < p.commit) :
    TFacts clob k p i ins := by
  have hi : i < p.code.length := by
    rcases Nat.lt_or_ge i p.code.length with h1 | h1
    · exact h1
    · rw [List.getElem?_eq_none h1] at hc; cases hc
  have := List.all_eq_true.1 h i (List.mem_range.2 hi)
  rw [hc] at this
  simp only [h1, h2, decide_true, Bool.and_self, Bool.not_true, Bool.false_or, Bool.and_eq_true] at this
  obtain ⟨⟨⟨a1, a2⟩, a3⟩, a4⟩ := this
  refine ⟨fun x hx => by simpa using List.all_eq_true.1 a1 x hx, a2, fun hl => by simpa [hl] using a3,
    fun hne t ht htn => ?_, fun hne t ht => ?_⟩
  · rw [decide_eq_false hne, Bool.false_or] at a4
    have := List.all_eq_true.1 a4 t ht
    simp only [Bool.and_eq_true, htn, Bool.not_true, Bool.or_false, decide_eq_true_eq] at this
    exact this.1
  · rw [decide_eq_false hne, Bool.false_or] at a4
    have := List.all_eq_true.1 a4 t ht
    simp only [Bool.and_eq_true, Bool.or_eq_true] at this
    rcases this.2 with h' | h'
    · exact .inl h'
    · right
      cases t with
      | «at» j => exact ⟨j, rfl, by simpa using h'⟩
      | ret r => cases h'

/-- Two local states of the same program agree up to loaded values. -/
structure Sim (a : TAnn) (l l' : LSt n) : Prop where
  pc : l'.pc = l.pc
  regs : ∀ x, x ∉ a.D → l'.regs x = l.regs x
  zf : a.z = true → l'.zf = l.zf
  slots : l'.slots = l.slots

theorem Sim.refl (a : TAnn) (l : LSt n) : Sim a l l := ⟨rfl, fun _ _ => rfl, fun _ => rfl, rfl⟩

theorem Sim.le {a b : TAnn} {l l' : LSt n} (h : Sim a l l') (hab : a.le b = true) : Sim b l l' := by
  simp only [TAnn.le, Bool.and_eq_true, List.all_eq_true, decide_eq_true_eq, Bool.or_eq_true,
    Bool.not_eq_true'] at hab
  refine ⟨h.pc, fun x hx => h.regs x fun hm => hx (hab.1 x hm), fun hz => h.zf ?_, h.slots⟩
  rcases hab.2 with h' | h'
  · rw [hz] at h'; cases h'
  · exact h'

section
variable {a : TAnn} {l l' : LSt n} {al : Opnd → Nat} {i : Nat}

theorem Sim.setR (h : Sim a l l') (hD : ∀ x ∈ a.D, x < 1000) {c : Bool} {r : Nat} {v v' : W n}
    (hv : c = true → v' = v) (hr : c = false → r < 1000) :
    Sim { a with D := setD a.D c r } (l.setR i (rn al r) v) (l'.setR i (rn al r) v') := by
  refine ⟨rfl, fun x hx => ?_, h.zf, h.slots⟩
  simp only [LSt.setR, upd]
  split
  · rename_i e
    cases c with
    | true => exact hv rfl
    | false =>
      subst e
      simp [setD, rn, hr rfl] at hx
  · rename_i e
    apply h.regs
    intro hm
    apply hx
    cases c with
    | true =>
      simp only [setD, if_true, List.mem_filter, decide_eq_true_eq]
      refine ⟨hm, fun e' => e ?_⟩
      subst e'
      simp [rn, hD _ hm]
    | false => simp [setD, hm]

theorem Sim.setF (h : Sim a l l') {z : Bool} {b b' : Bool} (hv : z = true → b' = b) :
    Sim { a with z := z } (l.setF i b) (l'.setF i b') := ⟨rfl, h.regs, hv, h.slots⟩

theorem Sim.nx (h : Sim a l l') : Sim a (l.nx i) (l'.nx i) := ⟨rfl, h.regs, h.zf, h.slots⟩

theorem Sim.br {p : Prog n} (h : Sim a l l') {c c' : Bool} {t : Pc}
    (hc : c' = c ∨ (i < lastNe p ∧ toNe p t = true)) :
    Sim a (l.br i c t) (l'.br i c' t) ∨
      (i < lastNe p ∧ (toNe p (l.br i c t).pc = true ∨ toNe p (l'.br i c' t).pc = true)) := by
  by_cases e : c' = c
  · subst e; exact .inl ⟨rfl, h.regs, h.zf, h.slots⟩
  · rcases hc with hc | ⟨h1, h2⟩
    · exact absurd hc e
    · right
      refine ⟨h1, ?_⟩
      cases c <;> cases c' <;> simp_all [LSt.br]

theorem Sim.clean {k : Kind} (h : Sim a l l') (hf : ∀ o ∈ k.opnds, al o ∉ a.D) {x : Nat}
    (hx : clean a.D k x = true) : l'.regs (rn al x) = l.regs (rn al x) := by
  apply h.regs
  unfold Rseq.clean at hx
  unfold rn
  split <;> rename_i hlt <;> simp only [hlt, if_true, if_false, decide_eq_true_eq] at hx
  · exact hx
  · exact hf _ hx

/-- One instruction keeps the two executions similar, or one of them goes to the comparison-failed
exit. -/
theorem Sim.exec {k : Kind} {p P : Prog n} {ins : Instr} (h : Sim a l l') (hD : ∀ x ∈ a.D, x < 1000)
    (hf : ∀ o ∈ k.opnds, al o ∉ a.D) (hok : tOK k p a i ins = true) (hcpu : cpuFree ins = true)
    (fv : BitVec 32) (m m' : Mem n) :
    Sim (tflow k a ins) (exec P fv i (ins.ren (rn al)) l m).1 (exec P fv i (ins.ren (rn al)) l' m').1 ∨
      (i < lastNe p ∧ (toNe p (exec P fv i (ins.ren (rn al)) l m).1.pc = true ∨
        toNe p (exec P fv i (ins.ren (rn al)) l' m').1.pc = true)) := by
  have C := fun x => h.clean hf (x := x)
  cases ins with
  | ldCpuS r => cases hcpu
  | ldCpuZ r => cases hcpu
  | cmpCpu r => cases hcpu
  | cs r => exact .inl (h.setR hD (fun _ => rfl) (fun h => by cases h))
  | ldS r s => exact .inl (h.setR hD (fun _ => by rw [h.slots]) (fun h => by cases h))
  | mov r x =>
    simp only [tOK, Bool.or_eq_true, decide_eq_true_eq] at hok
    exact .inl (h.setR hD (C x) (fun e => by simpa [e] using hok))
  | addi r x y =>
    simp only [tOK, Bool.or_eq_true, decide_eq_true_eq] at hok
    exact .inl (h.setR hD (fun e => by rw [C x e]) (fun e => by simpa [e] using hok))
  | add r x y =>
    simp only [tOK, Bool.or_eq_true, decide_eq_true_eq] at hok
    exact .inl (h.setR hD (fun e => by rw [Bool.and_eq_true] at e; rw [C x e.1, C y e.2])
      (fun e => by rw [e] at hok; simpa using hok))
  | sub r x y =>
    simp only [tOK, Bool.or_eq_true, decide_eq_true_eq] at hok
    exact .inl (h.setR hD (fun e => by rw [Bool.and_eq_true] at e; rw [C x e.1, C y e.2])
      (fun e => by rw [e] at hok; simpa using hok))
  | sub32 r x y =>
    simp only [tOK, Bool.or_eq_true, decide_eq_true_eq] at hok
    exact .inl (h.setR hD (fun e => by rw [Bool.and_eq_true] at e; rw [C x e.1, C y e.2])
      (fun e => by rw [e] at hok; simpa using hok))
  | addf r x y =>
    simp only [tOK, Bool.or_eq_true, decide_eq_true_eq] at hok
    have h1 := h.setR (i := i) (al := al) (r := r) hD (c := Rseq.clean a.D k x)
      (v := l.regs (rn al x) + BitVec.ofInt (8 * n) y) (v' := l'.regs (rn al x) + BitVec.ofInt (8 * n) y)
      (fun e => by rw [C x e]) (fun e => by simpa [e] using hok)
    exact .inl ⟨rfl, h1.regs, fun e => by simp only [Instr.ren, Rseq.exec]; rw [C x e], h1.slots⟩
  | addf2 r y =>
    simp only [tOK, Bool.or_eq_true, decide_eq_true_eq] at hok
    have h1 := h.setR (i := i) (al := al) (r := r) hD (c := Rseq.clean a.D k r && Rseq.clean a.D k y)
      (v := l.regs (rn al r) + l.regs (rn al y)) (v' := l'.regs (rn al r) + l'.regs (rn al y))
      (fun e => by rw [Bool.and_eq_true] at e; rw [C r e.1, C y e.2])
      (fun e => by rw [e] at hok; simpa using hok)
    refine .inl ⟨rfl, h1.regs, fun e => ?_, h1.slots⟩
    simp only [tflow, Bool.and_eq_true] at e
    simp only [Instr.ren, Rseq.exec]; rw [C r e.1, C y e.2]
  | ld r x =>
    simp only [tOK, decide_eq_true_eq] at hok
    exact .inl (h.setR hD (c := false) (fun e => by cases e) (fun _ => hok))
  | ldx r x y =>
    simp only [tOK, decide_eq_true_eq] at hok
    exact .inl (h.setR hD (c := false) (fun e => by cases e) (fun _ => hok))
  | ldb r x =>
    simp only [tOK, decide_eq_true_eq] at hok
    exact .inl (h.setR hD (c := false) (fun e => by cases e) (fun _ => hok))
  | ldbx r x y =>
    simp only [tOK, decide_eq_true_eq] at hok
    exact .inl (h.setR hD (c := false) (fun e => by cases e) (fun _ => hok))
  | lbzu r b =>
    simp only [tOK, Bool.and_eq_true, decide_eq_true_eq] at hok
    refine .inl ⟨rfl, fun x hx => ?_, h.zf, h.slots⟩
    simp only [tflow, List.mem_cons, not_or] at hx
    have e : rn al r = r := by simp [rn, hok.1]
    simp only [Instr.ren, Rseq.exec, upd, e, hx.1, if_false]
    split
    · rw [C b hok.2]
    · exact h.regs x hx.2
  | stbu r b =>
    refine .inl ⟨rfl, fun x hx => ?_, h.zf, h.slots⟩
    simp only [Instr.ren, Rseq.exec, upd]
    split
    · rw [C b hok]
    · exact h.regs x hx
  | cmp x y =>
    refine .inl (h.setF fun e => ?_)
    rw [Bool.and_eq_true] at e
    rw [C x e.1, C y e.2]
  | cmp32 x y =>
    refine .inl (h.setF fun e => ?_)
    rw [Bool.and_eq_true] at e
    rw [C x e.1, C y e.2]
  | tst x => exact .inl (h.setF fun e => by rw [C x e])
  | cmpM x y => exact .inl (h.setF fun e => by cases e)
  | addM x y => exact .inl ⟨rfl, h.regs, fun e => (by cases e), h.slots⟩
  | jne t =>
    refine h.br ?_
    simp only [tOK, Bool.or_eq_true, Bool.and_eq_true, decide_eq_true_eq] at hok
    rcases hok with e | e
    · left; rw [h.zf e]
    · exact .inr e
  | je t =>
    refine h.br ?_
    simp only [tOK, Bool.or_eq_true, Bool.and_eq_true, decide_eq_true_eq] at hok
    rcases hok with e | e
    · left; rw [h.zf e]
    · exact .inr e
  | bne x y t =>
    refine h.br ?_
    simp only [tOK, Bool.or_eq_true, Bool.and_eq_true, decide_eq_true_eq] at hok
    rcases hok with e | e
    · left; rw [C x e.1, C y e.2]
    · exact .inr e
  | beq x y t =>
    refine h.br ?_
    simp only [tOK, Bool.or_eq_true, Bool.and_eq_true, decide_eq_true_eq] at hok
    rcases hok with e | e
    · left; rw [C x e.1, C y e.2]
    · exact .inr e
  | cbnz x t =>
    refine h.br ?_
    simp only [tOK, Bool.or_eq_true, Bool.and_eq_true, decide_eq_true_eq] at hok
    rcases hok with e | e
    · left; rw [C x e]
    · exact .inr e
  | cbz x t =>
    refine h.br ?_
    simp only [tOK, Bool.or_eq_true, Bool.and_eq_true, decide_eq_true_eq] at hok
    rcases hok with e | e
    · left; rw [C x e]
    · exact .inr e
  | cbnz32 x t =>
    refine h.br ?_
    simp only [tOK, Bool.or_eq_true, Bool.and_eq_true, decide_eq_true_eq] at hok
    rcases hok with e | e
    · left; rw [C x e]
    · exact .inr e
  | jmp t => exact .inl ⟨rfl, h.regs, h.zf, h.slots⟩
  | stS r s =>
    refine .inl ⟨rfl, h.regs, h.zf, ?_⟩
    simp only [Instr.ren, Rseq.exec]
    rw [C r hok, h.slots]
  | st r b => exact .inl h.nx
  | stl r b => exact .inl h.nx
  | stb r b => exact .inl h.nx
  | stbx r x b => exact .inl h.nx
  | fence => exact .inl h.nx

/-- A store before the final one goes to the same addresses in both executions. -/
theorem Sim.stores {k : Kind} {p : Prog n} {ins : Instr} (h : Sim a l l') (hf : ∀ o ∈ k.opnds, al o ∉ a.D)
    (hok : tOK k p a i ins = true) (hi : i + 1 ≠ p.commit) (x : W n) :
    stores (ins.ren (rn al)) l x ↔ stores (ins.ren (rn al)) l' x := by
  have C := fun x => h.clean hf (x := x)
  cases ins <;> simp only [tOK, hi, decide_false, Bool.false_or, Bool.and_eq_true] at hok <;>
    simp only [Instr.ren, Rseq.stores] <;>
    first
      | rw [C _ hok]
      | rw [C _ hok.1, C _ hok.2]
      | rfl

end

end Verif.Rseq
