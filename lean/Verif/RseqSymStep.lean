import Verif.RseqSym
/-
Symbolic execution: one instruction, and its soundness.
-/

namespace Verif.Rseq

variable {n : Nat}

/-- A symbolic state: position, registers and slots with known values, the form whose being zero the flag
says, and what the pseudo-code still has to do. -/
structure Sy where
  pc : Pc
  regs : List (Nat × Lin)
  slots : List (Nat × Lin)
  zf : Option Lin
  tree : STree

/-- Value of a register. -/
def Sy.get (σ : Sy) (r : Nat) : Option Lin := σ.regs.lookup r

/-- Forget or set a register; `sep r r'` says that writing `r` certainly leaves `r'` alone.  All others are
forgotten. -/
def Sy.put (sep : Nat → Nat → Bool) (σ : Sy) (r : Nat) (v : Option Lin) : Option Sy :=
  some { σ with regs := (v.toList.map fun x => (r, x)) ++ σ.regs.filter (fun q => sep r q.1) }

/-- Variable `k` does not occur in the state. -/
def Sy.fresh (σ : Sy) (k : Nat) : Bool :=
  σ.regs.all (fun q => q.2.getD k 0 == 0) && σ.slots.all (fun q => q.2.getD k 0 == 0)

/-- Fall through. -/
def Sy.nx (σ : Sy) (i : Nat) : Sy := { σ with pc := .at (i + 1) }

/-- Load a word: the tree must demand it. -/
def Sy.load (σ : Sy) (a : Lin) : Option (Nat × Sy) :=
  match σ.tree with
  | .ldw a' k t => if a' = a ∧ σ.fresh k = true ∧ 19 ≤ k ∧ k < 23 then some (k, { σ with tree := t, zf := none }) else none
  | _ => none

/-- Offset of the next byte of the copy. -/
def offL (b : Bool) (x : Lin) : Lin := if b = true then ladd x (lcst (-1)) else x

/-- Position after it. -/
def nxtL (b : Bool) (x : Lin) : Lin := ladd x (lcst (if b = true then -1 else 1))

/-- Load a byte. -/
def Sy.loadB (σ : Sy) (a : Lin) : Option Sy :=
  match σ.tree with
  | .body b x =>
    if a = ladd (lat (oix .src)) (offL b x) ∧ σ.fresh 19 = true ∧ x.getD 19 0 = 0 then
      some { σ with
        tree := .stb (ladd (lat (oix .dst)) (offL b x)) (lat 19)
          (.copy b (nxtL b x))
        zf := none }
    else none
  | _ => none

/-- Store a word. -/
def Sy.store (σ : Sy) (a x : Lin) : Option Sy :=
  match σ.tree with
  | .stw a' x' t => if a' = a ∧ x' = x then some { σ with tree := t } else none
  | _ => none

/-- Store a byte. -/
def Sy.storeB (σ : Sy) (a x : Lin) : Option Sy :=
  match σ.tree with
  | .stb a' x' t => if a' = a ∧ x' = x then some { σ with tree := t } else none
  | _ => none

/-- Conditional jump: `z` is what the form being zero means (`none`: not known); jump to `t` if it is zero and
`onz`, or not zero and not `onz`. -/
def Sy.br (σ : Sy) (i : Nat) (z : Option Lin) (onz : Bool) (t : Pc) : List Sy :=
  match z with
  | none => [{ σ with pc := t }, σ.nx i]
  | some l => [{ σ with pc := t, tree := σ.tree.advance l onz },
      { σ with pc := .at (i + 1), tree := σ.tree.advance l (!onz) }]

/-- Difference of two registers, if known. -/
def Sy.diff (σ : Sy) (a b : Nat) : Option Lin :=
  match σ.get a, σ.get b with
  | some x, some y => some (lsub x y)
  | _, _ => none

/-- Sum of two registers. -/
def Sy.sum (σ : Sy) (a b : Nat) : Option Lin :=
  match σ.get a, σ.get b with
  | some x, some y => some (ladd x y)
  | _, _ => none

/-- A register plus a constant. -/
def Sy.plus (σ : Sy) (a : Nat) (k : Int) : Option Lin := (σ.get a).map fun x => ladd x (lcst k)

/-- One instruction. -/
def Sy.step (sep : Nat → Nat → Bool) (σ : Sy) (i : Nat) : Instr → Option (List Sy)
  | .cs r | .ldCpuS r | .ldCpuZ r | .sub32 r _ _ => (σ.put sep r none).map fun σ => [σ.nx i]
  | .cmpCpu _ | .cmp32 _ _ => some [{ σ with zf := none, pc := .at (i + 1) }]
  | .cmp a b => some [{ σ with zf := σ.diff a b, pc := .at (i + 1) }]
  | .tst r => some [{ σ with zf := σ.get r, pc := .at (i + 1) }]
  | .cmpM b r => do
    let a ← σ.get b
    let (k, σ') ← σ.load a
    some [{ σ' with zf := (σ'.get r).map (lsub (lat k)), pc := .at (i + 1) }]
  | .jne t => some (σ.br i σ.zf false t)
  | .je t => some (σ.br i σ.zf true t)
  | .bne a b t => some (σ.br i (σ.diff a b) false t)
  | .beq a b t => some (σ.br i (σ.diff a b) true t)
  | .cbnz r t => some (σ.br i (σ.get r) false t)
  | .cbz r t => some (σ.br i (σ.get r) true t)
  | .cbnz32 _ t => some (σ.br i none false t)
  | .jmp t => some [{ σ with pc := t }]
  | .mov r a => (σ.put sep r (σ.get a)).map fun σ => [σ.nx i]
  | .add r a b => (σ.put sep r (σ.sum a b)).map fun σ => [σ.nx i]
  | .sub r a b => (σ.put sep r (σ.diff a b)).map fun σ => [σ.nx i]
  | .addi r a k => (σ.put sep r (σ.plus a k)).map fun σ => [σ.nx i]
  | .addf r a k => (σ.put sep r (σ.plus a k)).map fun σ' => [{ σ'.nx i with zf := σ.plus a k }]
  | .addf2 r b => (σ.put sep r (σ.sum r b)).map fun σ' => [{ σ'.nx i with zf := σ.sum r b }]
  | .ld r b => do
    let a ← σ.get b
    let (k, σ') ← σ.load a
    let σ'' ← σ'.put sep r (some (lat k))
    some [σ''.nx i]
  | .ldx r a b => do
    let a ← σ.sum a b
    let (k, σ') ← σ.load a
    let σ'' ← σ'.put sep r (some (lat k))
    some [σ''.nx i]
  | .st r b | .stl r b => do
    let a ← σ.get b
    let x ← σ.get r
    let σ' ← σ.store a x
    some [σ'.nx i]
  | .addM r b => do
    let a ← σ.get b
    let (k, σ') ← σ.load a
    let x ← σ'.get r
    let σ'' ← σ'.store a (ladd (lat k) x)
    some [σ''.nx i]
  | .ldb r b => do
    let a ← σ.get b
    let σ' ← σ.loadB a
    let σ'' ← σ'.put sep r (some (lat 19))
    some [σ''.nx i]
  | .ldbx r a b => do
    let a ← σ.sum a b
    let σ' ← σ.loadB a
    let σ'' ← σ'.put sep r (some (lat 19))
    some [σ''.nx i]
  | .stb r b => do
    let a ← σ.get b
    let x ← σ.get r
    let σ' ← σ.storeB a x
    some [σ'.nx i]
  | .stbx r a b => do
    let a ← σ.sum a b
    let x ← σ.get r
    let σ' ← σ.storeB a x
    some [σ'.nx i]
  | .lbzu r b => do
    let a ← σ.plus b 1
    let σ1 ← σ.put sep b (some a)
    let σ2 ← σ1.loadB a
    let σ3 ← σ2.put sep r (some (lat 19))
    some [σ3.nx i]
  | .stbu r b => do
    let a ← σ.plus b 1
    let x ← σ.get r
    let σ1 ← σ.put sep b (some a)
    let σ2 ← σ1.storeB a x
    some [σ2.nx i]
  | .ldS r s => (σ.put sep r (σ.slots.lookup s)).map fun σ => [σ.nx i]
  | .stS _ s => if s < 100 then none else
      some [{ σ with slots := σ.slots.filter (fun q => q.1 != s), pc := .at (i + 1) }]
  | .fence => some [σ.nx i]

/-! ### Soundness -/

/-- The symbolic state describes the local state. -/
structure Rel (al : Opnd → Nat) (env : Nat → W n) (σ : Sy) (l : LSt n) : Prop where
  one : env 0 = 1#(8 * n)
  pc : l.pc = σ.pc
  regs : ∀ q ∈ σ.regs, l.regs (rn al q.1) = ev env q.2
  slots : ∀ q ∈ σ.slots, l.slots q.1 = ev env q.2
  zf : ∀ x, σ.zf = some x → (l.zf = true ↔ ev env x = 0#(8 * n))

variable {al : Opnd → Nat} {env : Nat → W n} {σ : Sy} {l : LSt n}

theorem lookup_mem {α : Type} {l : List (Nat × α)} {r : Nat} {x : α} (h : l.lookup r = some x) : (r, x) ∈ l := by
  induction l with
  | nil => cases h
  | cons q l ih =>
    obtain ⟨a, b⟩ := q
    simp only [List.lookup] at h
    split at h
    · rename_i he
      simp at he
      injection h with h
      subst h; subst he; simp
    · exact List.mem_cons_of_mem _ (ih h)

theorem Rel.get (h : Rel al env σ l) {r : Nat} {x : Lin} (hx : σ.get r = some x) : l.regs (rn al r) = ev env x :=
  h.regs _ (lookup_mem hx)

theorem Rel.diff (h : Rel al env σ l) {a b : Nat} {x : Lin} (hx : σ.diff a b = some x) :
    l.regs (rn al a) - l.regs (rn al b) = ev env x := by
  unfold Sy.diff at hx
  split at hx
  · rename_i y z hy hz
    injection hx with hx
    subst hx
    rw [ev_sub, h.get hy, h.get hz]
  · cases hx

theorem Rel.sum (h : Rel al env σ l) {a b : Nat} {x : Lin} (hx : σ.sum a b = some x) :
    l.regs (rn al a) + l.regs (rn al b) = ev env x := by
  unfold Sy.sum at hx
  split at hx
  · rename_i y z hy hz
    injection hx with hx
    subst hx
    rw [ev_add, h.get hy, h.get hz]
  · cases hx

theorem Rel.plus (h : Rel al env σ l) {a : Nat} {k : Int} {x : Lin} (hx : σ.plus a k = some x) :
    l.regs (rn al a) + BitVec.ofInt (8 * n) k = ev env x := by
  unfold Sy.plus at hx
  obtain ⟨y, hy, rfl⟩ := Option.map_eq_some_iff.1 hx
  rw [ev_add, ev_cst h.one, h.get hy]

theorem Rel.congr {l' : LSt n} {σ' : Sy} (h : Rel al env σ l) (h1 : l'.pc = σ'.pc) (h2 : l'.regs = l.regs)
    (h3 : l'.slots = l.slots) (h4 : σ'.regs = σ.regs) (h5 : σ'.slots = σ.slots)
    (h6 : ∀ x, σ'.zf = some x → (l'.zf = true ↔ ev env x = 0#(8 * n))) : Rel al env σ' l' :=
  ⟨h.one, h1, by rw [h4, h2]; exact h.regs, by rw [h5, h3]; exact h.slots, h6⟩

/-- `sep` is right about the registers the compiler chose. -/
def SepR (sep : Nat → Nat → Bool) (al : Opnd → Nat) : Prop :=
  ∀ r r', sep r r' = true → rn al r' ≠ rn al r

theorem Rel.put {sep : Nat → Nat → Bool} (hsep : SepR sep al) (h : Rel al env σ l) {r : Nat} {v : Option Lin}
    {σ' : Sy} (hp : σ.put sep r v = some σ') {y : W n} (hv : ∀ x, v = some x → y = ev env x) :
    Rel al env σ' { l with regs := upd l.regs (rn al r) y } ∧ σ'.tree = σ.tree ∧ σ'.pc = σ.pc ∧
      σ'.slots = σ.slots ∧ σ'.zf = σ.zf := by
  unfold Sy.put at hp
  injection hp with hp
  subst hp
  refine ⟨⟨h.one, h.pc, ?_, h.slots, h.zf⟩, rfl, rfl, rfl, rfl⟩
  intro q hq
  simp only [List.mem_append, List.mem_map, Option.mem_toList, List.mem_filter] at hq
  rcases hq with ⟨x, hx, rfl⟩ | ⟨hq, hne⟩
  · simp only [upd, if_true]
    exact hv x hx
  · simp only [upd]
    rw [if_neg (hsep r q.1 hne)]
    exact h.regs q hq

theorem Rel.fresh (h : Rel al env σ l) {k : Nat} (hk : σ.fresh k = true) (h0 : k ≠ 0) (x : W n) {σ' : Sy}
    (e1 : σ'.regs = σ.regs) (e2 : σ'.slots = σ.slots) (e3 : σ'.pc = σ.pc) (e4 : σ'.zf = none) :
    Rel al (upd env k x) σ' l := by
  simp only [Sy.fresh, Bool.and_eq_true, List.all_eq_true, beq_iff_eq] at hk
  refine ⟨?_, by rw [e3]; exact h.pc, ?_, ?_, ?_⟩
  · simp only [upd]; rw [if_neg (Ne.symm h0)]; exact h.one
  · rw [e1]; intro q hq; rw [h.regs q hq, ev_upd (hk.1 q hq)]
  · rw [e2]; intro q hq; rw [h.slots q hq, ev_upd (hk.2 q hq)]
  · intro y hy; rw [e4] at hy; cases hy

theorem Rel.load (h : Rel al env σ l) {a : Lin} {k : Nat} {σ' : Sy} (hl : σ.load a = some (k, σ')) (x : W n) :
    Rel al (upd env k x) σ' l ∧ Runs (σ.tree.conc env) [.ldw (ev env a) x] (σ'.tree.conc (upd env k x)) ∧
      σ'.pc = σ.pc ∧ ev (upd env k x) (lat k) = x ∧ σ'.regs = σ.regs ∧ σ.fresh k = true := by
  unfold Sy.load at hl
  split at hl
  · rename_i a' k' t ht
    split at hl
    · rename_i hc
      obtain ⟨rfl, hf, h1, h2⟩ := hc
      injection hl with hl
      injection hl with e1 e2
      subst e1
      subst e2
      refine ⟨h.fresh hf (by omega) x rfl rfl rfl rfl, ?_, rfl, ?_, rfl, hf⟩
      · rw [ht]; exact .ldw .nil
      · rw [ev_lat _ h2]; simp [upd]
    · cases hl
  · cases hl

theorem Rel.store (h : Rel al env σ l) {a x : Lin} {σ' : Sy} (hl : σ.store a x = some σ') :
    Rel al env σ' l ∧ Runs (σ.tree.conc env) [.stw (ev env a) (ev env x)] (σ'.tree.conc env) ∧
      σ'.pc = σ.pc := by
  unfold Sy.store at hl
  split at hl
  · rename_i a' x' t ht
    split at hl
    · rename_i hc
      obtain ⟨rfl, rfl⟩ := hc
      injection hl with e2
      subst e2
      refine ⟨h.congr h.pc rfl rfl rfl rfl h.zf, ?_, rfl⟩
      rw [ht]; exact .stw .nil
    · cases hl
  · cases hl

theorem Rel.storeB (h : Rel al env σ l) {a x : Lin} {σ' : Sy} (hl : σ.storeB a x = some σ') :
    Rel al env σ' l ∧ Runs (σ.tree.conc env) [.stb (ev env a) ((ev env x).setWidth 8)] (σ'.tree.conc env) ∧
      σ'.pc = σ.pc := by
  unfold Sy.storeB at hl
  split at hl
  · rename_i a' x' t ht
    split at hl
    · rename_i hc
      obtain ⟨rfl, rfl⟩ := hc
      injection hl with e2
      subst e2
      refine ⟨h.congr h.pc rfl rfl rfl rfl h.zf, ?_, rfl⟩
      rw [ht]; exact .stb .nil
    · cases hl
  · cases hl

theorem Rel.loadB (hn : 1 ≤ n) (h : Rel al env σ l) {a : Lin} {σ' : Sy} (hl : σ.loadB a = some σ') (y : Byte) :
    Rel al (upd env 19 (y.setWidth (8 * n))) σ' l ∧
      Runs (σ.tree.conc env) [.ldb (ev env a) y] (σ'.tree.conc (upd env 19 (y.setWidth (8 * n)))) ∧
      σ'.pc = σ.pc ∧ ev (upd env 19 (y.setWidth (8 * n))) (lat 19) = y.setWidth (8 * n) := by
  unfold Sy.loadB at hl
  split at hl
  · rename_i b x ht
    split at hl
    · rename_i hc
      obtain ⟨rfl, hf, hx⟩ := hc
      injection hl with e2
      subst e2
      refine ⟨h.fresh hf (by decide) _ rfl rfl rfl rfl, ?_, rfl, ?_⟩
      · have henv : ∀ o, upd env 19 (y.setWidth (8 * n)) (oix o) = env (oix o) := by
          intro o
          have := oix_lt o
          simp only [upd]; rw [if_neg (by omega)]
        have hone : upd env 19 (y.setWidth (8 * n)) 0 = 1#(8 * n) := by simp [upd, h.one]
        have hneg : BitVec.ofInt (8 * n) (-1) = -1#(8 * n) := by
          rw [show (-1 : Int) = -(1 : Int) from rfl, BitVec.ofInt_neg]; simp
        rw [ht]
        have ha : ev env (ladd (lat (oix .src)) (offL b x)) =
            env (oix .src) + off b (ev env x) := by
          rw [ev_add, ev_op]
          cases b
          · simp [off, offL]
          · simp [off, offL, ev_add, ev_cst h.one, BitVec.sub_eq_add_neg, hneg]
        rw [ha]
        refine .ldb (b := y) ?_
        have : STree.conc (.stb (ladd (lat (oix .dst)) (offL b x)) (lat 19)
            (.copy b (nxtL b x))) (upd env 19 (y.setWidth (8 * n))) =
            .stb (env (oix .dst) + off b (ev env x)) y
              (copyRest env (offs b (env (oix .len)) (nxt b (ev env x)))) := by
          simp only [STree.conc, copyRest, henv]
          rw [ev_add, ev_op, henv, ev_lat _ (by decide), show upd env 19 (y.setWidth (8 * n)) 19 = y.setWidth (8 * n) by
            simp [upd], BitVec.setWidth_setWidth_of_le _ (by omega), BitVec.setWidth_eq]
          cases b
          · simp [off, nxt, offL, nxtL, ev_add, ev_cst hone, ev_upd hx]
          · simp [off, nxt, offL, nxtL, ev_add, ev_cst hone, ev_upd hx, BitVec.sub_eq_add_neg, hneg]
        rw [this]
        exact .nil
      · rw [ev_lat _ (by decide)]; simp [upd]
    · cases hl
  · cases hl

end Verif.Rseq
