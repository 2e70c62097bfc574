import Verif.RseqTree
import Verif.RseqRegs
/-
Symbolic execution of the helpers against the pseudo-code's tree of accesses.

A symbolic value is a linear form over the operands of the call, the values loaded so far and one loop
variable.  `explore` follows all paths of a program over symbolic registers in lock step with the tree:
each access must be the one the tree demands, each comparison the one of the tree, and the program may leave
with 0 or 1 only where the tree does.  The loop of the memory-copy helpers is cut at its head.
-/

namespace Verif.Rseq

variable {n : Nat}

/-! ### Linear forms -/

/-- Coefficients: of 1, of the loop variable, of the 17 operands, of up to four loaded values. -/
abbrev Lin := List Int

/-- The form that is just variable `j`. -/
def lat (j : Nat) : Lin := (List.range 23).map fun i => if i = j then 1 else 0

/-- Number of the variable of an operand. -/
def oix (o : Opnd) : Nat := 2 + o.num

def ladd : Lin → Lin → Lin
  | [], b => b
  | a, [] => a
  | c :: a, d :: b => (c + d) :: ladd a b

def lmul (k : Int) (a : Lin) : Lin := a.map (k * ·)

def lsub (a b : Lin) : Lin := ladd a (lmul (-1) b)

/-- Value of a form; `j` is the number of its first variable. -/
def lev (env : Nat → W n) : Nat → Lin → W n
  | _, [] => 0#(8 * n)
  | j, c :: r => BitVec.ofInt (8 * n) c * env j + lev env (j + 1) r

/-- Value of a form. -/
def ev (env : Nat → W n) (a : Lin) : W n := lev env 0 a

/-- Replace the loop variable. -/
def lsubst (a y : Lin) : Lin :=
  match a with
  | c0 :: c1 :: r => ladd (c0 :: 0 :: r) (lmul c1 y)
  | a => a

theorem lev_add (env : Nat → W n) : ∀ (a b : Lin) (j : Nat), lev env j (ladd a b) = lev env j a + lev env j b := by
  intro a
  induction a with
  | nil => intro b j; simp [ladd, lev]
  | cons c a ih =>
    intro b j
    cases b with
    | nil => simp [ladd, lev]
    | cons d b =>
      simp only [ladd, lev, ih, BitVec.ofInt_add, BitVec.add_mul]
      ac_rfl

theorem lev_mul (env : Nat → W n) (k : Int) : ∀ (a : Lin) (j : Nat),
    lev env j (lmul k a) = BitVec.ofInt (8 * n) k * lev env j a := by
  intro a
  induction a with
  | nil => intro j; simp [lmul, lev]
  | cons c a ih =>
    intro j
    have := ih (j + 1)
    simp only [lmul] at this
    simp only [lmul, List.map_cons, lev, this, BitVec.ofInt_mul, BitVec.mul_add, BitVec.mul_assoc]

theorem lev_upd (env : Nat → W n) (k : Nat) (x : W n) : ∀ (a : Lin) (j : Nat),
    (∀ i, j + i = k → a.getD i 0 = 0) → lev (upd env k x) j a = lev env j a := by
  intro a
  induction a with
  | nil => intro j _; rfl
  | cons c a ih =>
    intro j h
    simp only [lev]
    rw [ih (j + 1) (fun i hi => by have := h (i + 1) (by omega); simpa using this)]
    by_cases hj : j = k
    · have := h 0 (by omega)
      simp at this
      subst this
      simp
    · simp [upd, hj]

theorem ev_upd {env : Nat → W n} {k : Nat} {x : W n} {a : Lin} (h : a.getD k 0 = 0) :
    ev (upd env k x) a = ev env a :=
  lev_upd env k x a 0 fun i hi => by rw [Nat.zero_add] at hi; subst hi; exact h

theorem lev_unit (env : Nat → W n) (j : Nat) : ∀ (k s : Nat), s ≤ j → j < s + k →
    lev env s ((List.range' s k).map fun i => if i = j then (1 : Int) else 0) = env j := by
  intro k
  induction k with
  | zero => intro s h1 h2; omega
  | succ k ih =>
    intro s h1 h2
    simp only [List.range'_succ, List.map_cons, lev]
    by_cases hs : s = j
    · subst hs
      have hz : ∀ (k s' : Nat), s < s' →
          lev env s' ((List.range' s' k).map fun i => if i = s then (1 : Int) else 0) = 0#(8 * n) := by
        intro k
        induction k with
        | zero => intro s' _; rfl
        | succ k ih =>
          intro s' hs'
          simp only [List.range'_succ, List.map_cons, lev]
          rw [ih _ (by omega), if_neg (by omega)]
          simp
      rw [hz _ _ (by omega)]
      simp
    · rw [ih (s + 1) (by omega) (by omega), if_neg hs]
      simp

theorem ev_lat (env : Nat → W n) {j : Nat} (h : j < 23) : ev env (lat j) = env j := by
  unfold ev lat
  rw [List.range_eq_range']
  exact lev_unit env j 23 0 (Nat.zero_le _) (by omega)

theorem ev_add (env : Nat → W n) (a b : Lin) : ev env (ladd a b) = ev env a + ev env b := lev_add env a b 0

theorem ev_sub (env : Nat → W n) (a b : Lin) : ev env (lsub a b) = ev env a - ev env b := by
  unfold lsub
  rw [ev_add]
  unfold ev
  rw [lev_mul, BitVec.sub_eq_add_neg]
  congr 1
  rw [show (-1 : Int) = -(1 : Int) from rfl, BitVec.ofInt_neg, BitVec.neg_mul]
  congr 1
  simp

theorem ev_neg_zero (env : Nat → W n) (a : Lin) : ev env (lmul (-1) a) = 0#(8 * n) ↔ ev env a = 0#(8 * n) := by
  unfold ev
  rw [lev_mul, show (-1 : Int) = -(1 : Int) from rfl, BitVec.ofInt_neg, BitVec.neg_mul]
  simp [BitVec.neg_eq_zero_iff]

/-- A constant. -/
def lcst (k : Int) : Lin := lmul k (lat 0)

theorem ev_cst {env : Nat → W n} (h : env 0 = 1#(8 * n)) (k : Int) : ev env (lcst k) = BitVec.ofInt (8 * n) k := by
  have := ev_lat env (j := 0) (by decide)
  unfold ev at this
  unfold ev lcst
  rw [lev_mul, this, h]
  simp

theorem ev_subst (env : Nat → W n) (a y : Lin) : ev env (lsubst a y) = ev (upd env 1 (ev env y)) a := by
  have hup : ∀ (r : Lin) (j : Nat), 2 ≤ j → lev (upd env 1 (ev env y)) j r = lev env j r := by
    intro r j hj
    exact lev_upd env 1 _ r j (fun i hi => by omega)
  unfold lsubst
  split
  · rename_i c0 c1 r
    rw [ev_add]
    unfold ev
    rw [lev_mul]
    simp only [lev]
    have := hup r 2 (by omega)
    unfold ev at this
    rw [this]
    simp [upd]
    ac_rfl
  · rename_i h
    cases a with
    | nil => rfl
    | cons c0 a =>
      cases a with
      | nil => simp [ev, lev, upd]
      | cons c1 r => exact absurd rfl (h c0 c1 r)

/-! ### The tree with linear forms -/

/-- A tree over linear forms.  A word load names the variable its value gets; `copy`: the rest of the
memory copy is still to be done (`x` is the next offset, or, backwards, the number of bytes left), and it is
not yet known whether it is empty; `body`: it is not empty. -/
inductive STree
  | ret (r : Int)
  | ldw (a : Lin) (k : Nat) (t : STree)
  | stw (a x : Lin) (t : STree)
  | stb (a x : Lin) (t : STree)
  | ifz (l : Lin) (t e : STree)
  | copy (bwd : Bool) (x : Lin)
  | body (bwd : Bool) (x : Lin)
  deriving DecidableEq

/-- Offsets from `x` on. -/
def offsF (x : W n) : Nat → List (W n)
  | 0 => []
  | r + 1 => x :: offsF (x + 1#(8 * n)) r

/-- Offsets below `r`, downwards. -/
def offsB : Nat → List (W n)
  | 0 => []
  | r + 1 => BitVec.ofNat (8 * n) r :: offsB r

/-- Offsets left. -/
def offs (bwd : Bool) (len x : W n) : List (W n) :=
  if bwd = true then offsB x.toNat else offsF x (len - x).toNat

def off (bwd : Bool) (x : W n) : W n := if bwd = true then x - 1#(8 * n) else x
def nxt (bwd : Bool) (x : W n) : W n := if bwd = true then x - 1#(8 * n) else x + 1#(8 * n)

/-- The rest of the memory-copy helper from its copy on. -/
def copyRest (env : Nat → W n) (l : List (W n)) : Tree n :=
  copyTree (env (oix .dst)) (env (oix .src)) (.stw (env (oix .v)) (env (oix .newv)) (.ret 0)) l

/-- The tree that a tree over linear forms stands for. -/
def STree.conc : STree → (Nat → W n) → Tree n
  | .ret r, _ => .ret r
  | .ldw a k t, env => .ldw (ev env a) fun x => t.conc (upd env k x)
  | .stw a x t, env => .stw (ev env a) (ev env x) (t.conc env)
  | .stb a x t, env => .stb (ev env a) ((ev env x).setWidth 8) (t.conc env)
  | .ifz l t e, env => if ev env l = 0#(8 * n) then t.conc env else e.conc env
  | .copy b x, env => copyRest env (offs b (env (oix .len)) (ev env x))
  | .body b x, env => .ldb (env (oix .src) + off b (ev env x)) fun y =>
      .stb (env (oix .dst) + off b (ev env x)) y (copyRest env (offs b (env (oix .len)) (nxt b (ev env x))))

/-- Zero iff the copy is complete. -/
def remL (b : Bool) (x : Lin) : Lin := if b = true then x else lsub (lat (oix .len)) x

/-- A comparison has been decided. -/
def STree.advance (t : STree) (l : Lin) (z : Bool) : STree :=
  match t with
  | .ifz l' t' e' => if l = l' ∨ l = lmul (-1) l' then (if z then t' else e') else t
  | .copy b x =>
    if l = remL b x ∨ l = lmul (-1) (remL b x) then
      (if z then .stw (lat (oix .v)) (lat (oix .newv)) (.ret 0) else .body b x)
    else t
  | t => t

/-- Not at the end of a success. -/
def STree.not0 : STree → Bool
  | .ret r => r != 0
  | .ifz _ t e => t.not0 && e.not0
  | _ => true

theorem oix_lt (o : Opnd) : oix o < 19 := by cases o <;> decide

theorem ev_op (env : Nat → W n) (o : Opnd) : ev env (lat (oix o)) = env (oix o) :=
  ev_lat env (by have := oix_lt o; omega)

theorem offs_zero {b : Bool} {env : Nat → W n} {x : Lin} (h : ev env (remL b x) = 0#(8 * n)) :
    offs b (env (oix .len)) (ev env x) = [] := by
  cases b
  · simp only [remL, Bool.false_eq_true, if_false] at h
    rw [ev_sub, ev_op] at h
    simp [offs, h, offsF]
  · simp only [remL, if_true] at h
    simp [offs, h, offsB]

theorem offs_cons {b : Bool} {env : Nat → W n} {x : Lin} (hn : 1 ≤ n) (h : ev env (remL b x) ≠ 0#(8 * n)) :
    offs b (env (oix .len)) (ev env x) =
      off b (ev env x) :: offs b (env (oix .len)) (nxt b (ev env x)) := by
  have hbig : 2 ≤ 2 ^ (8 * n) := by
    calc 2 = 2 ^ 1 := rfl
      _ ≤ 2 ^ (8 * n) := Nat.pow_le_pow_right (by decide) (by omega)
  have h1 : (1#(8 * n)).toNat = 1 := by rw [BitVec.toNat_ofNat]; exact Nat.mod_eq_of_lt (by omega)
  have pred : ∀ y : W n, y ≠ 0#(8 * n) → y.toNat = (y - 1#(8 * n)).toNat + 1 := by
    intro y hy
    have h0 : y.toNat ≠ 0 := fun h => hy (BitVec.eq_of_toNat_eq (by simpa using h))
    have := y.isLt
    rw [BitVec.toNat_sub, h1,
      show 2 ^ (8 * n) - 1 + y.toNat = (y.toNat - 1) + 2 ^ (8 * n) by omega, Nat.add_mod_right,
      Nat.mod_eq_of_lt (by omega)]
    omega
  cases b
  · simp only [remL, Bool.false_eq_true, if_false] at h
    rw [ev_sub, ev_op] at h
    simp only [offs, off, nxt, Bool.false_eq_true, if_false]
    rw [pred _ h, show env (oix .len) - ev env x - 1#(8 * n) = env (oix .len) - (ev env x + 1#(8 * n)) by
      rw [BitVec.sub_eq_add_neg, BitVec.sub_eq_add_neg, BitVec.sub_eq_add_neg, BitVec.neg_add,
        BitVec.sub_eq_add_neg]; ac_rfl]
    rfl
  · simp only [remL, if_true] at h
    simp only [offs, off, nxt, if_true]
    rw [pred _ h]
    simp only [offsB]
    rw [BitVec.ofNat_toNat, BitVec.setWidth_eq]

theorem conc_advance (hn : 1 ≤ n) {t : STree} {env : Nat → W n} {l : Lin} {z : Bool}
    (h : z = true ↔ ev env l = 0#(8 * n)) : (t.advance l z).conc env = t.conc env := by
  have dec : ∀ l', l = l' ∨ l = lmul (-1) l' → (z = true ↔ ev env l' = 0#(8 * n)) := by
    intro l' hl
    rcases hl with rfl | rfl
    · exact h
    · rw [ev_neg_zero] at h; exact h
  unfold STree.advance
  split
  · rename_i l' t' e'
    split
    · rename_i hl
      have := dec _ hl
      simp only [STree.conc]
      cases z
      · rw [if_neg (by simp), if_neg (by simpa using this)]
      · rw [if_pos rfl, if_pos (by simpa using this)]
    · rfl
  · rename_i b x
    split
    · rename_i hl
      have := dec _ hl
      cases z
      · rw [if_neg (by simp)]
        simp only [STree.conc]
        rw [offs_cons hn (by simpa using this)]
        rfl
      · rw [if_pos rfl]
        simp only [STree.conc]
        rw [offs_zero (by simpa using this), ev_op, ev_op]
        rfl
    · rfl
  · rfl

theorem not0_conc (hn : 1 ≤ n) {t : STree} (h : t.not0 = true) (env : Nat → W n) : t.conc env ≠ .ret 0 := by
  induction t with
  | ret r => simp [STree.not0] at h; simp [STree.conc, h]
  | ldw => simp [STree.conc]
  | stw => simp [STree.conc]
  | stb => simp [STree.conc]
  | ifz l t e iht ihe =>
    simp only [STree.not0, Bool.and_eq_true] at h
    simp only [STree.conc]
    split
    · exact iht h.1
    · exact ihe h.2
  | copy b x =>
    simp only [STree.conc, copyRest]
    cases offs b (env (oix .len)) (ev env x) <;> simp [copyTree]
  | body => simp [STree.conc]

end Verif.Rseq
