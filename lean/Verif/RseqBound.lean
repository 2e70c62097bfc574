import Verif.RseqInjectStatic
/-
How long a helper can run.

The only backward jumps of the helpers are those of the byte-copy loops of the memory-copy helpers.  A
data-flow check on the programs over symbolic registers (`RseqRegs.lean`) finds the loop, the register that
counts the bytes left, and verifies that the counter starts at `len`, is not zero at the head of the loop,
is decremented once per round, and that the loop is left when it is zero.  From that follows a number that
every instruction makes smaller, whatever it reads.
-/

namespace Verif.Rseq

variable {n : Nat}

/-- A loop: counter register, indices of head, decrement and backward branch. -/
structure Lp where
  r : Nat
  h : Nat
  d : Nat
  b : Nat

/-- What is known before an instruction. -/
inductive Md
  /-- before the loop; the counter holds `len`; the flag says whether `len` is zero; `len` is not zero -/
  | pre (g z nz : Bool)
  /-- in the loop, before the decrement: the counter is not zero -/
  | up
  /-- in the loop, after the decrement; the flag says whether the counter is zero -/
  | dn (z : Bool)
  /-- outside every loop -/
  | post
  deriving DecidableEq

/-- The counter is loaded with `len`. -/
def loadsLen (r : Nat) : Instr → Bool
  | .mov x y => x == r && y == sym .len
  | .ldS x s => x == r && s == 4
  | _ => false

def testsLen (g : Bool) (r : Nat) : Instr → Bool
  | .tst x => x == sym .len || (g && x == r)
  | _ => false

def isJe : Instr → Bool
  | .je _ => true
  | _ => false

def leavesIfZero (g : Bool) (r : Nat) : Instr → Bool
  | .cbz x _ => x == sym .len || (g && x == r)
  | _ => false

/-- Going on behind an instruction before the loop. -/
def nxPre (r : Nat) : Md → Instr → Md
  | .pre g z nz, ins => .pre (g || loadsLen r ins) (if setsF ins then testsLen g r ins else z)
      (nz || ((z && isJe ins) || leavesIfZero g r ins))
  | m, _ => m

/-- What is known at each index. -/
def mdAt (L : Option Lp) (c : List Instr) (i : Nat) : Md :=
  match L with
  | none => .post
  | some L =>
    if i < L.h then (c.take i).foldl (nxPre L.r) (.pre (L.r == sym .len) false false)
    else if i ≤ L.d then .up
    else if i ≤ L.b then .dn (((c.take i).drop L.d).any fun
      | .tst x => x == L.r
      | .addf x _ _ => x == L.r
      | _ => false)
    else .post

/-- The target of a jump out of the loop part: behind the jump, in the code, outside the loop. -/
def fwd (L : Option Lp) (c : List Instr) (i : Nat) : Pc → Bool
  | .at j => decide (i < j) && (decide (j < c.length) && mdAt L c j == .post)
  | .ret _ => true

/-- The written registers do not overlap the counter, whatever registers the operands are in. -/
def apart (own : Bool) (clob : List Nat) (r : Nat) (w : Nat) : Bool :=
  w != r && (w ∈ clob || ((w == sym .src || w == sym .dst) && (r ∈ clob || own)))

/-- Check of one instruction. -/
def bInstrOK (own : Bool) (clob : List Nat) (L : Option Lp) (c : List Instr) (i : Nat) (ins : Instr) : Bool :=
  match L, mdAt L c i with
  | some L, .pre g z nz =>
    decide (i < L.h) && ((writes ins).all (fun w => w ∈ clob) && ((r_ok g L.r ins) &&
      (slot_ok ins && (!isJmp ins && ((tgts ins).all (fwd (some L) c i) &&
      (match nxPre L.r (.pre g z nz) ins with
       | .pre g' _ nz' => decide (i + 1 < L.h) || (g' && nz')
       | _ => false))))))
  | some L, .up =>
    decide (L.h ≤ i) && (!isJmp ins && ((tgts ins).isEmpty &&
      ((decide (i < L.d) && (writes ins).all (apart own clob L.r)) ||
       (i == L.d && (match ins with
        | .addi x y k => x == L.r && (y == L.r && (k == -1 && mdAt (some L) c (i + 1) == .dn false))
        | .addf x y k => x == L.r && (y == L.r && (k == -1 && mdAt (some L) c (i + 1) == .dn true))
        | _ => false)))))
  | some L, .dn z =>
    decide (L.d < i) && ((decide (i < L.b) && ((writes ins).all (apart own clob L.r) && (!isJmp ins &&
       ((tgts ins).isEmpty && (match mdAt (some L) c (i + 1) with
         | .dn z' => !z' || (ins == .tst L.r || (z && !setsF ins))
         | _ => false))))) ||
      (i == L.b && (ins == .cbnz L.r (.at L.h) || (z && ins == .jne (.at L.h)))))
  | L, .post => (succs i ins).all (fwd L c i)
  | _, _ => false
where
  r_ok (g : Bool) (r : Nat) (ins : Instr) : Bool := loadsLen r ins || (!g || r ∉ writes ins)
  slot_ok : Instr → Bool
    | .stS _ s => decide (100 ≤ s)
    | _ => true

/-- The loop of a program: its first backward jump and the first decrement in front of it. -/
def loopOf (c : List Instr) : Option Lp :=
  let back := (List.range c.length).findSome? fun i =>
    match c[i]? with
    | none => none
    | some ins => (tgts ins).findSome? fun
      | .at j => if j ≤ i then some (j, i) else none
      | .ret _ => none
  match back with
  | none => none
  | some (h, b) =>
    let dec := (List.range (b + 1)).findSome? fun i =>
      if i < h then none else match c[i]? with
      | some (.addi r _ k) => if k = -1 then some (r, i) else none
      | some (.addf r _ k) => if k = -1 then some (r, i) else none
      | _ => none
    dec.map fun (r, d) => ⟨r, h, d, b⟩

/-- Check of the loop itself. -/
def lpOK (clob : List Nat) (c : List Instr) : Option Lp → Bool
  | none => true
  | some L => (L.r ∈ clob || L.r == sym .len) && (decide (0 < L.h) && (decide (L.h ≤ L.d) &&
      (decide (L.d < L.b) && (decide (L.b + 1 < c.length) && decide (L.b < L.h + 6)))))

/-- The position is behind index `i`, or outside the helper. -/
def ahead (i : Nat) : Pc → Bool
  | .at j => decide (i < j)
  | .ret _ => true

/-- Check of a program. -/
def bcheck (own : Bool) (clob : List Nat) (p : Prog n) : Bool :=
  lpOK clob p.code (loopOf p.code) && (decide (0 < p.code.length) && (decide (p.abort < p.code.length) &&
  (decide (p.commit ≤ p.abort) && (mdAt (loopOf p.code) p.code p.abort == .post &&
  (List.range p.code.length).all (fun i =>
    match p.code[i]? with
    | none => true
    | some ins => bInstrOK own clob (loopOf p.code) p.code i ins &&
        (decide (i < p.commit) || (succs i ins).all (ahead i)))))))

theorem all_bcheck8 : ∀ (a : Arch) (k : Kind) (rel : Bool), ∀ p ∈ program sym false (0 : W 8) a k rel,
    (bcheck (modifiesInputs a) (clobbers a k) p && ((loopOf p.code).isSome == (k == .cbneMemcpyStore))) = true := by
  intro a k rel
  cases a <;> cases k <;> cases rel <;> intro p hp <;>
    first | (cases hp; done) | (cases hp; decide +kernel)

theorem all_bcheckTwice8 : ∀ (a : Arch) (k : Kind) (rel : Bool), ∀ p ∈ program sym false (0 : W 8) a k rel,
    (bcheck (modifiesInputs a) (clobbers a k) (twiceOf sym a k p) &&
      ((loopOf (twiceOf sym a k p).code).isSome == (k == .cbneMemcpyStore))) = true := by
  intro a k rel
  cases a <;> cases k <;> cases rel <;> intro p hp <;>
    first | (cases hp; done) | (cases hp; decide +kernel)

end Verif.Rseq
