/-
Arguments of the macros of include/rseq/mempool.h:259-260 and 285-288, which put `_stride` and `_ptr` behind a cast without
parentheses.

An argument is a C expression over operands (primary, unary or parenthesised expressions, whose value does not depend on
where they stand) with the operators `*`, `+` and `<<`, or a conditional of three such expressions.  `eval` reads it with the
precedence and associativity of C.  The macros are what the preprocessor leaves: a list of tokens in front of that of the
argument.  Values are `uintptr_t` (unsigned, width `w`): the cast in front of the first operand changes nothing then.
Shifts by `w` or more, undefined in C, give 0 on both sides of every comparison.
The optional argument itself (`RSEQ_PARAM_SELECT_ARG1`) only selects between the argument and the default.
-/
namespace Verif.MacroArgs

variable {w : Nat}

inductive Op where
  | mul | add | shl
  deriving DecidableEq

/-- An operand and what follows it, from left to right. -/
structure Expr (w : Nat) where
  first : BitVec w
  rest : List (Op × BitVec w)

/-- The state of an operator-precedence evaluation: what waits for the right operand of `<<`, the sum before the product that
is being read, and that product. -/
structure Acc (w : Nat) where
  sh : BitVec w → BitVec w
  sum : BitVec w
  prod : BitVec w

def Acc.value (a : Acc w) : BitVec w := a.sh (a.sum + a.prod)

def Acc.step (a : Acc w) : Op × BitVec w → Acc w
  | (.mul, v) => { a with prod := a.prod * v }
  | (.add, v) => { a with sum := a.sum + a.prod, prod := v }
  | (.shl, v) => { sh := fun n => a.value <<< n, sum := 0#w, prod := v }

def Acc.run (a : Acc w) (l : List (Op × BitVec w)) : Acc w := l.foldl Acc.step a

def Expr.eval (e : Expr w) : BitVec w := (Acc.run ⟨id, 0#w, e.first⟩ e.rest).value

inductive Arg (w : Nat) where
  | plain (e : Expr w)
  | cond (c a b : Expr w)

def Arg.eval : Arg w → BitVec w
  | .plain e => e.eval
  | .cond c a b => if c.eval ≠ 0#w then a.eval else b.eval

/-- `(unsigned int) (_cpu) * (uintptr_t) _stride` (287-288): the tokens `cpu *` in front of those of the stride. -/
def Expr.times (cpu : BitVec w) (e : Expr w) : Expr w := ⟨cpu, (.mul, e.first) :: e.rest⟩

def Arg.times (cpu : BitVec w) : Arg w → Arg w
  | .plain e => .plain (e.times cpu)
  | .cond c a b => .cond (c.times cpu) a b

/-- `rseq_percpu_ptr(_ptr, _cpu, _stride)` (285-288). -/
def percpuPtrMacro (ptr cpu : BitVec w) (stride : Arg w) : BitVec w := ptr + (stride.times cpu).eval

/-- `(void *) _ptr` (259-260) for the argument `p + n` with `p` a pointer to objects of `size` bytes: the cast is of `p`, and
arithmetic on `void *` counts bytes. -/
def freeMacro (p n _size : BitVec w) : BitVec w := p + n

/-- The argument as the caller means it. -/
def pointerArg (p n size : BitVec w) : BitVec w := p + n * size

/-- Neither `+` nor a conditional outside parentheses. -/
def Arg.NoSum : Arg w → Prop
  | .plain e => ∀ x ∈ e.rest, x.1 ≠ .add
  | .cond .. => False

theorem shl_mul (c a n : BitVec w) : (c * a) <<< n = c * (a <<< n) := by
  show (c * a) <<< n.toNat = c * (a <<< n.toNat)
  rw [BitVec.shiftLeft_eq_mul_twoPow, BitVec.shiftLeft_eq_mul_twoPow, BitVec.mul_assoc]

/-- Once a `<<` was read, the factor in front of its left operand stays in front. -/
theorem run_after (cpu : BitVec w) (l : List (Op × BitVec w)) : ∀ a b : Acc w, (∀ x, b.sh x = cpu * a.sh x) → b.sum = a.sum →
    b.prod = a.prod → (b.run l).value = cpu * (a.run l).value := by
  induction l with
  | nil =>
    intro a b h1 h2 h3
    show b.sh (b.sum + b.prod) = cpu * a.sh (a.sum + a.prod)
    rw [h1, h2, h3]
  | cons x l ih =>
    intro a b h1 h2 h3
    show ((b.step x).run l).value = cpu * ((a.step x).run l).value
    obtain ⟨o, v⟩ := x
    cases o with
    | mul => exact ih _ _ h1 h2 (by show b.prod * v = a.prod * v; rw [h3])
    | add => exact ih _ _ h1 (by show b.sum + b.prod = a.sum + a.prod; rw [h2, h3]) rfl
    | shl =>
      refine ih _ _ (fun n => ?_) rfl rfl
      show (b.sh (b.sum + b.prod)) <<< n = cpu * (a.sh (a.sum + a.prod) <<< n)
      rw [h1, h2, h3, shl_mul]

theorem run_nosum (cpu : BitVec w) (l : List (Op × BitVec w)) (hl : ∀ x ∈ l, x.1 ≠ .add) : ∀ v : BitVec w,
    (Acc.run ⟨id, 0#w, cpu * v⟩ l).value = cpu * (Acc.run ⟨id, 0#w, v⟩ l).value := by
  induction l with
  | nil =>
    intro v
    show 0#w + cpu * v = cpu * (0#w + v)
    rw [BitVec.zero_add, BitVec.zero_add]
  | cons x l ih =>
    intro v
    have hl' : ∀ x ∈ l, x.1 ≠ .add := fun x hx => hl x (List.mem_cons_of_mem _ hx)
    obtain ⟨o, u⟩ := x
    cases o with
    | mul =>
      show (Acc.run ⟨id, 0#w, cpu * v * u⟩ l).value = cpu * (Acc.run ⟨id, 0#w, v * u⟩ l).value
      rw [BitVec.mul_assoc]
      exact ih hl' _
    | add => exact absurd rfl (hl _ (List.mem_cons_self ..))
    | shl =>
      refine run_after cpu l _ _ (fun n => ?_) rfl rfl
      show (0#w + cpu * v) <<< n = cpu * ((0#w + v) <<< n)
      rw [BitVec.zero_add, BitVec.zero_add, shl_mul]

theorem run_sum (l : List (Op × BitVec w)) (hl : ∀ x ∈ l, x.1 ≠ .shl) : ∀ s p d : BitVec w,
    (Acc.run ⟨id, s + d, p⟩ l).value = (Acc.run ⟨id, s, p⟩ l).value + d := by
  induction l with
  | nil =>
    intro s p d
    show s + d + p = s + p + d
    rw [BitVec.add_assoc, BitVec.add_comm d, BitVec.add_assoc]
  | cons x l ih =>
    intro s p d
    have hl' : ∀ x ∈ l, x.1 ≠ .shl := fun x hx => hl x (List.mem_cons_of_mem _ hx)
    obtain ⟨o, u⟩ := x
    cases o with
    | mul => exact ih hl' s (p * u) d
    | add =>
      show (Acc.run ⟨id, s + d + p, u⟩ l).value = (Acc.run ⟨id, s + p, u⟩ l).value + d
      rw [BitVec.add_assoc, BitVec.add_comm d, ← BitVec.add_assoc]
      exact ih hl' (s + p) u d
    | shl => exact absurd rfl (hl _ (List.mem_cons_self ..))

end Verif.MacroArgs
