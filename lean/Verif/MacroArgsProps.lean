import Verif.MacroArgs
/-
C116: the expression given as stride of `rseq_percpu_ptr` (F31).
-/
namespace Verif.MacroArgs

variable {w : Nat}

/-- Missing: strides with a sum or a conditional outside parentheses, for which it is false (`stride_sum_iff`,
`stride_cond_same`).  Every product and shift is right. -/
theorem stride_expr_partial (ptr cpu : BitVec w) (a : Arg w) (h : a.NoSum) :
    percpuPtrMacro ptr cpu a = ptr + cpu * a.eval := by
  cases a with
  | plain e =>
    show ptr + (Acc.run ⟨id, 0#w, cpu * e.first⟩ e.rest).value = _
    rw [run_nosum cpu e.rest h]
    rfl
  | cond c a b => exact h.elim

/-- `2 * 4096 << 3`: 65536 per CPU. -/
example : (Arg.plain ⟨2#64, [(.mul, 4096#64), (.shl, 3#64)]⟩).NoSum ∧
    percpuPtrMacro 0x100000#64 5#64 (.plain ⟨2#64, [(.mul, 4096#64), (.shl, 3#64)]⟩) = 0x150000#64 := by
  refine ⟨?_, by decide⟩
  show ∀ x ∈ [(Op.mul, 4096#64), (Op.shl, 3#64)], x.1 ≠ .add
  decide

/-- A stride `x + rest`, without shifts, gives the intended pointer exactly where the rest, which is not multiplied with the
CPU number, equals its product with it (on CPU 1, say). -/
theorem stride_sum_iff (ptr cpu x y : BitVec w) (l : List (Op × BitVec w)) (hl : ∀ z ∈ l, z.1 ≠ .shl) :
    percpuPtrMacro ptr cpu (.plain ⟨x, (.add, y) :: l⟩) = ptr + cpu * (Arg.plain ⟨x, (.add, y) :: l⟩).eval ↔
      (Arg.plain ⟨y, l⟩).eval = cpu * (Arg.plain ⟨y, l⟩).eval := by
  have h1 : ∀ d : BitVec w, (Acc.run ⟨id, 0#w + d, y⟩ l).value = (Arg.plain ⟨y, l⟩).eval + d := fun d => run_sum l hl _ _ _
  have e1 : percpuPtrMacro ptr cpu (.plain ⟨x, (.add, y) :: l⟩) = ptr + ((Arg.plain ⟨y, l⟩).eval + cpu * x) := by
    show ptr + (Acc.run ⟨id, 0#w + cpu * x, y⟩ l).value = _
    rw [h1]
  have e2 : (Arg.plain ⟨x, (.add, y) :: l⟩).eval = (Arg.plain ⟨y, l⟩).eval + x := by
    show (Acc.run ⟨id, 0#w + x, y⟩ l).value = _
    rw [h1]
  rw [e1, e2, BitVec.mul_add, BitVec.add_right_inj, BitVec.add_left_inj]

/-- `4096 + 4096`: the pointer of CPU 0 is not the item. -/
example : (∀ z ∈ ([] : List (Op × BitVec 64)), z.1 ≠ .shl) ∧
    percpuPtrMacro 0x100000#64 0#64 (.plain ⟨4096#64, [(.add, 4096#64)]⟩) = 0x101000#64 := by
  refine ⟨?_, by decide⟩
  intro z h
  cases h

/-- For CPU 0, any sum whose second part is not zero gives a wrong pointer. -/
theorem stride_sum_cpu0 (ptr x y : BitVec w) (l : List (Op × BitVec w)) (hl : ∀ z ∈ l, z.1 ≠ .shl)
    (hy : (Arg.plain ⟨y, l⟩).eval ≠ 0#w) :
    percpuPtrMacro ptr 0#w (.plain ⟨x, (.add, y) :: l⟩) ≠ ptr + 0#w * (Arg.plain ⟨x, (.add, y) :: l⟩).eval := by
  intro h
  rw [stride_sum_iff ptr 0#w x y l hl, BitVec.zero_mul] at h
  exact hy h

example : (Arg.plain ⟨4096#64, [(.mul, 3#64)]⟩).eval ≠ 0#64 ∧ ∀ z ∈ [(Op.mul, 3#64)], z.1 ≠ .shl := by decide

/-- With a conditional stride whose condition is 1, all CPUs but the first get the same pointer, so that they share what should
be their own data. -/
theorem stride_cond_same (ptr cpu cpu' : BitVec w) (a b : Expr w) (h : cpu ≠ 0#w) (h' : cpu' ≠ 0#w) :
    percpuPtrMacro ptr cpu (.cond ⟨1#w, []⟩ a b) = percpuPtrMacro ptr cpu' (.cond ⟨1#w, []⟩ a b) := by
  have e : ∀ c : BitVec w, c ≠ 0#w → percpuPtrMacro ptr c (.cond ⟨1#w, []⟩ a b) = ptr + a.eval := by
    intro c hc
    show ptr + (if 0#w + c * 1#w ≠ 0#w then a.eval else b.eval) = _
    rw [BitVec.zero_add, BitVec.mul_one, if_pos hc]
  rw [e cpu h, e cpu' h']

/-- `big ? 65536 : 4096` with `big` = 1: the pointers of CPU 1 and CPU 2 are equal, and that of CPU 0 is not the item. -/
example : percpuPtrMacro 0x100000#64 1#64 (.cond ⟨1#64, []⟩ ⟨65536#64, []⟩ ⟨4096#64, []⟩) = 0x110000#64 ∧
    percpuPtrMacro 0x100000#64 2#64 (.cond ⟨1#64, []⟩ ⟨65536#64, []⟩ ⟨4096#64, []⟩) = 0x110000#64 ∧
    percpuPtrMacro 0x100000#64 0#64 (.cond ⟨1#64, []⟩ ⟨65536#64, []⟩ ⟨4096#64, []⟩) = 0x101000#64 := by decide

/-- `rseq_mempool_free(p + n)` frees what `p + n` points to exactly where counting bytes and counting objects agree. -/
theorem free_arg_iff (p n size : BitVec w) : freeMacro p n size = pointerArg p n size ↔ n = n * size := by
  show p + n = p + n * size ↔ _
  rw [BitVec.add_right_inj]

example : freeMacro 0x1000#64 1#64 16#64 = 0x1001#64 ∧ pointerArg 0x1000#64 1#64 16#64 = 0x1010#64 := by decide

end Verif.MacroArgs
