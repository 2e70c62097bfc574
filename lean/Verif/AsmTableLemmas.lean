import Verif.AsmTable
import Verif.AsmTableSpec
/-
Lemmas about the assembler model of `AsmTable.lean`.
-/

namespace Verif.Asm

open Verif.Rseq (Arch Byte pos)
open Verif.KernelCs (rd)

/-! ### Numbers in memory -/

theorem rd_le (mem : Nat → Byte) (a v : Nat) : ∀ k : Nat,
    (∀ i, i < k → mem (a + i) = BitVec.ofNat 8 (v / 256 ^ i)) → rd false mem a k = v % 256 ^ k := by
  intro k
  induction k with
  | zero => intro _; simp [rd, Nat.mod_one]
  | succ k ih =>
    intro h
    rw [Nat.mod_pow_succ]
    simp only [rd, Bool.false_eq_true, if_false]
    rw [ih (fun i hi => h i (by omega)), h k (by omega)]
    simp [BitVec.toNat_ofNat, Nat.mul_comm]

theorem rd_be (mem : Nat → Byte) (a : Nat) : ∀ (k v : Nat),
    (∀ i, i < k → mem (a + i) = BitVec.ofNat 8 (v / 256 ^ (k - 1 - i))) → rd true mem a k = v % 256 ^ k := by
  intro k
  induction k with
  | zero => intro v _; simp [rd, Nat.mod_one]
  | succ k ih =>
    intro v h
    simp only [rd, if_true]
    rw [ih (v / 256), h k (by omega)]
    · simp only [BitVec.toNat_ofNat, Nat.add_sub_cancel, Nat.sub_self, Nat.pow_zero, Nat.div_one]
      have e : v % 256 ^ (k + 1) = v % 256 + 256 * (v / 256 % 256 ^ k) := by
        rw [Nat.pow_succ, Nat.mul_comm (256 ^ k) 256, Nat.mod_mul]
      rw [e]
      simp only [Nat.reducePow]
      omega
    · intro i hi
      rw [h i (by omega), Nat.div_div_eq_div_mul]
      have : k + 1 - 1 - i = (k - 1 - i) + 1 := by omega
      rw [this, Nat.pow_succ, Nat.mul_comm]

theorem rd_of (be : Bool) (mem : Nat → Byte) (a k v : Nat)
    (h : ∀ i, i < k → mem (a + i) = BitVec.ofNat 8 (v / 256 ^ pos be k i)) :
    rd be mem a k = v % 256 ^ k := by
  cases be
  · exact rd_le mem a v k (fun i hi => by simpa [pos] using h i hi)
  · exact rd_be mem a k v (fun i hi => by simpa [pos] using h i hi)

theorem rd_bytes (be : Bool) (mem : Nat → Byte) (a k v : Nat)
    (h : ∀ i (hi : i < (bytes be k v).length), mem (a + i) = (bytes be k v)[i]) :
    rd be mem a k = v % 256 ^ k := by
  refine rd_of be mem a k v fun i hi => ?_
  rw [h i (by simpa [bytes] using hi)]
  simp [bytes]

theorem rd_split (be : Bool) (mem : Nat → Byte) (a : Nat) :
    rd be mem a 8 = if be then rd be mem a 4 * 256 ^ 4 + rd be mem (a + 4) 4
      else rd be mem a 4 + rd be mem (a + 4) 4 * 256 ^ 4 := by
  cases be <;> simp [rd, Nat.add_assoc] <;> omega

theorem rd_congr (be : Bool) (m1 m2 : Nat → Byte) (a : Nat) : ∀ k : Nat,
    (∀ i, i < k → m1 (a + i) = m2 (a + i)) → rd be m1 a k = rd be m2 a k := by
  intro k
  induction k with
  | zero => intro _; rfl
  | succ k ih =>
    intro h
    simp only [rd]
    rw [ih (fun i hi => h i (by omega)), h k (by omega)]

theorem rd_lt (be : Bool) (m : Nat → Byte) (a : Nat) : ∀ k : Nat, rd be m a k < 256 ^ k := by
  intro k
  induction k with
  | zero => simp [rd]
  | succ k ih =>
    have hb := (m (a + k)).isLt
    simp only [rd]
    rw [Nat.pow_succ]
    split
    · omega
    · have : (m (a + k)).toNat * 256 ^ k ≤ 255 * 256 ^ k := Nat.mul_le_mul_right _ (by omega)
      omega

theorem rd_put (be : Bool) (mem : Nat → Byte) (a k v : Nat) : rd be (put be mem a k v) a k = v % 256 ^ k := by
  refine rd_of be _ a k v fun i hi => ?_
  simp [put, hi]

/-- The kernel's 64-bit view of the field after a pointer-sized store. -/
theorem rd_storeCs {c : Cfg} (hv : c.valid = true) (mem : Nat → Byte) (area v : Nat) (hx : v < 256 ^ c.w)
    (hz : rd c.be mem (area + 8) 8 < 256 ^ c.w) : rd c.be (storeCs c mem area v) (area + 8) 8 = v := by
  obtain ⟨arch, be, w, isa⟩ := c
  have hw : (w = 8 ∧ ptrOffset ⟨arch, be, w, isa⟩ = 8) ∨
      (w = 4 ∧ be = true ∧ ptrOffset ⟨arch, be, w, isa⟩ = 12) ∨
      (w = 4 ∧ be = false ∧ ptrOffset ⟨arch, be, w, isa⟩ = 8) := by
    cases arch <;> cases be <;> simp [Cfg.valid, ptrOffset] at hv ⊢ <;> grind
  simp only at hx hz ⊢
  simp only [storeCs]
  rcases hw with ⟨rfl, ho⟩ | ⟨rfl, rfl, ho⟩ | ⟨rfl, rfl, ho⟩ <;> rw [ho]
  · rw [rd_put]; exact Nat.mod_eq_of_lt hx
  · rw [rd_split] at hz ⊢
    simp only [if_true] at hz ⊢
    have h0 : rd true mem (area + 8) 4 = 0 := by
      simp only [Nat.reducePow] at hz
      omega
    have h1 : rd true (put true mem (area + 12) 4 v) (area + 8) 4 = rd true mem (area + 8) 4 :=
      rd_congr _ _ _ _ 4 (fun i hi => by
        simp only [put]; rw [if_neg]; omega)
    rw [h1, h0, Nat.zero_mul, Nat.zero_add, show area + 8 + 4 = area + 12 by omega, rd_put]
    exact Nat.mod_eq_of_lt hx
  · rw [rd_split] at hz ⊢
    simp only [Bool.false_eq_true, if_false] at hz ⊢
    have h0 : rd false mem (area + 8 + 4) 4 = 0 := by
      simp only [Nat.reducePow] at hz
      omega
    have h1 : rd false (put false mem (area + 8) 4 v) (area + 8 + 4) 4 = rd false mem (area + 8 + 4) 4 :=
      rd_congr _ _ _ _ 4 (fun i hi => by
        simp only [put]; rw [if_neg]; omega)
    rw [h1, h0, Nat.zero_mul, Nat.add_zero, rd_put]
    exact Nat.mod_eq_of_lt hx

/-! ### Placement -/

variable {sz : Nat → Nat}

theorem place_append (s : St) (l1 l2 : List Item) :
    place sz s (l1 ++ l2) = place sz s l1 ++ place sz (run sz s l1) l2 := by
  induction l1 generalizing s with
  | nil => rfl
  | cons a r ih => simp [place, run, ih]

theorem run_append (s : St) (l1 l2 : List Item) : run sz s (l1 ++ l2) = run sz (run sz s l1) l2 := by
  simp [run]

@[simp] theorem run_nil (s : St) : run sz s [] = s := rfl
@[simp] theorem run_cons (s : St) (a : Item) (l : List Item) :
    run sz s (a :: l) = run sz (step sz s a) l := rfl

/-- Address at which the next item goes. -/
def addr (sz : Nat → Nat) (s : St) (l : List Item) : Nat := (run sz s l).loc (run sz s l).cur

/-- No label `n` among the items. -/
def NoL (n : Nat) (l : List Item) : Prop := ∀ it ∈ l, it ≠ .lbl n

theorem firstL_skip (n : Nat) (l r : List Placed) (h : ∀ p ∈ l, p.item ≠ .lbl n) :
    firstL n (l ++ r) = firstL n r := by
  induction l with
  | nil => rfl
  | cons a t ih =>
    simp only [List.cons_append, firstL]
    rw [if_neg (h a (by simp)), ih (fun p hp => h p (by simp [hp]))]

theorem place_mem (s : St) (l : List Item) {p : Placed} (h : p ∈ place sz s l) : p.item ∈ l := by
  induction l generalizing s with
  | nil => simp [place] at h
  | cons a r ih =>
    simp only [place, List.mem_cons] at h
    rcases h with h | h
    · simp [h]
    · simp [ih _ h]

theorem NoL.place {n : Nat} {l : List Item} (h : NoL n l) (s : St) :
    ∀ p ∈ place sz s l, p.item ≠ .lbl n := fun _ hp => h _ (place_mem s l hp)

theorem NoL.place_rev {n : Nat} {l : List Item} (h : NoL n l) (s : St) :
    ∀ p ∈ (Asm.place sz s l).reverse, p.item ≠ .lbl n :=
  fun _ hp => h _ (place_mem s l (List.mem_reverse.mp hp))

theorem firstL_place {n : Nat} {l1 : List Item} (h : NoL n l1) (s : St) (l2 : List Item) :
    firstL n (place sz s (l1 ++ .lbl n :: l2)) = some (addr sz s l1) := by
  rw [place_append, firstL_skip n _ _ (h.place s)]
  simp [place, firstL, addr]

theorem firstL_place_rev {n : Nat} {l2 : List Item} (h : NoL n l2) (s : St) (l1 : List Item) :
    firstL n (place sz s (l1 ++ .lbl n :: l2)).reverse = some (addr sz s l1) := by
  rw [place_append, List.reverse_append]
  simp only [place, List.reverse_cons, List.append_assoc]
  rw [firstL_skip n _ _ (h.place_rev _)]
  simp [firstL, addr]

/-- What `Loaded` says about one item of the source. -/
theorem loaded_at {be : Bool} {mem : Nat → Byte} {s : St} {l1 l2 : List Item} {it : Item}
    (h : Loaded be mem (place sz s (l1 ++ it :: l2))) :
    ∃ bs, encode be (place sz s l1) (place sz (run sz s (l1 ++ [it])) l2) it = some bs ∧
      ∀ i (hi : i < bs.length), mem (addr sz s l1 + i) = bs[i] := by
  rw [place_append] at h
  have := h (place sz s l1) ⟨(run sz s l1).cur, addr sz s l1, it⟩
    (place sz (run sz s (l1 ++ [it])) l2) (by simp [place, addr, run_append])
  exact this

/-- Expressions mean the same at two places with the same labels around. -/
theorem value_ext {pre pre' post post' : List Placed} (h1 : ∀ n, firstL n pre.reverse = firstL n pre'.reverse)
    (h2 : ∀ n, firstL n post = firstL n post') (e : Expr) : value pre post e = value pre' post' e := by
  have hr : ∀ r, resolve pre post r = resolve pre' post' r := fun r => by simp [resolve, h1, h2]
  cases e <;> simp [value, hr]

/-- Items that are not labels. -/
def NotL (l : List Item) : Prop := ∀ n, NoL n l

theorem pre_ext {l : List Item} (h : NotL l) (s : St) (pre : List Placed) (n : Nat) :
    firstL n (pre ++ place sz s l).reverse = firstL n pre.reverse := by
  rw [List.reverse_append, firstL_skip n _ _ ((h n).place_rev s)]

theorem post_ext {l : List Item} (h : NotL l) (s : St) (post : List Placed) (n : Nat) :
    firstL n (place sz s l ++ post) = firstL n post := firstL_skip n _ _ ((h n).place s)

theorem addr_step_u32 (s : St) (l : List Item) (e : Expr) :
    addr sz s (l ++ [.u32 e]) = addr sz s l + 4 := by
  simp [addr, run_append, step, next, Loc.set]

theorem addr_step_u64 (s : St) (l : List Item) (e : Expr) :
    addr sz s (l ++ [.u64 e]) = addr sz s l + 8 := by
  simp [addr, run_append, step, next, Loc.set]

/-- A `.long` is read back. -/
theorem u32_read {be : Bool} {mem : Nat → Byte} {s : St} {l1 l2 : List Item} {e : Expr} {x : Nat}
    (h : Loaded be mem (place sz s (l1 ++ .u32 e :: l2)))
    (hv : value (place sz s l1) (place sz (run sz s (l1 ++ [.u32 e])) l2) e = some x) :
    rd be mem (addr sz s l1) 4 = x % 256 ^ 4 := by
  obtain ⟨bs, hb, hm⟩ := loaded_at h
  simp only [encode, hv, Option.map_some, Option.some.injEq] at hb
  subst hb
  exact rd_bytes be mem _ 4 x hm

theorem u64_read {be : Bool} {mem : Nat → Byte} {s : St} {l1 l2 : List Item} {e : Expr} {x : Nat}
    (h : Loaded be mem (place sz s (l1 ++ .u64 e :: l2)))
    (hv : value (place sz s l1) (place sz (run sz s (l1 ++ [.u64 e])) l2) e = some x) :
    rd be mem (addr sz s l1) 8 = x % 256 ^ 8 := by
  obtain ⟨bs, hb, hm⟩ := loaded_at h
  simp only [encode, hv, Option.map_some, Option.some.injEq] at hb
  subst hb
  exact rd_bytes be mem _ 8 x hm

theorem notL_u32 (e : Expr) : NotL [.u32 e] := by intro n it hit; simp at hit; simp [hit]
theorem notL_u64 (e : Expr) : NotL [.u64 e] := by intro n it hit; simp at hit; simp [hit]

/-- The three forms of `RSEQ_ASM_U64_PTR`. -/
theorem u64Ptr_forms {c : Cfg} (hv : c.valid = true) (e : Expr) :
    (u64Ptr c e = [.u64 e] ∧ 256 ^ c.w ≤ 256 ^ 8) ∨
    (u64Ptr c e = [.u32 (.lit 0), .u32 e] ∧ c.be = true ∧ c.w = 4) ∨
    (u64Ptr c e = [.u32 e, .u32 (.lit 0)] ∧ c.be = false ∧ c.w = 4) := by
  obtain ⟨arch, be, w, isa⟩ := c
  cases arch <;> cases be <;> simp [Cfg.valid, u64Ptr] at hv ⊢ <;> grind

theorem notL_u64Ptr {c : Cfg} (e : Expr) : NotL (u64Ptr c e) := by
  intro n it hit
  obtain ⟨arch, be, w, isa⟩ := c
  cases arch <;> simp only [u64Ptr] at hit <;> grind

theorem addr_u64Ptr {c : Cfg} (hv : c.valid = true) (s : St) (l : List Item) (e : Expr) :
    addr sz s (l ++ u64Ptr c e) = addr sz s l + 8 := by
  rcases u64Ptr_forms hv e with ⟨h, _⟩ | ⟨h, _⟩ | ⟨h, _⟩ <;> rw [h] <;>
    simp [addr, run_append, step, next, Loc.set]

/-- A pointer stored by `RSEQ_ASM_U64_PTR` is read back by the kernel as a 64-bit number. -/
theorem u64Ptr_read {c : Cfg} (hc : c.valid = true) {mem : Nat → Byte} {s : St} {l1 l2 : List Item}
    {e : Expr} {x : Nat} (h : Loaded c.be mem (place sz s (l1 ++ (u64Ptr c e ++ l2))))
    (hv : value (place sz s l1) (place sz (run sz s (l1 ++ u64Ptr c e)) l2) e = some x)
    (hx : x < 256 ^ c.w) : rd c.be mem (addr sz s l1) 8 = x := by
  rcases u64Ptr_forms hc e with ⟨hf, hw⟩ | ⟨hf, hbe, hw⟩ | ⟨hf, hbe, hw⟩ <;> rw [hf] at h hv
  · rw [u64_read h hv]
    exact Nat.mod_eq_of_lt (by omega)
  · have h2 : Loaded c.be mem (place sz s ((l1 ++ [.u32 (.lit 0)]) ++ .u32 e :: l2)) := by simpa using h
    have r1 := u32_read (x := 0) (l2 := .u32 e :: l2) (e := .lit 0) h rfl
    have r2 := u32_read (x := x) h2 (by
      rw [← hv]
      refine value_ext (fun n => ?_) (fun n => ?_) e
      · rw [place_append]; exact pre_ext (notL_u32 _) _ _ n
      · simp)
    rw [addr_step_u32] at r2
    rw [hw] at hx
    rw [rd_split, hbe, if_pos rfl, ← hbe, r1, r2]
    simp only [Nat.reducePow] at hx ⊢
    omega
  · have h2 : Loaded c.be mem (place sz s ((l1 ++ [.u32 e]) ++ .u32 (.lit 0) :: l2)) := by simpa using h
    have r1 := u32_read (x := x) (l2 := .u32 (.lit 0) :: l2) h (by
      rw [← hv]
      refine value_ext (fun n => rfl) (fun n => ?_) e
      have : (.u32 (.lit 0) :: l2 : List Item) = [.u32 (.lit 0)] ++ l2 := rfl
      rw [this, place_append, post_ext (notL_u32 _)]
      simp [run_append])
    have r2 := u32_read (x := 0) h2 rfl
    rw [addr_step_u32] at r2
    rw [hw] at hx
    rw [rd_split, hbe, if_neg (by simp), ← hbe, r1, r2]
    simp only [Nat.reducePow] at hx ⊢
    omega

/-- The descriptor fields are read back. -/
theorem csFields_read {c : Cfg} (hc : c.valid = true) {mem : Nat → Byte} {s : St} {l1 l2 : List Item}
    {e1 e2 e3 : Expr} {x1 x2 x3 : Nat}
    (h : Loaded c.be mem (place sz s (l1 ++ (csFields c 0 0 e1 e2 e3 ++ l2))))
    (hv1 : value (place sz s l1) (place sz (run sz s (l1 ++ csFields c 0 0 e1 e2 e3)) l2) e1 = some x1)
    (hv2 : value (place sz s l1) (place sz (run sz s (l1 ++ csFields c 0 0 e1 e2 e3)) l2) e2 = some x2)
    (hv3 : value (place sz s l1) (place sz (run sz s (l1 ++ csFields c 0 0 e1 e2 e3)) l2) e3 = some x3)
    (hx1 : x1 < 256 ^ c.w) (hx2 : x2 < 256 ^ c.w) (hx3 : x3 < 256 ^ c.w) :
    rd c.be mem (addr sz s l1) 4 = 0 ∧ rd c.be mem (addr sz s l1 + 4) 4 = 0 ∧
    rd c.be mem (addr sz s l1 + 8) 8 = x1 ∧ rd c.be mem (addr sz s l1 + 16) 8 = x2 ∧
    rd c.be mem (addr sz s l1 + 24) 8 = x3 := by
  have key : ∀ (m1 m2 : List Item) (e : Expr) (x : Nat), NotL m1 → NotL m2 →
      csFields c 0 0 e1 e2 e3 = m1 ++ (u64Ptr c e ++ m2) →
      value (place sz s l1) (place sz (run sz s (l1 ++ csFields c 0 0 e1 e2 e3)) l2) e = some x →
      x < 256 ^ c.w → rd c.be mem (addr sz s (l1 ++ m1)) 8 = x := by
    intro m1 m2 e x n1 n2 hs hv hx
    refine u64Ptr_read hc (l1 := l1 ++ m1) (l2 := m2 ++ l2) (e := e) (by rw [hs] at h; simpa using h) ?_ hx
    rw [← hv]
    refine value_ext (fun n => ?_) (fun n => ?_) e
    · rw [place_append]; exact pre_ext n1 _ _ n
    · rw [place_append, post_ext n2, hs]; simp [run_append]
  have n4 : NotL [.u32 (.lit 0), .u32 (.lit 0)] := by intro n it hit; simp at hit; simp [hit]
  have napp : ∀ {a b : List Item}, NotL a → NotL b → NotL (a ++ b) := by
    intro a b ha hb n it hit
    rcases List.mem_append.mp hit with h | h
    · exact ha n it h
    · exact hb n it h
  have r1 := u32_read (x := 0) (e := .lit 0)
    (l2 := .u32 (.lit 0) :: (u64Ptr c e1 ++ u64Ptr c e2 ++ u64Ptr c e3 ++ l2)) (l1 := l1) (be := c.be) (mem := mem)
    (by simpa [csFields] using h) rfl
  have r2 := u32_read (x := 0) (e := .lit 0)
    (l2 := (u64Ptr c e1 ++ u64Ptr c e2 ++ u64Ptr c e3 ++ l2)) (l1 := l1 ++ [.u32 (.lit 0)]) (be := c.be) (mem := mem)
    (by simpa [csFields] using h) rfl
  have a8 : addr sz s (l1 ++ [.u32 (.lit 0), .u32 (.lit 0)]) = addr sz s l1 + 8 := by
    have : l1 ++ [.u32 (.lit 0), .u32 (.lit 0)] = (l1 ++ [.u32 (.lit 0)]) ++ [.u32 (.lit 0)] := by simp
    rw [this, addr_step_u32, addr_step_u32]
  have r3 := key [.u32 (.lit 0), .u32 (.lit 0)] (u64Ptr c e2 ++ u64Ptr c e3) e1 x1 n4
    (napp (notL_u64Ptr _) (notL_u64Ptr _)) (by simp [csFields]) hv1 hx1
  have r4 := key ([.u32 (.lit 0), .u32 (.lit 0)] ++ u64Ptr c e1) (u64Ptr c e3) e2 x2
    (napp n4 (notL_u64Ptr _)) (notL_u64Ptr _) (by simp [csFields]) hv2 hx2
  have r5 := key ([.u32 (.lit 0), .u32 (.lit 0)] ++ u64Ptr c e1 ++ u64Ptr c e2) [] e3 x3
    (napp (napp n4 (notL_u64Ptr _)) (notL_u64Ptr _)) (by intro n it hit; simp at hit) (by simp [csFields]) hv3 hx3
  rw [a8] at r3
  rw [← List.append_assoc, addr_u64Ptr hc, a8] at r4
  rw [← List.append_assoc, addr_u64Ptr hc, ← List.append_assoc, addr_u64Ptr hc, a8] at r5
  rw [addr_step_u32] at r2
  exact ⟨by simpa using r1, by simpa using r2, r3, by simpa using r4, by simpa using r5⟩

end Verif.Asm
