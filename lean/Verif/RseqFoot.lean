import Verif.RseqExec
/-
Which addresses a helper touches, stated from its arguments, and a way to check it for a program.
-/

namespace Verif.Rseq

variable {n : Nat}

/-- Address `x` is one of the `len` bytes at `a`. -/
def InRange (a len x : W n) : Prop := (x - a).toNat < len.toNat

/-- The addresses a call may read or write, given the memory it runs on. -/
def opFoot (be : Bool) (op : Op n) (m : Mem n) (x : W n) : Prop :=
  match op with
  | .cbneStore v _ _ => InWord v x
  | .addStore v _ => InWord v x
  | .cbeqStoreAddLoadStore v _ voffp load =>
      InWord v x ∨ InWord load x ∨ InWord (ldw be m v + voffp) x
  | .addLoadLoadAddStore ptr off _ =>
      InWord ptr x ∨ InWord (ldw be m ptr + off) x ∨ InWord (ldw be m (ldw be m ptr + off)) x
  | .cbneCbneStore v _ v2 _ _ => InWord v x ∨ InWord v2 x
  | .cbneStoreStore v _ v2 _ _ => InWord v x ∨ InWord v2 x
  | .cbneMemcpyStore v _ dst src len _ => InWord v x ∨ InRange src len x ∨ InRange dst len x

/-- The addresses a call may write before it commits. -/
def targets (op : Op n) (x : W n) : Prop :=
  match op with
  | .cbeqStoreAddLoadStore _ _ _ load => InWord load x
  | .cbneStoreStore _ _ v2 _ _ => InWord v2 x
  | .cbneMemcpyStore _ _ dst _ len _ => InRange dst len x
  | _ => False

/-- The attempt stores of the call do not overlap the variable that was compared. -/
def Tidy (op : Op n) : Prop :=
  match op with
  | .cbeqStoreAddLoadStore v _ _ load => ∀ x, InWord load x → ¬ InWord v x
  | .cbneStoreStore v _ v2 _ _ => ∀ x, InWord v2 x → ¬ InWord v x
  | .cbneMemcpyStore v _ dst _ len _ => ∀ x, InRange dst len x → ¬ InWord v x
  | _ => True

/-- The next instruction touches only addresses of the call; if it is not the final store it writes only
attempt targets and nothing in `F`. -/
def SOK (p : Prog n) (op : Op n) (m : Mem n) (l : LSt n) (F : W n → Prop) : Prop :=
  match l.pc with
  | .ret _ => True
  | .at i =>
    match p.code[i]? with
    | none => True
    | some ins => (∀ x, touched ins l x → opFoot p.be op m x) ∧
        (i + 1 = p.commit ∨ ∀ x, stores ins l x → targets op x ∧ ¬ F x)

/-- Addresses touched by the next instruction. -/
def ctouch (p : Prog n) (l : LSt n) (x : W n) : Prop :=
  match l.pc with
  | .ret _ => False
  | .at i =>
    match p.code[i]? with
    | none => False
    | some ins => touched ins l x

/-- Step on a constant memory. -/
def cnext (p : Prog n) (fv : BitVec 32) (m : Mem n) (s : LSt n × (W n → Prop)) :
    LSt n × (W n → Prop) :=
  ((step p fv (s.1, m)).1, fun x => ctouch p s.1 x ∨ s.2 x)

/-- `k` such steps. -/
def cit (p : Prog n) (fv : BitVec 32) (m : Mem n) : Nat → LSt n × (W n → Prop) → LSt n × (W n → Prop)
  | 0, s => s
  | k + 1, s => cit p fv m k (cnext p fv m s)

/-- The next `k` steps are fine. -/
def OKr (p : Prog n) (fv : BitVec 32) (op : Op n) (m : Mem n) : Nat → LSt n × (W n → Prop) → Prop
  | 0, _ => True
  | k + 1, s => SOK p op m s.1 s.2 ∧ OKr p fv op m k (cnext p fv m s)

/-- The next `k` steps are fine and then the helper has returned. -/
def OKs (p : Prog n) (fv : BitVec 32) (op : Op n) (m : Mem n) : Nat → LSt n × (W n → Prop) → Prop
  | 0, s => ∃ r, s.1.pc = .ret r
  | k + 1, s => SOK p op m s.1 s.2 ∧ OKs p fv op m k (cnext p fv m s)

/-- The property of a program: every step of every replay is fine. -/
def FootOK (p : Prog n) (clob : List Nat) (sx : Bool) (al : Opnd → Nat) (op : Op n) : Prop :=
  ∀ (cpu fv : BitVec 32) (l : LSt n) (m : Mem n), Setup clob sx al op cpu l →
    ∀ j, SOK p op m (cit p fv m j (l, fun _ => False)).1 (cit p fv m j (l, fun _ => False)).2

theorem cit_add (p : Prog n) (fv : BitVec 32) (m : Mem n) (j k : Nat) (s : LSt n × (W n → Prop)) :
    cit p fv m (j + k) s = cit p fv m k (cit p fv m j s) := by
  induction j generalizing s with
  | zero => simp [cit]
  | succ j ih => rw [Nat.succ_add]; simp only [cit]; exact ih _

theorem OKs.all {p : Prog n} {fv : BitVec 32} {op : Op n} {m : Mem n} {k : Nat}
    {s : LSt n × (W n → Prop)} (h : OKs p fv op m k s) (j : Nat) :
    SOK p op m (cit p fv m j s).1 (cit p fv m j s).2 := by
  induction k generalizing s j with
  | zero =>
    obtain ⟨r, hr⟩ := h
    have : ∀ j s, s.1.pc = .ret r → (cit p fv m j s).1.pc = .ret r := by
      intro j
      induction j with
      | zero => intro s h; exact h
      | succ j ih =>
        intro s h
        simp only [cit]
        apply ih
        simp only [cnext, step, h]
    unfold SOK
    rw [this j s hr]
    trivial
  | succ k ih =>
    cases j with
    | zero => exact h.1
    | succ j => exact ih h.2 j

theorem OKr.append {p : Prog n} {fv : BitVec 32} {op : Op n} {m : Mem n} {j k : Nat}
    {s : LSt n × (W n → Prop)} (h : OKr p fv op m j s) (h2 : OKr p fv op m k (cit p fv m j s)) :
    OKr p fv op m (j + k) s := by
  induction j generalizing s with
  | zero => simpa [cit] using h2
  | succ j ih => rw [Nat.succ_add]; exact ⟨h.1, ih h.2 h2⟩

theorem OKr.finish {p : Prog n} {fv : BitVec 32} {op : Op n} {m : Mem n} {j k : Nat}
    {s : LSt n × (W n → Prop)} (h : OKr p fv op m j s) (h2 : OKs p fv op m k (cit p fv m j s)) :
    OKs p fv op m (j + k) s := by
  induction j generalizing s with
  | zero => simpa [cit] using h2
  | succ j ih => rw [Nat.succ_add]; exact ⟨h.1, ih h.2 h2⟩

/-- Induction over loop iterations. -/
theorem loopF (p : Prog n) (fv : BitVec 32) (op : Op n) (m : Mem n)
    (I : Nat → LSt n × (W n → Prop) → Prop) (L : Nat)
    (body : ∀ j s, j < L → I j s → ∃ k, OKr p fv op m k s ∧ I (j + 1) (cit p fv m k s))
    (s : LSt n × (W n → Prop)) (h : ∃ k, OKr p fv op m k s ∧ I 0 (cit p fv m k s)) :
    ∃ k, OKr p fv op m k s ∧ I L (cit p fv m k s) := by
  have : ∀ j, j ≤ L → ∃ k, OKr p fv op m k s ∧ I j (cit p fv m k s) := by
    intro j
    induction j with
    | zero => intro _; exact h
    | succ j ih =>
      intro hj
      obtain ⟨k, hk, hk2⟩ := ih (by omega)
      obtain ⟨k', hk', hk2'⟩ := body j _ (by omega) hk2
      exact ⟨k + k', hk.append hk', by rw [cit_add]; exact hk2'⟩
  exact this L (Nat.le_refl _)

/-- Replays are runs on constant memory. -/
theorem Rep.cit {p : Prog n} {fv : BitVec 32} {m : Mem n} {l0 l : LSt n} {F : W n → Prop}
    (h : Rep p fv m l0 l F) : ∃ j, cit p fv m j (l0, fun _ => False) = (l, F) := by
  induction h with
  | refl => exact ⟨0, rfl⟩
  | @step l l' F i ins hr hp hc he ih =>
    obtain ⟨j, hj⟩ := ih
    refine ⟨j + 1, ?_⟩
    rw [cit_add, hj]
    simp only [Rseq.cit, cnext, Rseq.step, ctouch, hp, hc, he]

theorem FootOK.rep {p : Prog n} {clob : List Nat} {sx : Bool} {al : Opnd → Nat} {op : Op n}
    (hf : FootOK p clob sx al op) {cpu fv : BitVec 32} {m : Mem n} {l0 l : LSt n} {F : W n → Prop}
    (hs : Setup clob sx al op cpu l0) (h : Rep p fv m l0 l F) : SOK p op m l F := by
  obtain ⟨j, hj⟩ := h.cit
  have := hf cpu fv l0 m hs j
  rw [hj] at this
  exact this

/-- State at the head of a forward copy loop after `j` bytes, with the addresses touched so far. -/
structure LoopF (pl pe rs rd rl : Nat) (tmp : List Nat) (R0 sl : Nat → W n)
    (bs bd v src dst len : W n) (j : Nat) (s : LSt n × (W n → Prop)) : Prop where
  pc : s.1.pc = if j < len.toNat then .at pl else .at pe
  hs : s.1.regs rs = bs + BitVec.ofNat (8 * n) j
  hd : s.1.regs rd = bd + BitVec.ofNat (8 * n) j
  hl : s.1.regs rl = len - BitVec.ofNat (8 * n) j
  others : ∀ x, x ≠ rs → x ≠ rd → x ≠ rl → x ∉ tmp → s.1.regs x = R0 x
  slots : s.1.slots = sl
  foot : ∀ x, s.2 x → InWord v x ∨ InRange src len x ∨ (x - dst).toNat < j

/-- The same for the backward loop of aarch64. -/
structure LoopFB (pl pe : Nat) (R0 sl : Nat → W n)
    (v src dst len : W n) (j : Nat) (s : LSt n × (W n → Prop)) : Prop where
  pc : s.1.pc = if j < len.toNat then .at pl else .at pe
  hk : s.1.regs 14 = BitVec.ofNat (8 * n) (len.toNat - j)
  others : ∀ x, x ≠ 14 → x ≠ 15 → s.1.regs x = R0 x
  slots : s.1.slots = sl
  foot : ∀ x, s.2 x → InWord v x ∨ InRange src len x ∨
    (len.toNat - j ≤ (x - dst).toNat ∧ (x - dst).toNat < len.toNat)

theorem inRange_add (a len : W n) (j : Nat) (hj : j < len.toNat) :
    InRange a len (a + BitVec.ofNat (8 * n) j) ∧ (a + BitVec.ofNat (8 * n) j - a).toNat = j := by
  unfold InRange
  rw [add_sub_cancel_w, ofNat_toNat_lt len j hj]
  exact ⟨hj, rfl⟩

theorem dst_not_src {dst src len : W n} (hno : NoOverlap dst src len) {j : Nat} (hj : j < len.toNat) :
    ¬ InRange src len (dst + BitVec.ofNat (8 * n) j) ∧
    dst + BitVec.ofNat (8 * n) j ≠ src + BitVec.ofNat (8 * n) j := by
  refine ⟨?_, fun h => hno j j hj hj h.symm⟩
  intro h
  have := sub_eq_ofNat (a := dst + BitVec.ofNat (8 * n) j) (d := src) rfl
  exact hno _ j h hj this.symm

attribute [rrun] OKs OKr SOK ctouch cnext cit touched stores targets opFoot

end Verif.Rseq
