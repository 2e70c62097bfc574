import Verif.Mempool
import Verif.MemFrame
/-
Helper lemmas: what the item fill loops (zero, init, poison) do to memory.
-/
namespace Verif.Mempool
open Verif Verif.Mem

variable [Abi]

/-- The `n` bytes at `a` are `g 0 .. g (n-1)`. -/
def Holds (pg : Nat) (m : Mem) (a : Nat) (g : Nat → Byte) (n : Nat) : Prop :=
  ∀ j, j < n → m.read pg (a + j) = g j

/-- The byte pattern of a repeated word. -/
def pat (v : Word) (j : Nat) : Byte := wordByte v (j % wb)

omit [Abi] in
theorem Holds_writeBlock {pg : Nat} (hpg : 0 < pg) {m : Mem} (hwf : m.WF) {a : Nat} {f : Nat → Byte}
    {n : Nat} : Holds pg (m.writeBlock pg a f n) a f n := fun _ hj => (read_writeBlock_self hpg hwf hj).1

omit [Abi] in
theorem memEqual_iff {pg : Nat} {m : Mem} {p : Nat} {f : Nat → Byte} {n : Nat} :
    memEqual pg m p f n = true ↔ Holds pg m p f n := by
  induction n with
  | zero => simp [memEqual, Holds]
  | succ n ih =>
    unfold memEqual
    rw [Bool.and_eq_true, ih, beq_iff_eq]
    unfold Holds
    constructor
    · rintro ⟨h1, h2⟩ j hj
      by_cases h : j = n
      · subst h; exact h2
      · exact h1 j (by omega)
    · intro h
      exact ⟨fun j hj => h j (by omega), h n (by omega)⟩

theorem sub_eq_zero_iff {a b : Word} : a - b = 0#_ ↔ a = b := by
  constructor
  · intro h
    have : a - b + b = 0#_ + b := by rw [h]
    rwa [BitVec.sub_add_cancel, BitVec.zero_add] at this
  · rintro rfl; simp

theorem cmpLoop_eq_zero_iff {pg : Nat} {m : Mem} {p : Nat} {v : Word} {n off : Nat} :
    cmpLoop pg m p v n off = 0#_ ↔ ∀ i, i < n → m.readWord pg (p + (off + wb * i)) = v := by
  induction n generalizing off with
  | zero => simp [cmpLoop]
  | succ n ih =>
    unfold cmpLoop
    dsimp only
    split
    · rename_i h
      constructor
      · intro h'; exact absurd h' h
      · intro h'
        have := h' 0 (by omega)
        rw [Nat.mul_zero, Nat.add_zero] at this
        exact absurd (sub_eq_zero_iff.2 this) h
    · rename_i h
      have h0 : m.readWord pg (p + off) = v := sub_eq_zero_iff.1 (Classical.not_not.1 h)
      rw [ih]
      constructor
      · intro h' i hi
        cases i with
        | zero => simpa using h0
        | succ i =>
          have := h' i (by omega)
          rw [show off + wb * (i + 1) = off + wb + wb * i from by rw [Nat.mul_succ]; omega]
          exact this
      · intro h' i hi
        have := h' (i + 1) (by omega)
        rw [show off + wb * (i + 1) = off + wb + wb * i from by rw [Nat.mul_succ]; omega] at this
        exact this

theorem cmpItem_eq_zero_iff {pg : Nat} {m : Mem} {p : Nat} {v : Word} {len : Nat} (h8 : wb ∣ len) :
    cmpItem pg m p len v = 0#_ ↔ Holds pg m p (pat v) len := by
  obtain ⟨w, rfl⟩ := h8
  unfold cmpItem
  rw [cmpLoop_eq_zero_iff, Nat.mul_div_cancel_left _ wb_pos]
  unfold Holds pat
  constructor
  · intro h j hj
    have := readWord_eq_iff.1 (h (j / wb) (Nat.div_lt_of_lt_mul hj)) (j % wb) (Nat.mod_lt _ wb_pos)
    rw [show p + (0 + wb * (j / wb)) + j % wb = p + j from by have := Nat.div_add_mod j wb; omega] at this
    exact this
  · intro h i hi
    rw [readWord_eq_iff]
    intro j hj
    have hk : wb * i + j < wb * w := by
      calc wb * i + j < wb * (i + 1) := by rw [Nat.mul_succ]; omega
        _ ≤ wb * w := Nat.mul_le_mul_left _ hi
    have := h (wb * i + j) hk
    rw [Nat.mul_add_mod, Nat.mod_eq_of_lt hj] at this
    rw [show p + (0 + wb * i) + j = p + (wb * i + j) from by omega]
    exact this

theorem poisonLoop_frame {pg : Nat} (hpg : 0 < pg) {p : Nat} {v : Word} {n off : Nat} {m : Mem} :
    Frame pg (fun x => p + off ≤ x ∧ x < p + off + wb * n) m (poisonLoop pg p v n off m) := by
  induction n generalizing off m with
  | zero => exact Frame.refl
  | succ n ih =>
    unfold poisonLoop
    refine Frame.trans ((Frame.writeWord hpg).mono ?_) (ih.mono ?_) <;> intro x <;> rw [Nat.mul_succ] <;> omega

theorem poisonLoop_holds {pg : Nat} (hpg : 0 < pg) {p : Nat} {v : Word} {n off : Nat} {m : Mem}
    (hwf : m.WF) : ∀ j, j < wb * n →
      (poisonLoop pg p v n off m).read pg (p + off + j) = pat v j := by
  induction n generalizing off m with
  | zero => intro j hj; simp at hj
  | succ n ih =>
    intro j hj
    unfold poisonLoop
    have hwf' : (m.writeWord pg (p + off) v).WF := WF_writeBlock hwf _ _ _
    rw [Nat.mul_succ] at hj
    by_cases h : j < wb
    · have hself := read_writeBlock_self hpg hwf (a := p + off) (f := wordByte v) (n := wb) h
      have hf := (poisonLoop_frame hpg (p := p) (v := v) (n := n) (off := off + wb)
        (m := m.writeWord pg (p + off) v)).rd hwf' (p + off + j)
      rw [hf (by omega) ?_]
      · unfold pat; rw [Nat.mod_eq_of_lt h]; exact hself.1
      · have : (m.writeWord pg (p + off) v).resolve pg (p + off + j) = p + off + j := hself.2
        rw [this]; omega
    · have := ih (off := off + wb) hwf' (j - wb) (by omega)
      rw [show p + (off + wb) + (j - wb) = p + off + j from by omega] at this
      rw [this]
      unfold pat
      rw [Nat.mod_eq_sub_mod (a := j) (by omega)]

theorem poisonBlock_frame {pg : Nat} (hpg : 0 < pg) {p : Nat} {v : Word} {len : Nat} {m : Mem} :
    Frame pg (fun x => p ≤ x ∧ x < p + len) m (poisonBlock pg m p len v) := by
  unfold poisonBlock
  refine (poisonLoop_frame hpg).mono ?_
  have := Nat.mul_div_le len wb
  intro x; omega

theorem poisonBlock_holds {pg : Nat} (hpg : 0 < pg) {p : Nat} {v : Word} {len : Nat} {m : Mem}
    (hwf : m.WF) (h8 : wb ∣ len) : Holds pg (poisonBlock pg m p len v) p (pat v) len := by
  obtain ⟨w, rfl⟩ := h8
  intro j hj
  have := poisonLoop_holds hpg (p := p) (v := v) (n := wb * w / wb) (off := 0) hwf j (by rw [Nat.mul_div_cancel_left _ wb_pos]; exact hj)
  rw [Nat.add_zero] at this
  exact this

omit [Abi] in
/-- A frame that does not reach the bytes at `a` keeps them. -/
theorem Holds.frame {pg : Nat} {W : Nat → Prop} {m m' : Mem} (hf : Frame pg W m m') (hwf : m.WF)
    {a : Nat} {g : Nat → Byte} {n : Nat} (h : Holds pg m a g n)
    (hw : ∀ j, j < n → ¬ W (a + j) ∧ ¬ W (m.resolve pg (a + j))) : Holds pg m' a g n := by
  intro j hj
  rw [hf.rd hwf _ (hw j hj).1 (hw j hj).2]
  exact h j hj

/-- The shape of a per-CPU loop body: after it, CPU `i`'s `n` bytes at `a i` are `g`, and only those
bytes were stored to. -/
def FillBody (pg : Nat) (a : Nat → Nat) (g : Nat → Byte) (n : Nat) (body : Nat → Mem → Mem) : Prop :=
  ∀ i (m : Mem), Frame pg (fun x => a i ≤ x ∧ x < a i + n) m (body i m) ∧
    (m.WF → Holds pg (body i m) (a i) g n)

omit [Abi] in
theorem forCpus_frame {pg : Nat} {a : Nat → Nat} {g : Nat → Byte} {n : Nat} {body : Nat → Mem → Mem}
    (hb : FillBody pg a g n body) (N : Nat) (m : Mem) :
    Frame pg (fun x => ∃ i, i < N ∧ a i ≤ x ∧ x < a i + n) m (forCpus body N m) := by
  induction N with
  | zero => exact Frame.refl
  | succ N ih =>
    unfold forCpus
    refine Frame.trans (ih.mono ?_) ((hb N _).1.mono ?_)
    · rintro x ⟨i, hi, h⟩; exact ⟨i, by omega, h⟩
    · intro x h; exact ⟨N, by omega, h⟩

omit [Abi] in
/-- All CPUs hold the content after the loop, provided the CPU areas neither overlap nor are the source
of one another. -/
theorem forCpus_holds {pg : Nat} {a : Nat → Nat} {g : Nat → Byte} {n : Nat} {body : Nat → Mem → Mem}
    (hb : FillBody pg a g n body) {N : Nat} {m : Mem} (hwf : m.WF)
    (hdis : ∀ i k, i < N → k < N → i ≠ k → ∀ j, j < n →
      ¬ (a k ≤ a i + j ∧ a i + j < a k + n) ∧
      ¬ (a k ≤ m.resolve pg (a i + j) ∧ m.resolve pg (a i + j) < a k + n)) :
    ∀ i, i < N → Holds pg (forCpus body N m) (a i) g n := by
  induction N with
  | zero => intro i hi; omega
  | succ N ih =>
    have ih := ih (fun i k hi hk => hdis i k (by omega) (by omega))
    intro i hi
    unfold forCpus
    have hw : (forCpus body N m).WF := (forCpus_frame hb N m).wf hwf
    by_cases h : i = N
    · subst h; exact (hb i _).2 hw
    · refine Holds.frame (hb N _).1 hw (ih i (by omega)) ?_
      intro j hj
      have hd := hdis i N (by omega) (by omega) h j hj
      refine ⟨hd.1, ?_⟩
      rcases (forCpus_frame hb N m).res (a i + j) with e | e <;> rw [e]
      · exact hd.2
      · exact hd.1

theorem zeroBody {c : Config} (hpg : 0 < c.pg) (h8 : wb ∣ c.itemLen) (r : Range) (off : Nat) :
    FillBody c.pg (fun i => percpuPtr c r i off) (fun _ => 0#8) c.itemLen (fun i m =>
      let p := percpuPtr c r i off
      if cmpItem c.pg m p c.itemLen 0#_ = 0#_ then m else bzero c.pg m p c.itemLen) := by
  intro i m
  dsimp only
  split
  · rename_i h
    refine ⟨Frame.refl, fun _ => ?_⟩
    rw [cmpItem_eq_zero_iff h8] at h
    intro j hj
    rw [h j hj]
    unfold pat wordByte
    simp
  · exact ⟨Frame.writeBlock hpg, fun hw => Holds_writeBlock hpg hw⟩

theorem initBody {c : Config} (hpg : 0 < c.pg) (r : Range) (off : Nat) (f : Nat → Byte) (len : Nat) :
    FillBody c.pg (fun i => percpuPtr c r i off) f len (fun i m =>
      let p := percpuPtr c r i off
      if memEqual c.pg m p f len then m else memcpy c.pg m p f len) := by
  intro i m
  dsimp only
  split
  · rename_i h
    exact ⟨Frame.refl, fun _ => memEqual_iff.1 h⟩
  · exact ⟨Frame.writeBlock hpg, fun hw => Holds_writeBlock hpg hw⟩

theorem poisonBody {c : Config} (hpg : 0 < c.pg) (h8 : wb ∣ c.itemLen) (r : Range) (off : Nat) (v : Word) :
    FillBody c.pg (fun i => percpuPtr c r i off) (pat v) c.itemLen (fun i m =>
      let p := percpuPtr c r i off
      if cmpItem c.pg m p c.itemLen v = 0#_ then m else poisonBlock c.pg m p c.itemLen v) := by
  intro i m
  dsimp only
  split
  · rename_i h
    exact ⟨Frame.refl, fun _ => (cmpItem_eq_zero_iff h8).1 h⟩
  · exact ⟨poisonBlock_frame hpg, fun hw => poisonBlock_holds hpg hw h8⟩

end Verif.Mempool
