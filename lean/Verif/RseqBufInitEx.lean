import Verif.RseqBufInitProps
/-
Layouts that meet the hypotheses of the theorems of `RseqBufInitProps.lean`: two CPUs, one item each.
-/

namespace Verif.Rseq

/-- The nodes of the two CPUs. -/
def exNode (c : BitVec 32) (_ : Nat) : W 8 := if c = 3#32 then 0x4000#64 else 0x4100#64

theorem exB_cases {c : BitVec 32} (hc : c ∈ exB.cpus) : c = 3#32 ∨ c = 4#32 := by
  simpa [exB] using hc

theorem exNodes_ok : NodesOK exB 0#64 exNode 1 := by
  have hoff : ∀ c a, InWord (exB.offset c) a → (a - 0x1000#64).toNat < 8 ∨ (a - 0x1100#64).toNat < 8 := by
    intro c a h
    simp only [exB] at h
    split at h
    · exact .inl h
    · exact .inr h
  have harr : ∀ c a, exB.InArr c a → (a - 0x2000#64).toNat < 16 ∨ (a - 0x2100#64).toNat < 16 := by
    intro c a h
    have h : (a - (if c = 3#32 then 0x2000#64 else 0x2100#64)).toNat < 16 := h
    split at h
    · exact .inl h
    · exact .inr h
  have hnode : ∀ c j a, InWord (exNode c j + 0#64) a →
      (c = 3#32 ∧ (a - 0x4000#64).toNat < 8) ∨ (c ≠ 3#32 ∧ (a - 0x4100#64).toNat < 8) := by
    intro c j a h
    rw [BitVec.add_zero] at h
    unfold exNode at h
    split at h
    · exact .inl ⟨‹_›, h⟩
    · exact .inr ⟨‹_›, h⟩
  refine ⟨?_, ?_, ?_⟩
  · intro c _ c' _ j _ _ a h1 h2
    have h1 := hnode c j a h1
    have h2 := hoff c' a h2
    rcases h1 with ⟨-, h1⟩ | ⟨-, h1⟩ <;> rcases h2 with h2 | h2 <;> bv_omega
  · intro c _ c' _ j _ _ a h1 h2
    have h1 := hnode c j a h1
    have h2 := harr c' a h2
    rcases h1 with ⟨-, h1⟩ | ⟨-, h1⟩ <;> rcases h2 with h2 | h2 <;> bv_omega
  · intro c hc c' hc' j j' _ _ _ _ a h1 h2
    have h1 := hnode c j a h1
    have h2 := hnode c' j' a h2
    refine ⟨?_, by omega⟩
    rcases h1 with ⟨e1, h1⟩ | ⟨e1, h1⟩ <;> rcases h2 with ⟨e2, h2⟩ | ⟨e2, h2⟩
    · rw [e1, e2]
    · bv_omega
    · bv_omega
    · rcases exB_cases hc with rfl | rfl <;> rcases exB_cases hc' with rfl | rfl <;> first | rfl | contradiction

def exZero : Mem 8 := fun _ => 0#8

/-- The filled buffers: `expected_sum` is 2. -/
example : ∃ m0, ptrSetup exB 0#64 exNode 1 exZero = some (m0, 2#64) ∧
    BufInit exB m0 (Bufs.fresh (ptrItems exB exNode 1)) ∧ ldw false m0 0x4000#64 = 1#64 := by
  obtain ⟨m0, h1, h2, h3⟩ := buffer_setup exB_ok rfl (by decide) exNodes_ok (fun _ _ => (by decide : 1 ≤ 2))
    (m := exZero) (fun c hc => by rcases exB_cases hc with rfl | rfl <;> decide)
  exact ⟨m0, h1, h2, h3 3#32 (by decide) 1 (by decide) (by decide)⟩

/-- The test on that layout, with no more than the initial state as its execution: the sum is 2. -/
example : ∃ m0 expected, ptrSetup exB 0#64 exNode 1 exZero = some (m0, expected) ∧ ∃ m',
    forCpus (fun c => ptrLoop false (exB.offset c) (exB.array c) 0#64 3) [3#32, 4#32] m0 0#64 =
      some (m', expected) := by
  obtain ⟨m0, e, h1, h2⟩ := buffer_test_passes (by decide) bufSites_be exB_ok rfl (by decide)
    (B := 1) (by decide) exNodes_ok (fun c hc _ _ _ => by unfold exNode; rcases exB_cases hc with rfl | rfl <;> decide)
    (fun _ _ => rfl) (m := exZero) (fun c hc => by rcases exB_cases hc with rfl | rfl <;> decide)
  exact ⟨m0, e, h1, (h2 (N := 1) TestReach.init).2 (fun _ => rfl) (fun _ _ _ _ _ => rfl) 3 (by decide)⟩

/-- Items of two words. -/
def exM : BufLayout 8 := { exB with isz := 16 }

theorem exM_ok : exM.OK := by
  have hoff : ∀ c ∈ exM.cpus, exM.offset c = 0x1000#64 ∧ exM.array c = 0x2000#64 ∧ c = 3#32 ∨
      exM.offset c = 0x1100#64 ∧ exM.array c = 0x2100#64 ∧ c = 4#32 := by
    intro c hc
    rcases exB_cases hc with rfl | rfl
    · exact .inl ⟨rfl, rfl, rfl⟩
    · exact .inr ⟨rfl, rfl, rfl⟩
  have harr : ∀ c a, exM.InArr c a ↔ (a - exM.array c).toNat < 32 := fun c a => Iff.rfl
  refine ⟨by decide, by decide, fun c _ => by show 2 * 16 < 2 ^ (8 * 8); decide, ?_, ?_, ?_, ?_, ?_, ?_⟩
  · intro c hc c' hc' a h1 h2
    unfold InWord at h1 h2
    rcases hoff c hc with ⟨e1, -, rfl⟩ | ⟨e1, -, rfl⟩ <;> rcases hoff c' hc' with ⟨e2, -, rfl⟩ | ⟨e2, -, rfl⟩ <;>
      first
      | rfl
      | (exfalso; rw [e1] at h1; rw [e2] at h2; bv_omega)
  · intro c hc c' hc' a h1 h2
    rw [harr] at h1 h2
    rcases hoff c hc with ⟨-, e1, rfl⟩ | ⟨-, e1, rfl⟩ <;> rcases hoff c' hc' with ⟨-, e2, rfl⟩ | ⟨-, e2, rfl⟩ <;>
      first
      | rfl
      | (exfalso; rw [e1] at h1; rw [e2] at h2; bv_omega)
  · intro c hc c' hc' a h1 h2
    rw [harr] at h2
    unfold InWord at h1
    rcases hoff c hc with ⟨e1, -, -⟩ | ⟨e1, -, -⟩ <;> rcases hoff c' hc' with ⟨-, e2, -⟩ | ⟨-, e2, -⟩ <;>
      (rw [e1] at h1; rw [e2] at h2; bv_omega)
  · rintro c hc t d a h1 ⟨-, -, h2⟩
    unfold InWord at h1 h2
    rcases hoff c hc with ⟨e1, -, -⟩ | ⟨e1, -, -⟩ <;> (rw [e1] at h1; bv_omega)
  · rintro c hc t d a h1 ⟨-, -, h2⟩
    rw [harr] at h1
    unfold InWord at h2
    rcases hoff c hc with ⟨-, e1, -⟩ | ⟨-, e1, -⟩ <;> (rw [e1] at h1; bv_omega)
  · rintro t d t' d' a ⟨rfl, rfl, -⟩ ⟨rfl, rfl, -⟩; exact ⟨rfl, rfl⟩

theorem exM_item : ItemApart exM 0x5000#64 := by
  refine ⟨fun c hc a ha hw => ?_, fun c hc a ha hw => ?_⟩
  · unfold InWord at hw
    have ha : (a - 0x5000#64).toNat < 16 := ha
    rcases exB_cases hc with rfl | rfl
    · rw [show exM.offset 3#32 = 0x1000#64 from rfl] at hw; bv_omega
    · rw [show exM.offset 4#32 = 0x1100#64 from rfl] at hw; bv_omega
  · have ha : (a - 0x5000#64).toNat < 16 := ha
    rcases exB_cases hc with rfl | rfl
    · have hw : (a - 0x2000#64).toNat < 32 := hw
      bv_omega
    · have hw : (a - 0x2100#64).toNat < 32 := hw
      bv_omega

/-- The copying test: `expected_sum` is 6. -/
example : ∃ m0 buf, copySetup exM 8 1 exZero = some (m0, 6#64) ∧ BufInit exM m0 (Bufs.fresh buf) ∧
    (buf 3#32).map (nodeVal 8 false 8) = [3#64] := by
  obtain ⟨m0, buf, h1, h2, h3⟩ := memcpy_buffer_setup exM_ok (by decide) (d2 := 8) (B := 1) (by decide) (by decide)
    (fun _ _ => (by decide : 1 ≤ 2)) (m := exZero) (fun c hc => by rcases exB_cases hc with rfl | rfl <;> decide)
  refine ⟨m0, buf, h1, h2, (h3 3#32 (by decide)).trans ?_⟩
  decide

example : ∃ m0 expected, copySetup exM 8 1 exZero = some (m0, expected) ∧ ∃ m',
    forCpus (fun c => copyLoop false (exM.offset c) (exM.array c) 16 0x5000#64 (nodeVal 8 false 8) 3)
      [3#32, 4#32] m0 0#64 = some (m', expected) := by
  obtain ⟨m0, e, buf, h1, h2⟩ := memcpy_buffer_test_passes (K := exM) (by decide) bufSites_be exM_ok (by decide) (d2 := 8)
    (B := 1) (by decide) (by decide) (by decide) (fun _ _ => rfl) exM_item (m := exZero)
    (fun c hc => by rcases exB_cases hc with rfl | rfl <;> decide)
  exact ⟨m0, e, h1, (h2 (N := 1) TestReach.init).2 (fun _ => rfl) 3 (by decide)⟩

end Verif.Rseq
