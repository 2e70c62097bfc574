import Verif.RseqListInitProps
import Verif.RseqListTestEx
/-
A layout that meets the hypotheses of the theorems of `RseqListInitProps.lean`: one node for each of the CPUs 3 and 4.
-/

namespace Verif.Rseq

def exLNode (c : BitVec 32) (_ : Nat) : W 8 := if c = 3#32 then 0x2000#64 else 0x2100#64

theorem exK_cases {c : BitVec 32} (hc : c ∈ exK.cpus) : c = 3#32 ∨ c = 4#32 := by
  simpa [exK] using hc

theorem exLNodes_ok : ListNodesOK exK 0#64 exLNode 1 := by
  have hd : ∀ a b x : W 8, 8 ≤ (a - b).toNat → 8 ≤ (b - a).toNat → InWord a x → ¬ InWord b x := by
    intro a b x h1 h2 h3 h4
    unfold InWord at h3 h4
    bv_omega
  constructor
  · intro x
    constructor
    · rintro (rfl | rfl)
      · exact ⟨3#32, by decide, 1, by decide, by decide, rfl⟩
      · exact ⟨4#32, by decide, 1, by decide, by decide, rfl⟩
    · rintro ⟨c, hc, j, -, -, rfl⟩
      rcases exK_cases hc with rfl | rfl
      · exact .inl rfl
      · exact .inr rfl
  · intro c hc c' hc' j j' _ _ _ _ h
    refine ⟨?_, by omega⟩
    rcases exK_cases hc with rfl | rfl <;> rcases exK_cases hc' with rfl | rfl <;> first | rfl | skip
    · exact absurd h (by unfold exLNode; decide)
    · exact absurd h (by unfold exLNode; decide)
  · rintro x y a (rfl | rfl) (rfl | rfl) h1 h2 <;> first | rfl | skip
    · exact absurd h2 (hd _ _ a (by decide) (by decide) h1)
    · exact absurd h2 (hd _ _ a (by decide) (by decide) h1)
  · rintro x y a (rfl | rfl) (rfl | rfl) h1 <;> exact hd _ _ a (by decide) (by decide) h1

/-- The lists built: `expected_sum` is 2. -/
example : ∃ m0, listSetup exK 0#64 exLNode 1 (fun _ => 0#8) = some (m0, 2#64) ∧
    StackInit exK m0 (Stacks.fresh (listNodes exLNode 1)) ∧ ldw false m0 0x2000#64 = 1#64 := by
  obtain ⟨m0, h1, h2, h3⟩ := list_setup exK_ok (by decide) exK_data exLNodes_ok (m := fun _ => 0#8)
    (fun c hc => by rcases exK_cases hc with rfl | rfl <;> decide)
  exact ⟨m0, h1, h2, h3 3#32 (by decide) 1 (by decide) (by decide)⟩

/-- The final loops on the initial state find it. -/
example : ∃ m0 expected, listSetup exK 0#64 exLNode 1 (fun _ => 0#8) = some (m0, expected) ∧ ∃ m',
    popAll false 8#64 0#64 listHead 3 [3#32, 4#32] m0 0#64 = some (m', expected) := by
  obtain ⟨m0, e, h1, h2⟩ := list_test_passes (by decide) listSites_be exK_ok (by decide) exK_data (B := 1) (by decide)
    exLNodes_ok (m := fun _ => 0#8) (fun c hc => by rcases exK_cases hc with rfl | rfl <;> decide)
  obtain ⟨m', h3, -⟩ := h2 SReach.init (fun _ => rfl) (fun _ _ => rfl) 3 (by decide)
  exact ⟨m0, e, h1, m', h3⟩

end Verif.Rseq
