import Verif.RseqListTestProps
import Verif.RseqClientWitness
/-
An execution of the list test that meets the hypotheses of RseqListTestProps: a node is popped on CPU 3 and pushed on
CPU 4; the final loops add up 7 and 9.
-/

namespace Verif.Rseq

theorem exK_data : DataApart exK 0#64 := by
  have hd : ∀ a b x : W 8, 8 ≤ (a - b).toNat → 8 ≤ (b - a).toNat → InWord a x → ¬ InWord b x := by
    intro a b x h1 h2 h3 h4
    unfold InWord at h3 h4
    bv_omega
  constructor
  · intro c hc x a hx h1
    simp only [exK, List.mem_cons, List.not_mem_nil, or_false] at hc
    rcases hc with rfl | rfl <;> rcases hx with rfl | rfl <;> exact hd _ _ a (by decide) (by decide) h1
  · rintro x t d a (rfl | rfl) h1 h2 <;> exact hd _ _ a (by decide) (by decide) h1 h2.2.2

example : ∃ s G, exSReach s G ∧ G.stk 3#32 = [0x2100#64] ∧ G.stk 4#32 = [0x2000#64] ∧
    ∃ m', popAll false 8#64 0#64 listHead 3 [3#32, 4#32] s.mem 0#64 = some (m', 16#64) ∧
      ldw false m' (listHead 3#32) = 0#64 ∧ ldw false m' (listHead 4#32) = 0#64 := by
  obtain ⟨s, G, h, h3, h4, -, hq, d1, d2⟩ := ex_list
  obtain ⟨m', e1, e2⟩ := list_test_final (by decide) listSites_be exK_ok exG_init exK_data h (by decide)
    (fun _ => rfl) hq (by
      rintro x (rfl | rfl)
      · exact d1.trans (by decide)
      · exact d2.trans (by decide)) (k := 3) (by decide)
  refine ⟨s, G, h, h3, h4, m', e1.trans ?_, e2 3#32 (by decide), e2 4#32 (by decide)⟩
  have : dataSum exK.be 0#64 exListMem (exK.cpus.flatMap exG.stk) = 16#64 := by decide
  rw [this]

/-- A final store of a list call keeps the data of node 0x2100. -/
example : ∃ (s s' : State 8) (G : Stacks 8) (t : Nat) (f : Frame 8), exSReach s G ∧ Step listSites s t .exec s' ∧
    committing listSites s t .exec = some f ∧ ldw false s'.mem 0x2100#64 = ldw false s.mem 0x2100#64 := by
  obtain ⟨s, G, h, -, h4, -⟩ := ex_list
  rcases h.committed with h1 | ⟨s1, G1, t, lab, s2, f, h1, h2, h3⟩
  · rw [h1] at h4; cases h4
  · obtain ⟨rfl, -⟩ := committing_some h3
    exact ⟨s1, s2, G1, t, f, h1, h2, h3, list_data_kept (by decide) listSites_be exK_ok exG_init exK_data h1 h2
      (by simp) 0x2100#64 (.inr rfl)⟩

end Verif.Rseq
