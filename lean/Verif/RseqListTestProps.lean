import Verif.RseqListTest
/-
C89, second half: the list test of tests/basic_percpu_ops_test.c finds its expected sum.
-/

namespace Verif.Rseq

variable {n : Nat} {T : Nat → Site n} {K : ListLayout n} {m0 : Mem n} {G0 : Stacks n}

/-- No step of a helper, of the kernel or of the scheduler changes the data of a node. -/
theorem list_data_kept (hn : 4 ≤ n) (hbe : ∀ p, (T p).prog.be = K.be) (hK : K.OK)
    (h0 : StackInit K m0 G0) {doff : W n} (hD : DataApart K doff) {s s' : State n} {G : Stacks n}
    (h : SReach T K m0 G0 s G) {t : Nat} {lab : Lab n} (hs : Step T s t lab s') (hu : lab ≠ .user) (x : W n)
    (hx : K.nodes x) : ldw K.be s'.mem (x + doff) = ldw K.be s.mem (x + doff) := by
  have hI := h.inv hn hbe hK h0
  refine ldw_agree fun a ha => ?_
  apply Classical.byContradiction
  intro hne
  rcases list_changes hn hbe hK hI hs a hne with h | ⟨f, hf, -, -, h | ⟨h, -⟩⟩
  · exact hu h
  · exact hD.priv x t _ a hx ha h
  · obtain ⟨-, hc, -⟩ := hI.frames t (s.th t).saved.length f (by rw [frameAt_top rfl]; exact hf)
    exact hD.head f.cpu hc x a hx h ha

/-- The end of the test (:310-322): if every node that was popped has been pushed again (`hq`) and nobody stored to
the data of the nodes (`hdata`), the loops over all lists end, the sum they compute is that of the data of all nodes
that were on the lists at the start, `expected_sum`, and all lists are empty. -/
theorem list_test_final (hn : 4 ≤ n) (hbe : ∀ p, (T p).prog.be = K.be) (hK : K.OK)
    (h0 : StackInit K m0 G0) {doff : W n} (hD : DataApart K doff) {s : State n} {G : Stacks n}
    (h : SReach T K m0 G0 s G) (hcpus : K.cpus.Nodup) (hq0 : ∀ x, G0.own x = none) (hq : ∀ x, G.own x = none)
    (hdata : ∀ x, K.nodes x → ldw K.be s.mem (x + doff) = ldw K.be m0 (x + doff))
    {k : Nat} (hk : (K.cpus.flatMap G0.stk).length < k) :
    ∃ m', popAll K.be K.off doff K.head k K.cpus s.mem 0#64 =
        some (m', dataSum K.be doff m0 (K.cpus.flatMap G0.stk)) ∧
      ∀ c ∈ K.cpus, ldw K.be m' (K.head c) = 0#_ := by
  have hI := h.inv hn hbe hK h0
  have hperm : (K.cpus.flatMap G.stk).Perm (K.cpus.flatMap G0.stk) := by
    rw [List.perm_iff_count]
    intro x
    have h1 := final_walk hn hbe hK h0 h hq hcpus x
    have h2 := final_walk hn hbe hK h0 (SReach.init (T := T)) hq0 hcpus x
    by_cases hx : K.nodes x
    · rw [h1.1 hx, h2.1 hx]
    · rw [h1.2 hx, h2.2 hx]
  have hlen : ∀ c ∈ K.cpus, (G.stk c).length < k := by
    intro c hc
    refine Nat.lt_of_le_of_lt ?_ hk
    rw [← hperm.length_eq]
    exact List.Sublist.length_le (List.sublist_flatten_of_mem (List.mem_map.2 ⟨c, hc, rfl⟩))
  obtain ⟨m', e1, e2⟩ := popAll_lists hD hK (k := k) (sum := 0#64) hcpus (fun _ h => h)
    (fun c hc => hI.list c hc) (fun c hc x hx => (hI.mem c hc x hx).1) hlen
  refine ⟨m', ?_, e2⟩
  rw [e1, BitVec.zero_add, dataSum_perm hperm]
  congr 2
  refine dataSum_congr fun x hx => hdata x ?_
  obtain ⟨c, hc, hx⟩ := List.mem_flatMap.1 hx
  exact (h0.mem c hc x hx).1

end Verif.Rseq
