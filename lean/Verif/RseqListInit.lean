import Verif.RseqListTestProps
import Verif.RseqBufInitLemmas
/-
How the main thread of the list tests builds the lists before it creates the threads: tests/basic_percpu_ops_test.c
:288-300 and tests/param_test.c:832-846.
Simplification: the addresses returned by `malloc` are the parameter `node`.
-/

namespace Verif.Rseq

variable {n : Nat}

/-- The rest of `for (j = 1; j <= 100; j++)`, `k` iterations from `j` on: `expected_sum += j`, `node->data = j`,
`node->next = head`, `head = node`. -/
def listFill (be : Bool) (h off doff : W n) (node : Nat → W n) : Nat → Nat → Mem n → BitVec 64 → Mem n × BitVec 64
  | 0, _, m, sum => (m, sum)
  | k + 1, j, m, sum =>
    let sum := sum + BitVec.ofNat 64 j
    let m := stw be m (node j + doff) (num j)
    let m := stw be m (node j + off) (ldw be m h)
    let m := stw be m h (node j)
    listFill be h off doff node k (j + 1) m sum

/-- The outer loop, over all CPUs, `B` nodes each: memory and `expected_sum`. -/
def listSetup (K : ListLayout n) (doff : W n) (node : BitVec 32 → Nat → W n) (B : Nat) (m : Mem n) :
    Option (Mem n × BitVec 64) :=
  forCpus (fun c m sum => some (listFill K.be (K.head c) K.off doff (node c) B 1 m sum)) K.cpus m 0#64

/-- The abstract state with the given lists, before anybody has taken a node. -/
def Stacks.fresh (stk : BitVec 32 → List (W n)) : Stacks n where
  stk := stk
  own := fun _ => none
  got := fun _ _ => none

/-- The nodes of the layout are those allocated, one for each CPU and `j`; their data fields overlap neither each other
nor `next` fields. -/
structure ListNodesOK (K : ListLayout n) (doff : W n) (node : BitVec 32 → Nat → W n) (B : Nat) : Prop where
  nodes : ∀ x, K.nodes x ↔ ∃ c ∈ K.cpus, ∃ j, 1 ≤ j ∧ j ≤ B ∧ x = node c j
  inj : ∀ c ∈ K.cpus, ∀ c' ∈ K.cpus, ∀ j j', 1 ≤ j → j ≤ B → 1 ≤ j' → j' ≤ B → node c j = node c' j' →
    c = c' ∧ j = j'
  data_data : ∀ x y a, K.nodes x → K.nodes y → InWord (x + doff) a → InWord (y + doff) a → x = y
  data_next : ∀ x y a, K.nodes x → K.nodes y → InWord (x + doff) a → ¬ InWord (y + K.off) a

variable {K : ListLayout n}

theorem listFill_list (hK : K.OK) {doff : W n} (hD : DataApart K doff) {node : BitVec 32 → Nat → W n} {B : Nat}
    (hN : ListNodesOK K doff node B) {c : BitVec 32} (hc : c ∈ K.cpus) : ∀ (k j : Nat) {m : Mem n} {l : List (W n)}
    {sum : BitVec 64}, IsList K.be K.off m (ldw K.be m (K.head c)) l → 1 ≤ j → j + k = B + 1 →
    (∀ x ∈ l, ∃ i, 1 ≤ i ∧ i < j ∧ x = node c i) →
    ∃ m', listFill K.be (K.head c) K.off doff (node c) k j m sum =
        (m', sum + itemSum (fun i => BitVec.ofNat 64 i) (List.range' j k)) ∧
      IsList K.be K.off m' (ldw K.be m' (K.head c)) (((List.range' j k).map (node c)).reverse ++ l) ∧
      (∀ i, j ≤ i → i < j + k → ldw K.be m' (node c i + doff) = num i) ∧
      ∀ a, ¬ InWord (K.head c) a → (∀ i, j ≤ i → i < j + k → ¬ InWord (node c i + doff) a) →
        (∀ i, j ≤ i → i < j + k → ¬ InWord (node c i + K.off) a) → m' a = m a := by
  intro k
  induction k with
  | zero =>
    intro j m l sum hl _ _ _
    exact ⟨m, by simp [listFill, itemSum], by simpa using hl, fun i h1 h2 => by omega, fun _ _ _ _ => rfl⟩
  | succ k ih =>
    intro j m l sum hl h1 hjk hlm
    have hnode : ∀ i, 1 ≤ i → i ≤ B → K.nodes (node c i) := fun i g1 g2 => (hN.nodes _).2 ⟨c, hc, i, g1, g2, rfl⟩
    have hj := hnode j h1 (by omega)
    obtain ⟨m1, hm1⟩ : ∃ m1, m1 = stw K.be m (node c j + doff) (num j) := ⟨_, rfl⟩
    obtain ⟨m2, hm2⟩ : ∃ m2, m2 = stw K.be m1 (node c j + K.off) (ldw K.be m1 (K.head c)) := ⟨_, rfl⟩
    obtain ⟨m3, hm3⟩ : ∃ m3, m3 = stw K.be m2 (K.head c) (node c j) := ⟨_, rfl⟩
    have hfr : ∀ a, ¬ InWord (K.head c) a → ¬ InWord (node c j + doff) a → ¬ InWord (node c j + K.off) a →
        m3 a = m a := fun a g1 g2 g3 => by
      rw [hm3, stw_other _ _ _ _ _ g1, hm2, stw_other _ _ _ _ _ g3, hm1, stw_other _ _ _ _ _ g2]
    have hhead1 : ldw K.be m1 (K.head c) = ldw K.be m (K.head c) := by
      rw [hm1]
      exact ldw_stw_ne _ _ _ _ _ fun a g1 g2 => hD.head c hc _ a hj g1 g2
    have hhead3 : ldw K.be m3 (K.head c) = node c j := by rw [hm3, ldw_stw_same]
    have hnext : ldw K.be m3 (node c j + K.off) = ldw K.be m (K.head c) := by
      rw [hm3, ldw_stw_ne _ _ _ _ _ fun a g1 g2 => hK.head_next c hc _ a hj g2 g1, hm2, ldw_stw_same, hhead1]
    have hdata : ldw K.be m3 (node c j + doff) = num j := by
      rw [hm3, ldw_stw_ne _ _ _ _ _ fun a g1 g2 => hD.head c hc _ a hj g2 g1, hm2,
        ldw_stw_ne _ _ _ _ _ fun a g1 g2 => hN.data_next _ _ a hj hj g1 g2, hm1, ldw_stw_same]
    have hlist : IsList K.be K.off m3 (ldw K.be m3 (K.head c)) (node c j :: l) := by
      refine ⟨hhead3, fun e => hK.node0 (e ▸ hj), ?_⟩
      rw [hnext]
      refine hl.congr fun x hx => ldw_agree fun a ha => ?_
      obtain ⟨i, i1, i2, rfl⟩ := hlm x hx
      have hi := hnode i i1 (by omega)
      refine hfr a (fun g => hK.head_next c hc _ a hi g ha) (fun g => hN.data_next _ _ a hj hi g ha) fun g => ?_
      have := (hN.inj c hc c hc i j i1 (by omega) h1 (by omega) (hK.next_next _ _ a hi hj ha g)).2
      omega
    obtain ⟨m', e1, e2, e3, e4⟩ := ih (j + 1) (m := m3) (l := node c j :: l) (sum := sum + BitVec.ofNat 64 j) hlist
      (by omega) (by omega) (fun x hx => by
        rcases List.mem_cons.1 hx with rfl | hx
        · exact ⟨j, h1, by omega, rfl⟩
        · obtain ⟨i, i1, i2, rfl⟩ := hlm x hx
          exact ⟨i, i1, by omega, rfl⟩)
    refine ⟨m', ?_, ?_, fun i g1 g2 => ?_, fun a g1 g2 g3 => ?_⟩
    · unfold listFill
      dsimp only
      rw [← hm1, ← hm2, ← hm3, e1, range'_cons, itemSum_cons, BitVec.add_assoc]
    · rw [range'_cons, List.map_cons, List.reverse_cons, List.append_assoc]
      exact e2
    · by_cases e : i = j
      · subst e
        rw [← hdata]
        refine ldw_agree fun a ha => e4 a (fun g => hD.head c hc _ a hj g ha) (fun i' q1 q2 g => ?_)
          fun i' q1 q2 g => hN.data_next _ _ a hj (hnode i' (by omega) (by omega)) ha g
        have := (hN.inj c hc c hc i i' h1 (by omega) (by omega) (by omega)
          (hN.data_data _ _ a hj (hnode i' (by omega) (by omega)) ha g)).2
        omega
      · exact e3 i (by omega) (by omega)
    · rw [e4 a g1 (fun i q1 q2 => g2 i (by omega) (by omega)) (fun i q1 q2 => g3 i (by omega) (by omega))]
      exact hfr a g1 (g2 j (by omega) (by omega)) (g3 j (by omega) (by omega))

theorem dataSum_itemSum {be : Bool} {doff : W n} {m : Mem n} (l : List (W n)) :
    dataSum be doff m l = itemSum (fun x => (ldw be m (x + doff)).signExtend 64) l := rfl

end Verif.Rseq
