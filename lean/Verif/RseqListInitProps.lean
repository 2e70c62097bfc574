import Verif.RseqListInit
import Verif.RseqStackEx
/-
C89, with the loops that build the lists: from empty lists to the comparison of the sums at the end of the list tests.
-/

namespace Verif.Rseq

variable {n : Nat} {T : Nat → Site n} {K : ListLayout n}

/-- The lists built: the node allocated last comes first. -/
def listNodes (node : BitVec 32 → Nat → W n) (B : Nat) (c : BitVec 32) : List (W n) :=
  ((List.range' 1 B).map (node c)).reverse

/-- **C89: the loops that build the lists.**  From empty lists they leave, for every CPU, the list of its `B` nodes with
data `B`, …, `1`, and `expected_sum` is the number of CPUs times `B (B + 1) / 2`. -/
theorem list_setup (hK : K.OK) (hnd : K.cpus.Nodup) {doff : W n} (hD : DataApart K doff)
    {node : BitVec 32 → Nat → W n} {B : Nat} (hN : ListNodesOK K doff node B)
    {m : Mem n} (hz : ∀ c ∈ K.cpus, ldw K.be m (K.head c) = 0#_) :
    ∃ m0, listSetup K doff node B m = some (m0, BitVec.ofNat 64 (K.cpus.length * (B * (B + 1) / 2))) ∧
      StackInit K m0 (Stacks.fresh (listNodes node B)) ∧
      ∀ c ∈ K.cpus, ∀ j, 1 ≤ j → j ≤ B → ldw K.be m0 (node c j + doff) = num j := by
  have hnode : ∀ c ∈ K.cpus, ∀ i, 1 ≤ i → i ≤ B → K.nodes (node c i) := fun c hc i g1 g2 =>
    (hN.nodes _).2 ⟨c, hc, i, g1, g2, rfl⟩
  have hmem : ∀ c x, x ∈ listNodes node B c ↔ ∃ j, 1 ≤ j ∧ j ≤ B ∧ x = node c j := by
    intro c x
    unfold listNodes
    rw [List.mem_reverse, List.mem_map]
    constructor
    · rintro ⟨j, hj, rfl⟩
      rw [List.mem_range'_1] at hj
      exact ⟨j, hj.1, by omega, rfl⟩
    · rintro ⟨j, h1, h2, rfl⟩
      exact ⟨j, by rw [List.mem_range'_1]; omega, rfl⟩
  obtain ⟨m0, e1, e2, -⟩ := forCpus_const
    (body := fun c m sum => some (listFill K.be (K.head c) K.off doff (node c) B 1 m sum))
    (E := B * (B + 1) / 2) (Good := fun c m => c ∈ K.cpus → ldw K.be m (K.head c) = 0#_)
    (Done := fun c m => c ∈ K.cpus → IsList K.be K.off m (ldw K.be m (K.head c)) (listNodes node B c) ∧
      ∀ j, 1 ≤ j → j ≤ B → ldw K.be m (node c j + doff) = num j) (cs := K.cpus) (m := m) (sum := 0#64) hnd
    (by
      intro c hc m sum hg
      obtain ⟨m', f1, f2, f3, f4⟩ := listFill_list hK hD hN hc B 1 (m := m) (l := []) (sum := sum)
        (hg hc) (by omega) (by omega) (fun x hx => by cases hx)
      rw [List.append_nil] at f2
      have hsum : itemSum (fun i => BitVec.ofNat 64 i) (List.range' 1 B) = BitVec.ofNat 64 (B * (B + 1) / 2) := by
        refine (itemSum_ofNat (f := id) ..).trans ?_
        congr 1
        have := sum_one_to B 1 B (by omega) (by omega)
        omega
      have hhead : ∀ c' ∈ K.cpus, c' ≠ c → ldw K.be m' (K.head c') = ldw K.be m (K.head c') := fun c' hc' hne =>
        ldw_agree fun a ha => f4 a (fun hw => hne (hK.head_head c' hc' c hc a ha hw))
          (fun i g1 g2 hw => hD.head c' hc' _ a (hnode c hc i g1 (by omega)) ha hw)
          fun i g1 g2 hw => hK.head_next c' hc' _ a (hnode c hc i g1 (by omega)) ha hw
      refine ⟨m', by rw [f1, hsum], fun _ => ⟨f2, fun j h1 h2 => f3 j h1 (by omega)⟩, fun c' hne => ⟨?_, ?_⟩⟩
      · intro hg' hc'
        rw [← hg' hc']
        exact hhead c' hc' hne
      · intro hd hc'
        obtain ⟨d1, d2⟩ := hd hc'
        refine ⟨?_, fun j h1 h2 => ?_⟩
        · rw [hhead c' hc' hne]
          refine d1.congr fun x hx => ldw_agree fun a ha => ?_
          obtain ⟨j, h1, h2, rfl⟩ := (hmem c' x).1 hx
          have hx := hnode c' hc' j h1 h2
          exact f4 a (fun hw => hK.head_next c hc _ a hx hw ha)
            (fun i g1 g2 hw => hN.data_next _ _ a (hnode c hc i g1 (by omega)) hx hw ha)
            fun i g1 g2 hw => hne (hN.inj c' hc' c hc j i h1 h2 g1 (by omega)
              (hK.next_next _ _ a hx (hnode c hc i g1 (by omega)) ha hw)).1
        · rw [← d2 j h1 h2]
          have hx := hnode c' hc' j h1 h2
          exact ldw_agree fun a ha => f4 a (fun hw => hD.head c hc _ a hx hw ha)
            (fun i g1 g2 hw => hne (hN.inj c' hc' c hc j i h1 h2 g1 (by omega)
              (hN.data_data _ _ a hx (hnode c hc i g1 (by omega)) ha hw)).1)
            fun i g1 g2 hw => hN.data_next _ _ a hx (hnode c hc i g1 (by omega)) ha hw)
    (fun c hc _ => hz c hc)
  refine ⟨m0, ?_, ⟨fun c hc => (e2 c hc hc).1, ?_, ?_, ?_, ?_, ?_⟩, fun c hc => (e2 c hc hc).2⟩
  · unfold listSetup
    rw [e1, BitVec.zero_add]
  · intro c hc x hx
    obtain ⟨j, h1, h2, rfl⟩ := (hmem c x).1 hx
    exact ⟨hnode c hc j h1 h2, rfl⟩
  · intro c hc
    show (listNodes node B c).Nodup
    unfold listNodes
    refine (List.reverse_perm _).nodup_iff.2 (List.pairwise_map.2 ?_)
    have := List.nodup_range' (s := 1) (n := B)
    refine List.Pairwise.imp_of_mem ?_ this
    intro i j hi hj hne e
    rw [List.mem_range'_1] at hi hj
    exact hne (hN.inj c hc c hc i j hi.1 (by omega) hj.1 (by omega) e).2
  · intro c hc c' hc' x hx hx'
    obtain ⟨j, h1, h2, rfl⟩ := (hmem c x).1 hx
    obtain ⟨j', h1', h2', e⟩ := (hmem c' _).1 hx'
    exact (hN.inj c hc c' hc' j j' h1 h2 h1' h2' e).1
  · intro x o h; cases h
  · intro x hx
    obtain ⟨c, hc, j, h1, h2, rfl⟩ := (hN.nodes x).1 hx
    exact .inr ⟨c, hc, (hmem c _).2 ⟨j, h1, h2, rfl⟩⟩

/-- **C89: the list tests end with the sum they expect.**  From empty lists, through the loops that build the lists and
any execution of threads that use them, to a state in which every node is back in a list: the loops that empty the
lists end with `sum == expected_sum` (basic_percpu_ops_test.c:321, param_test.c:877). -/
theorem list_test_passes (hn : 4 ≤ n) (hbe : ∀ p, (T p).prog.be = K.be) (hK : K.OK) (hnd : K.cpus.Nodup)
    {doff : W n} (hD : DataApart K doff) {node : BitVec 32 → Nat → W n} {B : Nat} (hB : 2 * B < 2 ^ (8 * n))
    (hN : ListNodesOK K doff node B) {m : Mem n} (hz : ∀ c ∈ K.cpus, ldw K.be m (K.head c) = 0#_) :
    ∃ m0 expected, listSetup K doff node B m = some (m0, expected) ∧
      ∀ {s : State n} {G : Stacks n}, SReach T K m0 (Stacks.fresh (listNodes node B)) s G →
        (∀ x, G.own x = none) →
        (∀ x, K.nodes x → ldw K.be s.mem (x + doff) = ldw K.be m0 (x + doff)) →
        ∀ k, K.cpus.length * B < k → ∃ m', popAll K.be K.off doff K.head k K.cpus s.mem 0#64 = some (m', expected) ∧
          ∀ c ∈ K.cpus, ldw K.be m' (K.head c) = 0#_ := by
  obtain ⟨m0, e1, e2, e3⟩ := list_setup hK hnd hD hN hz
  have hlen : (K.cpus.flatMap (listNodes node B)).length = K.cpus.length * B :=
    length_flat fun c _ => by simp [listNodes]
  refine ⟨m0, _, e1, fun {s G} h hq hdata k hk => ?_⟩
  obtain ⟨m', f1, f2⟩ := list_test_final hn hbe hK e2 hD h hnd (fun _ => rfl) hq hdata (k := k)
    (by show (K.cpus.flatMap (listNodes node B)).length < k; rw [hlen]; exact hk)
  refine ⟨m', ?_, f2⟩
  rw [f1, dataSum_itemSum]
  congr 2
  refine itemSum_flat fun c hc => ?_
  have hp : itemSum (fun x => (ldw K.be m0 (x + doff)).signExtend 64) (listNodes node B c) =
      itemSum (fun x => (ldw K.be m0 (x + doff)).signExtend 64) ((List.range' 1 B).map (node c)) :=
    itemSum_perm (List.reverse_perm _)
  refine hp.trans ?_
  rw [itemSum_map, itemSum_congr (val' := fun j => BitVec.ofNat 64 (id j)), itemSum_ofNat]
  · congr 1
    have := sum_one_to B 1 B (by omega) (by omega)
    omega
  · intro j hj
    rw [List.mem_range'_1] at hj
    rw [e3 c hc j hj.1 (by omega)]
    exact signExtend_small (by omega)

end Verif.Rseq
