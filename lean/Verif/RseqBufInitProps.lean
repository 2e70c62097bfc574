import Verif.RseqBufInitLemmas
import Verif.RseqBufTestEx
/-
C93, with the loops that fill the buffers: from buffers as `rseq_mempool_percpu_zmalloc` returns them to the assertion at
the end of the tests.
-/

namespace Verif.Rseq

variable {n : Nat} {T : Nat → Site n} {K : BufLayout n} {m0 : Mem n} {N : Nat}

/-- The buffers of `test_percpu_buffer` once filled, `B` items per CPU. -/
def ptrItems (K : BufLayout n) (node : BitVec 32 → Nat → W n) (B : Nat) (c : BitVec 32) : List (List Byte) :=
  (List.range' 1 B).map fun j => wordItem K.be (node c j)

/-- **C93: the loops of :1046-1076.**  From offsets of 0 they put the nodes of each CPU into its buffer in the order of
allocation, store `1`, …, `B` to them, and `expected_sum` is the number of CPUs times `B (B + 1) / 2`. -/
theorem buffer_setup (hK : K.OK) (hisz : K.isz = n) (hnd : K.cpus.Nodup) {doff : W n}
    {node : BitVec 32 → Nat → W n} {B : Nat} (hN : NodesOK K doff node B) (hcap : ∀ c ∈ K.cpus, B ≤ K.cap c)
    {m : Mem n} (hz : ∀ c ∈ K.cpus, ldw K.be m (K.offset c) = 0#_) :
    ∃ m0, ptrSetup K doff node B m = some (m0, BitVec.ofNat 64 (K.cpus.length * (B * (B + 1) / 2))) ∧
      BufInit K m0 (Bufs.fresh (ptrItems K node B)) ∧
      ∀ c ∈ K.cpus, ∀ j, 1 ≤ j → j ≤ B → ldw K.be m0 (node c j + doff) = num j := by
  obtain ⟨m0, e1, e2, -⟩ := forCpus_const
    (body := fun c m sum => some (ptrFill K.be (K.offset c) (K.array c) doff (node c) B 1 m sum))
    (E := B * (B + 1) / 2) (Good := fun c m => c ∈ K.cpus → ldw K.be m (K.offset c) = 0#_)
    (Done := fun c m => c ∈ K.cpus → K.Holds m c (ptrItems K node B c) ∧
      ∀ j, 1 ≤ j → j ≤ B → ldw K.be m (node c j + doff) = num j) (cs := K.cpus) (m := m) (sum := 0#64) hnd
    (by
      intro c hc m sum hg
      obtain ⟨m', f1, f2, f3, f4⟩ := ptrFill_holds hK hisz hN hc B 1 (m := m) (l := []) (sum := sum)
        ⟨by rw [hg hc]; rfl, Nat.zero_le _, fun i x hx => by simp at hx⟩ rfl (by omega) (hcap c hc)
      have hsum : itemSum (fun i => BitVec.ofNat 64 i) (List.range' 1 B) = BitVec.ofNat 64 (B * (B + 1) / 2) := by
        refine (itemSum_ofNat (f := id) ..).trans ?_
        congr 1
        have := sum_one_to B 1 B (by omega) (by omega)
        omega
      refine ⟨m', by rw [f1, hsum], fun _ => ⟨f2, fun j h1 h2 => f3 j h1 (by omega)⟩, fun c' hne => ⟨?_, ?_⟩⟩
      · intro hg' hc'
        rw [← hg' hc']
        exact ldw_agree fun a ha => f4 a (fun hw => hne (hK.off_off c' hc' c hc a ha hw))
          (fun hw => hK.off_arr c' hc' c hc a ha hw)
          fun i h1 h2 hw => hN.off c hc c' hc' i h1 (by omega) a hw ha
      · intro hd hc'
        obtain ⟨d1, d2⟩ := hd hc'
        refine ⟨holds_congr hK hc' d1 fun a ha => f4 a ?_ ?_ ?_, fun j h1 h2 => ?_⟩
        · intro hw
          rcases ha with ha | ha
          · exact hne (hK.off_off c' hc' c hc a ha hw)
          · exact hK.off_arr c hc c' hc' a hw ha
        · intro hw
          rcases ha with ha | ha
          · exact hK.off_arr c' hc' c hc a ha hw
          · exact hne (hK.arr_arr c' hc' c hc a ha hw)
        · intro i h1 h2 hw
          rcases ha with ha | ha
          · exact hN.off c hc c' hc' i h1 (by omega) a hw ha
          · exact hN.arr c hc c' hc' i h1 (by omega) a hw ha
        · rw [← d2 j h1 h2]
          exact ldw_agree fun a ha => f4 a (hN.off c' hc' c hc j h1 h2 a ha) (hN.arr c' hc' c hc j h1 h2 a ha)
            fun i g1 g2 hw => hne (hN.apart c' hc' c hc j i h1 h2 g1 (by omega) a ha hw).1)
    (fun c hc _ => hz c hc)
  refine ⟨m0, ?_, ⟨fun c hc => (e2 c hc hc).1, fun _ _ => rfl, fun _ => rfl, fun _ => rfl⟩, fun c hc => (e2 c hc hc).2⟩
  unfold ptrSetup
  rw [e1, BitVec.zero_add]

/-- **C93: `test_percpu_buffer` does not abort and its assertion holds.**  Buffers with offset 0 and room for the items
of all CPUs (:1052-1057), nodes that are not NULL and apart from everything else: after the loops that fill the buffers,
however the threads and signals interleave, no push finds a full buffer, and when the threads have ended, the loops
that empty the buffers end with `sum == expected_sum` (:1112). -/
theorem buffer_test_passes (hn : 4 ≤ n) (hbe : ∀ p, (T p).prog.be = K.be) (hK : K.OK) (hisz : K.isz = n)
    (hnd : K.cpus.Nodup) {doff : W n} {node : BitVec 32 → Nat → W n} {B : Nat} (hB : 2 * B < 2 ^ (8 * n))
    (hN : NodesOK K doff node B) (hnull : ∀ c ∈ K.cpus, ∀ j, 1 ≤ j → j ≤ B → node c j ≠ 0#_)
    (hcap : ∀ c ∈ K.cpus, K.cap c = K.cpus.length * B)
    {m : Mem n} (hz : ∀ c ∈ K.cpus, ldw K.be m (K.offset c) = 0#_) :
    ∃ m0 expected, ptrSetup K doff node B m = some (m0, expected) ∧
      ∀ {N : Nat} {s : State n} {G : Bufs n} {H : Hold},
        TestReach T K m0 (Bufs.fresh (ptrItems K node B)) N s G H →
        (∀ t y, H t = some y → ∀ c ∈ K.cpus, ldw K.be s.mem (K.offset c) ≠ num (K.cap c)) ∧
        ((∀ t, H t = none) →
          (∀ c ∈ K.cpus, ∀ j, 1 ≤ j → j ≤ B → ldw K.be s.mem (node c j + doff) = ldw K.be m0 (node c j + doff)) →
          ∀ k, K.cpus.length * B < k → ∃ m',
            forCpus (fun c => ptrLoop K.be (K.offset c) (K.array c) doff k) K.cpus s.mem 0#64 =
              some (m', expected)) := by
  have hcap' : ∀ c ∈ K.cpus, B ≤ K.cap c := fun c hc => by
    rw [hcap c hc]
    exact Nat.le_mul_of_pos_left B (List.length_pos_of_mem hc)
  obtain ⟨m0, e1, e2, e3⟩ := buffer_setup hK hisz hnd hN hcap' hz
  have hlen : (K.cpus.flatMap (ptrItems K node B)).length = K.cpus.length * B :=
    length_flat fun c _ => by simp [ptrItems]
  refine ⟨m0, _, e1, fun {N s G H} h => ⟨fun t y hy c hc => ?_, fun hq hdata k hk => ?_⟩⟩
  · exact buffer_test_no_abort hn hbe hK e2 hnd h hy hc (by rw [hcap c hc]; exact Nat.le_of_eq hlen)
  · obtain ⟨m', f1, -⟩ := buffer_test_final hn hbe hK e2 hnd hisz (doff := doff)
      (nodes := fun c => (List.range' 1 B).map (node c))
      (fun c _ => by show ptrItems K node B c = _; simp [ptrItems])
      (fun x hx => by
        obtain ⟨c, hc, hx⟩ := List.mem_flatMap.1 hx
        obtain ⟨j, hj, rfl⟩ := List.mem_map.1 hx
        rw [List.mem_range'_1] at hj
        exact hnull c hc j hj.1 (by omega))
      (fun c' hc' x a hx ha => by
        obtain ⟨c, hc, hx⟩ := List.mem_flatMap.1 hx
        obtain ⟨j, hj, rfl⟩ := List.mem_map.1 hx
        rw [List.mem_range'_1] at hj
        exact hN.off c hc c' hc' j hj.1 (by omega) a ha)
      h hq
      (fun x hx => by
        obtain ⟨c, hc, hx⟩ := List.mem_flatMap.1 hx
        obtain ⟨j, hj, rfl⟩ := List.mem_map.1 hx
        rw [List.mem_range'_1] at hj
        exact hdata c hc j hj.1 (by omega))
      (k := k) (by rw [length_flat (B := B) fun c _ => by simp]; exact hk)
    refine ⟨m', ?_⟩
    rw [f1]
    congr 2
    refine itemSum_flat fun c hc => ?_
    rw [itemSum_map, itemSum_congr (val' := fun j => BitVec.ofNat 64 (id j)), itemSum_ofNat]
    · congr 1
      have := sum_one_to B 1 B (by omega) (by omega)
      omega
    · intro j hj
      rw [List.mem_range'_1] at hj
      rw [e3 c hc j hj.1 (by omega)]
      exact signExtend_small (by omega)

/-- **C93: the loops of :1290-1316.**  The items of each CPU have the values of `data1 = j` and `data2 = j + 1`, and
`expected_sum` is the number of CPUs times `(B + 1)² - 1`. -/
theorem memcpy_buffer_setup (hK : K.OK) (hnd : K.cpus.Nodup) {d2 B : Nat} (hd : n ≤ d2) (hd2 : d2 + 8 ≤ K.isz)
    (hcap : ∀ c ∈ K.cpus, B ≤ K.cap c) {m : Mem n} (hz : ∀ c ∈ K.cpus, ldw K.be m (K.offset c) = 0#_) :
    ∃ m0 buf, copySetup K d2 B m = some (m0, BitVec.ofNat 64 (K.cpus.length * ((B + 1) * (B + 1) - 1))) ∧
      BufInit K m0 (Bufs.fresh buf) ∧
      ∀ c ∈ K.cpus, (buf c).map (nodeVal n K.be d2) =
        (List.range' 1 B).map fun j => (num j : W n).signExtend 64 + BitVec.ofNat 64 (j + 1) := by
  obtain ⟨m0, e1, e2, -⟩ := forCpus_const
    (body := fun c m sum => some (copyFill K.be (K.offset c) (K.array c) K.isz d2 B 1 m sum))
    (E := (B + 1) * (B + 1) - 1) (Good := fun c m => c ∈ K.cpus → ldw K.be m (K.offset c) = 0#_)
    (Done := fun c m => ∃ l, c ∈ K.cpus → K.Holds m c l ∧ l.map (nodeVal n K.be d2) =
        (List.range' 1 B).map fun j => (num j : W n).signExtend 64 + BitVec.ofNat 64 (j + 1))
    (cs := K.cpus) (m := m) (sum := 0#64) hnd
    (by
      intro c hc m sum hg
      obtain ⟨m', l', f1, f2, f3, f4⟩ := copyFill_holds hK hd hd2 hc B 1 (m := m) (l := []) (sum := sum)
        ⟨by rw [hg hc]; rfl, Nat.zero_le _, fun i x hx => by simp at hx⟩ rfl (by simpa using hcap c hc)
      have hsum : itemSum (fun i => BitVec.ofNat 64 (2 * i + 1)) (List.range' 1 B) =
          BitVec.ofNat 64 ((B + 1) * (B + 1) - 1) := by
        rw [itemSum_ofNat (f := fun i => 2 * i + 1)]
        congr 1
        have := sum_odds 1 B (by omega)
        rw [Nat.add_comm 1 B] at this
        omega
      refine ⟨m', by rw [f1, hsum], ⟨l', fun _ => ⟨f2, f3⟩⟩, fun c' hne => ⟨?_, ?_⟩⟩
      · intro hg' hc'
        rw [← hg' hc']
        exact ldw_agree fun a ha => f4 a (fun hw => hne (hK.off_off c' hc' c hc a ha hw))
          (fun hw => hK.off_arr c' hc' c hc a ha hw)
      · rintro ⟨l, hl⟩
        refine ⟨l, fun hc' => ⟨holds_congr hK hc' (hl hc').1 fun a ha => f4 a ?_ ?_, (hl hc').2⟩⟩
        · intro hw
          rcases ha with ha | ha
          · exact hne (hK.off_off c' hc' c hc a ha hw)
          · exact hK.off_arr c hc c' hc' a hw ha
        · intro hw
          rcases ha with ha | ha
          · exact hK.off_arr c' hc' c hc a ha hw
          · exact hne (hK.arr_arr c' hc' c hc a ha hw))
    (fun c hc _ => hz c hc)
  have hch : ∀ c, ∃ l, c ∈ K.cpus → K.Holds m0 c l ∧ l.map (nodeVal n K.be d2) =
        (List.range' 1 B).map fun j => (num j : W n).signExtend 64 + BitVec.ofNat 64 (j + 1) := fun c => by
    by_cases hc : c ∈ K.cpus
    · exact e2 c hc
    · exact ⟨[], fun h => absurd h hc⟩
  refine ⟨m0, fun c => Classical.choose (hch c), ?_,
    ⟨fun c hc => (Classical.choose_spec (hch c) hc).1, fun _ _ => rfl, fun _ => rfl, fun _ => rfl⟩,
    fun c hc => (Classical.choose_spec (hch c) hc).2⟩
  unfold copySetup
  rw [e1, BitVec.zero_add]

/-- **C93: `test_percpu_memcpy_buffer` does not abort and its assertion holds.**  As `buffer_test_passes`; here the
items are copied, so nothing need be assumed about other memory (:1353). -/
theorem memcpy_buffer_test_passes (hn : 4 ≤ n) (hbe : ∀ p, (T p).prog.be = K.be) (hK : K.OK)
    (hnd : K.cpus.Nodup) {d2 B : Nat} (hd : n ≤ d2) (hd2 : d2 + 8 ≤ K.isz) (hB : 2 * B < 2 ^ (8 * n))
    (hcap : ∀ c ∈ K.cpus, K.cap c = K.cpus.length * B) {item : W n} (hA : ItemApart K item)
    {m : Mem n} (hz : ∀ c ∈ K.cpus, ldw K.be m (K.offset c) = 0#_) :
    ∃ m0 expected buf, copySetup K d2 B m = some (m0, expected) ∧
      ∀ {N : Nat} {s : State n} {G : Bufs n} {H : Hold}, TestReach T K m0 (Bufs.fresh buf) N s G H →
        (∀ t y, H t = some y → ∀ c ∈ K.cpus, ldw K.be s.mem (K.offset c) ≠ num (K.cap c)) ∧
        ((∀ t, H t = none) → ∀ k, K.cpus.length * B < k → ∃ m',
          forCpus (fun c => copyLoop K.be (K.offset c) (K.array c) K.isz item (nodeVal n K.be d2) k) K.cpus s.mem
            0#64 = some (m', expected)) := by
  have hcap' : ∀ c ∈ K.cpus, B ≤ K.cap c := fun c hc => by
    rw [hcap c hc]
    exact Nat.le_mul_of_pos_left B (List.length_pos_of_mem hc)
  obtain ⟨m0, buf, e1, e2, e3⟩ := memcpy_buffer_setup hK hnd hd hd2 hcap' hz
  have hlen : (K.cpus.flatMap buf).length = K.cpus.length * B := length_flat fun c hc => by
    have := congrArg List.length (e3 c hc)
    simpa using this
  refine ⟨m0, _, buf, e1, fun {N s G H} h => ⟨fun t y hy c hc => ?_, fun hq k hk => ?_⟩⟩
  · exact buffer_test_no_abort hn hbe hK e2 hnd h hy hc (by rw [hcap c hc]; exact Nat.le_of_eq hlen)
  · obtain ⟨m', f1, -⟩ := memcpy_buffer_test_final hn hbe hK e2 hnd hA (nodeVal n K.be d2) h hq (k := k)
      (by show (K.cpus.flatMap buf).length < k; rw [hlen]; exact hk)
    refine ⟨m', ?_⟩
    rw [f1]
    congr 2
    refine itemSum_flat fun c hc => ?_
    have hid : itemSum (nodeVal n K.be d2) (buf c) = itemSum id ((buf c).map (nodeVal n K.be d2)) := by
      rw [itemSum_map]; rfl
    show itemSum (nodeVal n K.be d2) (buf c) = _
    rw [hid, e3 c hc, itemSum_map,
      itemSum_congr (val' := fun j => BitVec.ofNat 64 ((fun i => 2 * i + 1) j)), itemSum_ofNat]
    · congr 1
      have := sum_odds 1 B (by omega)
      rw [Nat.add_comm 1 B] at this
      omega
    · intro j hj
      rw [List.mem_range'_1] at hj
      show (num j : W n).signExtend 64 + BitVec.ofNat 64 (j + 1) = _
      rw [signExtend_small (show 2 * j < 2 ^ (8 * n) by omega), ← BitVec.ofNat_add]
      exact congrArg (BitVec.ofNat 64) (by show j + (j + 1) = 2 * j + 1; omega)

end Verif.Rseq
