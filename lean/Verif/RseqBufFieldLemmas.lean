import Verif.RseqBufField

/-!
The loops that fill the buffers, with the fields `buflen` and `array` in memory, and the end of the buffer tests from
filled buffers.
-/

namespace Verif.Rseq

variable {n : Nat} {T : Nat → Site n} {K : BufLayout n} {fl fa : BitVec 32 → W n} {N : Nat}

/-- No node overlaps a field. -/
def NodeFields (K : BufLayout n) (fl fa : BitVec 32 → W n) (doff : W n) (node : BitVec 32 → Nat → W n) (B : Nat) : Prop :=
  ∀ c ∈ K.cpus, ∀ c' ∈ K.cpus, ∀ j, 1 ≤ j → j ≤ B → ∀ a, InWord (node c j + doff) a →
    ¬ InWord (fl c') a ∧ ¬ InWord (fa c') a

theorem ptr_body_eq (hK : K.OK) (hisz : K.isz = n) (hF : FieldsOK K fl fa) {doff : W n} {node : BitVec 32 → Nat → W n}
    {B : Nat} (hNF : NodeFields K fl fa doff node B) {c : BitVec 32} (hc : c ∈ K.cpus) (hcap : B ≤ K.cap c)
    (len : W n) (m : Mem n) (sum : BitVec 64) :
    ptrFillM K.be (K.offset c) (fa c) doff (node c) B 1 (setFields K.be (fl c) (fa c) (K.array c) len m) sum =
      ptrFill K.be (K.offset c) (K.array c) doff (node c) B 1 (setFields K.be (fl c) (fa c) (K.array c) len m) sum := by
  refine ptrFillM_eq (fun a ha => hF.off c hc c hc a (.inr ha)) _ _ _ _ (setFields_has hF hc _ _ _ _).1
    fun i h1 h2 a ha => ⟨fun hw => (hNF c hc c hc i h1 (by omega) a hw).2 ha, fun hw => ?_⟩
  have hw : InWord (K.array c + num ((i - 1) * K.isz)) a := by rw [hisz]; exact hw
  exact hF.arr c hc c hc a (.inr ha) (slot_word hK (Nat.le_of_eq hisz.symm) hc (i := i - 1) (by omega) hw)

theorem copy_body_eq (hK : K.OK) (hF : FieldsOK K fl fa) {d2 B : Nat} (hd : n ≤ d2) (hd2 : d2 + 8 ≤ K.isz)
    {c : BitVec 32} (hc : c ∈ K.cpus) (hcap : B ≤ K.cap c) (len : W n) (m : Mem n) (sum : BitVec 64) :
    copyFillM K.be (K.offset c) (fa c) K.isz d2 B 1 (setFields K.be (fl c) (fa c) (K.array c) len m) sum =
      copyFill K.be (K.offset c) (K.array c) K.isz d2 B 1 (setFields K.be (fl c) (fa c) (K.array c) len m) sum := by
  refine copyFillM_eq (fun a ha => hF.off c hc c hc a (.inr ha)) _ _ _ _ (setFields_has hF hc _ _ _ _).1
    fun i h1 h2 a ha => ⟨fun hw => ?_, fun hw => ?_⟩
  · exact hF.arr c hc c hc a (.inr ha) (slot_word hK (by omega) hc (i := i - 1) (by omega) hw)
  · exact hF.arr c hc c hc a (.inr ha) (slot_second hK hd2 hc (i := i - 1) (by omega) hw)

/-- **The loops of :1046-1076** with the fields in memory. -/
theorem buffer_setup_fields (hK : K.OK) (hisz : K.isz = n) (hnd : K.cpus.Nodup) (hF : FieldsOK K fl fa) {doff : W n}
    {node : BitVec 32 → Nat → W n} {B : Nat} (hN : NodesOK K doff node B) (hNF : NodeFields K fl fa doff node B)
    (hcap : ∀ c ∈ K.cpus, B ≤ K.cap c) {len : W n} {m : Mem n} (hz : ∀ c ∈ K.cpus, ldw K.be m (K.offset c) = 0#_) :
    ∃ m0, ptrSetupM K.be K.cpus K.offset fl fa K.array len doff node B m =
        some (m0, BitVec.ofNat 64 (K.cpus.length * (B * (B + 1) / 2))) ∧
      BufInit K m0 (Bufs.fresh (ptrItems K node B)) ∧
      (∀ c ∈ K.cpus, ∀ j, 1 ≤ j → j ≤ B → ldw K.be m0 (node c j + doff) = num j) ∧
      (∀ c ∈ K.cpus, HasFields K.be (fl c) (fa c) (K.array c) len m0) ∧
      ∀ a, (∀ c ∈ K.cpus, ¬ InWord (K.offset c) a ∧ ¬ InWord (fl c) a ∧ ¬ InWord (fa c) a ∧ ¬ K.InArr c a ∧
        ∀ j, 1 ≤ j → j ≤ B → ¬ InWord (node c j + doff) a) → m0 a = m a := by
  obtain ⟨m0, e1, e2, -⟩ := forCpus_const
    (body := fun c m sum => some (ptrFillM K.be (K.offset c) (fa c) doff (node c) B 1
      (setFields K.be (fl c) (fa c) (K.array c) len m) sum))
    (E := B * (B + 1) / 2) (Good := fun c m => c ∈ K.cpus → ldw K.be m (K.offset c) = 0#_)
    (Done := fun c m => c ∈ K.cpus → (K.Holds m c (ptrItems K node B c) ∧
      ∀ j, 1 ≤ j → j ≤ B → ldw K.be m (node c j + doff) = num j) ∧
      HasFields K.be (fl c) (fa c) (K.array c) len m) (cs := K.cpus) (m := m) (sum := 0#64) hnd
    (by
      intro c hc m sum hg
      obtain ⟨m1, hm1⟩ : ∃ m1, m1 = setFields K.be (fl c) (fa c) (K.array c) len m := ⟨_, rfl⟩
      have o1 : ∀ a, ¬ InWord (fl c) a → ¬ InWord (fa c) a → m1 a = m a := fun a h1 h2 => by
        rw [hm1, setFields_other h1 h2]
      have z1 : ldw K.be m1 (K.offset c) = 0#_ := by
        rw [← hg hc]
        exact ldw_agree fun a ha => o1 a (fun h => hF.off c hc c hc a (.inl h) ha) fun h => hF.off c hc c hc a (.inr h) ha
      obtain ⟨m', f1, f2, f3, f4⟩ := ptrFill_holds hK hisz hN hc B 1 (m := m1) (l := []) (sum := sum)
        ⟨by rw [z1]; rfl, Nat.zero_le _, fun i x hx => by simp at hx⟩ rfl (by omega) (hcap c hc)
      have hsum : itemSum (fun i => BitVec.ofNat 64 i) (List.range' 1 B) = BitVec.ofNat 64 (B * (B + 1) / 2) := by
        refine (itemSum_ofNat (f := id) ..).trans ?_
        congr 1
        have := sum_one_to B 1 B (by omega) (by omega)
        omega
      have fr : ∀ a, ¬ InWord (K.offset c) a → ¬ K.InArr c a →
          (∀ i, 1 ≤ i → i < 1 + B → ¬ InWord (node c i + doff) a) → ¬ (InWord (fl c) a ∨ InWord (fa c) a) →
          m' a = m a := fun a h1 h2 h3 h4 => by
        rw [f4 a h1 h2 h3, o1 a (fun h => h4 (.inl h)) fun h => h4 (.inr h)]
      have has := setFields_has hF hc K.be (K.array c) len m
      rw [← hm1] at has
      refine ⟨m', ?_, fun _ => ⟨⟨f2, fun j h1 h2 => f3 j h1 (by omega)⟩, ?_, ?_⟩, fun c' hne => ⟨?_, ?_⟩⟩
      · rw [ptr_body_eq hK hisz hF hNF hc (hcap c hc), ← hm1, f1, hsum]
      · rw [← has.1]
        exact ldw_agree fun a ha => f4 a (hF.off c hc c hc a (.inr ha)) (hF.arr c hc c hc a (.inr ha))
          fun i h1 h2 hw => (hNF c hc c hc i h1 (by omega) a hw).2 ha
      · rw [← has.2]
        exact ldw_agree fun a ha => f4 a (hF.off c hc c hc a (.inl ha)) (hF.arr c hc c hc a (.inl ha))
          fun i h1 h2 hw => (hNF c hc c hc i h1 (by omega) a hw).1 ha
      · intro hg' hc'
        rw [← hg' hc']
        exact ldw_agree fun a ha => fr a (fun hw => hne (hK.off_off c' hc' c hc a ha hw))
          (fun hw => hK.off_arr c' hc' c hc a ha hw)
          (fun i h1 h2 hw => hN.off c hc c' hc' i h1 (by omega) a hw ha) fun h => hF.off c hc c' hc' a h ha
      · intro hd hc'
        obtain ⟨⟨d1, d2⟩, d3, d4⟩ := hd hc'
        have fld : ∀ a, InWord (fl c') a ∨ InWord (fa c') a → m' a = m a := fun a ha =>
          fr a (hF.off c' hc' c hc a ha) (hF.arr c' hc' c hc a ha)
            (fun i h1 h2 hw => ha.elim (hNF c hc c' hc' i h1 (by omega) a hw).1 (hNF c hc c' hc' i h1 (by omega) a hw).2)
            fun h => hne (hF.apart c' hc' c hc a ha h)
        refine ⟨⟨holds_congr hK hc' d1 fun a ha => fr a ?_ ?_ ?_ ?_, fun j h1 h2 => ?_⟩, ?_, ?_⟩
        · intro hw
          rcases ha with ha | ha
          · exact hne (hK.off_off c' hc' c hc a ha hw)
          · exact hK.off_arr c hc c' hc' a hw ha
        · intro hw
          rcases ha with ha | ha
          · exact hK.off_arr c' hc' c hc a ha hw
          · exact hne (hK.arr_arr c' hc' c hc a ha hw)
        · intro i h1 h2 hw
          rcases ha with ha | ha
          · exact hN.off c hc c' hc' i h1 (by omega) a hw ha
          · exact hN.arr c hc c' hc' i h1 (by omega) a hw ha
        · intro hw
          rcases ha with ha | ha
          · exact hF.off c hc c' hc' a hw ha
          · exact hF.arr c hc c' hc' a hw ha
        · rw [← d2 j h1 h2]
          exact ldw_agree fun a ha => fr a (hN.off c' hc' c hc j h1 h2 a ha) (hN.arr c' hc' c hc j h1 h2 a ha)
            (fun i g1 g2 hw => hne (hN.apart c' hc' c hc j i h1 h2 g1 (by omega) a ha hw).1)
            fun h => h.elim (hNF c' hc' c hc j h1 h2 a ha).1 (hNF c' hc' c hc j h1 h2 a ha).2
        · rw [← d3]
          exact ldw_agree fun a ha => fld a (.inr ha)
        · rw [← d4]
          exact ldw_agree fun a ha => fld a (.inl ha))
    (fun c hc _ => hz c hc)
  have e1' : ptrSetupM K.be K.cpus K.offset fl fa K.array len doff node B m =
      some (m0, BitVec.ofNat 64 (K.cpus.length * (B * (B + 1) / 2))) := by
    unfold ptrSetupM
    rw [e1, BitVec.zero_add]
  refine ⟨m0, e1', ⟨fun c hc => (e2 c hc hc).1.1, fun _ _ => rfl, fun _ => rfl, fun _ => rfl⟩, fun c hc => (e2 c hc hc).1.2,
    fun c hc => (e2 c hc hc).2, fun a ha => ?_⟩
  refine forCpus_frame _ _ _ _ _ (fun c hc m sum m' sum' e => ?_) e1'
  obtain ⟨h1, h2, h3, h4, h5⟩ := ha c hc
  rw [ptr_body_eq hK hisz hF hNF hc (hcap c hc)] at e
  have e := congrArg Prod.fst (Option.some.inj e)
  have e : m' = _ := e.symm
  rw [e, ptrFill_frame h1 _ _ _ _ fun i g1 g2 => ⟨h5 i g1 (by omega), fun hw => h4 ?_⟩, setFields_other h2 h3]
  have hw : InWord (K.array c + num ((i - 1) * K.isz)) a := by rw [hisz]; exact hw
  have := hcap c hc
  exact slot_word hK (Nat.le_of_eq hisz.symm) hc (i := i - 1) (by omega) hw

/-- **The loops of :1290-1316** with the fields in memory. -/
theorem memcpy_setup_fields (hK : K.OK) (hnd : K.cpus.Nodup) (hF : FieldsOK K fl fa) {d2 B : Nat} (hd : n ≤ d2)
    (hd2 : d2 + 8 ≤ K.isz) (hcap : ∀ c ∈ K.cpus, B ≤ K.cap c) {len : W n} {m : Mem n}
    (hz : ∀ c ∈ K.cpus, ldw K.be m (K.offset c) = 0#_) :
    ∃ m0 buf, copySetupM K.be K.cpus K.offset fl fa K.array len K.isz d2 B m =
        some (m0, BitVec.ofNat 64 (K.cpus.length * ((B + 1) * (B + 1) - 1))) ∧
      BufInit K m0 (Bufs.fresh buf) ∧
      (∀ c ∈ K.cpus, (buf c).map (nodeVal n K.be d2) =
        (List.range' 1 B).map fun j => (num j : W n).signExtend 64 + BitVec.ofNat 64 (j + 1)) ∧
      (∀ c ∈ K.cpus, HasFields K.be (fl c) (fa c) (K.array c) len m0) ∧
      ∀ a, (∀ c ∈ K.cpus, ¬ InWord (K.offset c) a ∧ ¬ InWord (fl c) a ∧ ¬ InWord (fa c) a ∧ ¬ K.InArr c a) →
        m0 a = m a := by
  obtain ⟨m0, e1, e2, -⟩ := forCpus_const
    (body := fun c m sum => some (copyFillM K.be (K.offset c) (fa c) K.isz d2 B 1
      (setFields K.be (fl c) (fa c) (K.array c) len m) sum))
    (E := (B + 1) * (B + 1) - 1) (Good := fun c m => c ∈ K.cpus → ldw K.be m (K.offset c) = 0#_)
    (Done := fun c m => ∃ l, c ∈ K.cpus → (K.Holds m c l ∧ l.map (nodeVal n K.be d2) =
        (List.range' 1 B).map fun j => (num j : W n).signExtend 64 + BitVec.ofNat 64 (j + 1)) ∧
        HasFields K.be (fl c) (fa c) (K.array c) len m)
    (cs := K.cpus) (m := m) (sum := 0#64) hnd
    (by
      intro c hc m sum hg
      obtain ⟨m1, hm1⟩ : ∃ m1, m1 = setFields K.be (fl c) (fa c) (K.array c) len m := ⟨_, rfl⟩
      have o1 : ∀ a, ¬ InWord (fl c) a → ¬ InWord (fa c) a → m1 a = m a := fun a h1 h2 => by
        rw [hm1, setFields_other h1 h2]
      have z1 : ldw K.be m1 (K.offset c) = 0#_ := by
        rw [← hg hc]
        exact ldw_agree fun a ha => o1 a (fun h => hF.off c hc c hc a (.inl h) ha) fun h => hF.off c hc c hc a (.inr h) ha
      obtain ⟨m', l', f1, f2, f3, f4⟩ := copyFill_holds hK hd hd2 hc B 1 (m := m1) (l := []) (sum := sum)
        ⟨by rw [z1]; rfl, Nat.zero_le _, fun i x hx => by simp at hx⟩ rfl (by simpa using hcap c hc)
      have hsum : itemSum (fun i => BitVec.ofNat 64 (2 * i + 1)) (List.range' 1 B) =
          BitVec.ofNat 64 ((B + 1) * (B + 1) - 1) := by
        rw [itemSum_ofNat (f := fun i => 2 * i + 1)]
        congr 1
        have := sum_odds 1 B (by omega)
        rw [Nat.add_comm 1 B] at this
        omega
      have fr : ∀ a, ¬ InWord (K.offset c) a → ¬ K.InArr c a → ¬ (InWord (fl c) a ∨ InWord (fa c) a) →
          m' a = m a := fun a h1 h2 h4 => by
        rw [f4 a h1 h2, o1 a (fun h => h4 (.inl h)) fun h => h4 (.inr h)]
      have has := setFields_has hF hc K.be (K.array c) len m
      rw [← hm1] at has
      refine ⟨m', ?_, ⟨l', fun _ => ⟨⟨f2, f3⟩, ?_, ?_⟩⟩, fun c' hne => ⟨?_, ?_⟩⟩
      · rw [copy_body_eq hK hF hd hd2 hc (hcap c hc), ← hm1, f1, hsum]
      · rw [← has.1]
        exact ldw_agree fun a ha => f4 a (hF.off c hc c hc a (.inr ha)) (hF.arr c hc c hc a (.inr ha))
      · rw [← has.2]
        exact ldw_agree fun a ha => f4 a (hF.off c hc c hc a (.inl ha)) (hF.arr c hc c hc a (.inl ha))
      · intro hg' hc'
        rw [← hg' hc']
        exact ldw_agree fun a ha => fr a (fun hw => hne (hK.off_off c' hc' c hc a ha hw))
          (fun hw => hK.off_arr c' hc' c hc a ha hw) fun h => hF.off c hc c' hc' a h ha
      · rintro ⟨l, hl⟩
        refine ⟨l, fun hc' => ?_⟩
        obtain ⟨⟨d1, d2⟩, d3, d4⟩ := hl hc'
        have fld : ∀ a, InWord (fl c') a ∨ InWord (fa c') a → m' a = m a := fun a ha =>
          fr a (hF.off c' hc' c hc a ha) (hF.arr c' hc' c hc a ha) fun h => hne (hF.apart c' hc' c hc a ha h)
        refine ⟨⟨holds_congr hK hc' d1 fun a ha => fr a ?_ ?_ ?_, d2⟩, ?_, ?_⟩
        · intro hw
          rcases ha with ha | ha
          · exact hne (hK.off_off c' hc' c hc a ha hw)
          · exact hK.off_arr c hc c' hc' a hw ha
        · intro hw
          rcases ha with ha | ha
          · exact hK.off_arr c' hc' c hc a ha hw
          · exact hne (hK.arr_arr c' hc' c hc a ha hw)
        · intro hw
          rcases ha with ha | ha
          · exact hF.off c hc c' hc' a hw ha
          · exact hF.arr c hc c' hc' a hw ha
        · rw [← d3]
          exact ldw_agree fun a ha => fld a (.inr ha)
        · rw [← d4]
          exact ldw_agree fun a ha => fld a (.inl ha))
    (fun c hc _ => hz c hc)
  have hch : ∀ c, ∃ l, c ∈ K.cpus → (K.Holds m0 c l ∧ l.map (nodeVal n K.be d2) =
        (List.range' 1 B).map fun j => (num j : W n).signExtend 64 + BitVec.ofNat 64 (j + 1)) ∧
        HasFields K.be (fl c) (fa c) (K.array c) len m0 := fun c => by
    by_cases hc : c ∈ K.cpus
    · exact e2 c hc
    · exact ⟨[], fun h => absurd h hc⟩
  have e1' : copySetupM K.be K.cpus K.offset fl fa K.array len K.isz d2 B m =
      some (m0, BitVec.ofNat 64 (K.cpus.length * ((B + 1) * (B + 1) - 1))) := by
    unfold copySetupM
    rw [e1, BitVec.zero_add]
  refine ⟨m0, fun c => Classical.choose (hch c), e1',
    ⟨fun c hc => (Classical.choose_spec (hch c) hc).1.1, fun _ _ => rfl, fun _ => rfl, fun _ => rfl⟩,
    fun c hc => (Classical.choose_spec (hch c) hc).1.2, fun c hc => (Classical.choose_spec (hch c) hc).2, fun a ha => ?_⟩
  refine forCpus_frame _ _ _ _ _ (fun c hc m sum m' sum' e => ?_) e1'
  obtain ⟨h1, h2, h3, h4⟩ := ha c hc
  rw [copy_body_eq hK hF hd hd2 hc (hcap c hc)] at e
  have e := congrArg Prod.fst (Option.some.inj e)
  have e : m' = _ := e.symm
  have := hcap c hc
  rw [e, copyFill_frame h1 _ _ _ _ fun i g1 g2 => ⟨fun hw => h4 ?_, fun hw => h4 ?_⟩, setFields_other h2 h3]
  · exact slot_word hK (by omega) hc (i := i - 1) (by omega) hw
  · exact slot_second hK hd2 hc (i := i - 1) (by omega) hw

/-! ### The end of the tests from filled buffers -/

theorem buffer_end (hn : 4 ≤ n) (hbe : ∀ p, (T p).prog.be = K.be) (hK : K.OK) (hisz : K.isz = n) (hnd : K.cpus.Nodup)
    {doff : W n} {node : BitVec 32 → Nat → W n} {B : Nat} (hB : 2 * B < 2 ^ (8 * n)) (hN : NodesOK K doff node B)
    (hnull : ∀ c ∈ K.cpus, ∀ j, 1 ≤ j → j ≤ B → node c j ≠ 0#_) (hcap : ∀ c ∈ K.cpus, K.cap c = K.cpus.length * B)
    {m0 : Mem n} (e2 : BufInit K m0 (Bufs.fresh (ptrItems K node B)))
    (e3 : ∀ c ∈ K.cpus, ∀ j, 1 ≤ j → j ≤ B → ldw K.be m0 (node c j + doff) = num j)
    {s : State n} {G : Bufs n} {H : Hold} (h : TestReach T K m0 (Bufs.fresh (ptrItems K node B)) N s G H) :
    (∀ t y, H t = some y → ∀ c ∈ K.cpus, ldw K.be s.mem (K.offset c) ≠ num (K.cap c)) ∧
    ((∀ t, H t = none) →
      (∀ c ∈ K.cpus, ∀ j, 1 ≤ j → j ≤ B → ldw K.be s.mem (node c j + doff) = ldw K.be m0 (node c j + doff)) →
      ∀ k, K.cpus.length * B < k → ∃ m',
        forCpus (fun c => ptrLoop K.be (K.offset c) (K.array c) doff k) K.cpus s.mem 0#64 =
          some (m', BitVec.ofNat 64 (K.cpus.length * (B * (B + 1) / 2)))) := by
  have hlen : (K.cpus.flatMap (ptrItems K node B)).length = K.cpus.length * B :=
    length_flat fun c _ => by simp [ptrItems]
  refine ⟨fun t y hy c hc => ?_, fun hq hdata k hk => ?_⟩
  · exact buffer_test_no_abort hn hbe hK e2 hnd h hy hc (by rw [hcap c hc]; exact Nat.le_of_eq hlen)
  · obtain ⟨m', f1, -⟩ := buffer_test_final hn hbe hK e2 hnd hisz (doff := doff)
      (nodes := fun c => (List.range' 1 B).map (node c))
      (fun c _ => by show ptrItems K node B c = _; simp [ptrItems])
      (fun x hx => by
        obtain ⟨c, hc, hx⟩ := List.mem_flatMap.1 hx
        obtain ⟨j, hj, rfl⟩ := List.mem_map.1 hx
        rw [List.mem_range'_1] at hj
        exact hnull c hc j hj.1 (by omega))
      (fun c' hc' x a hx ha => by
        obtain ⟨c, hc, hx⟩ := List.mem_flatMap.1 hx
        obtain ⟨j, hj, rfl⟩ := List.mem_map.1 hx
        rw [List.mem_range'_1] at hj
        exact hN.off c hc c' hc' j hj.1 (by omega) a ha)
      h hq
      (fun x hx => by
        obtain ⟨c, hc, hx⟩ := List.mem_flatMap.1 hx
        obtain ⟨j, hj, rfl⟩ := List.mem_map.1 hx
        rw [List.mem_range'_1] at hj
        exact hdata c hc j hj.1 (by omega))
      (k := k) (by rw [length_flat (B := B) fun c _ => by simp]; exact hk)
    refine ⟨m', ?_⟩
    rw [f1]
    congr 2
    refine itemSum_flat fun c hc => ?_
    rw [itemSum_map, itemSum_congr (val' := fun j => BitVec.ofNat 64 (id j)), itemSum_ofNat]
    · congr 1
      have := sum_one_to B 1 B (by omega) (by omega)
      omega
    · intro j hj
      rw [List.mem_range'_1] at hj
      rw [e3 c hc j hj.1 (by omega)]
      exact signExtend_small (by omega)

theorem memcpy_end (hn : 4 ≤ n) (hbe : ∀ p, (T p).prog.be = K.be) (hK : K.OK) (hnd : K.cpus.Nodup) {d2 B : Nat}
    (hB : 2 * B < 2 ^ (8 * n)) (hcap : ∀ c ∈ K.cpus, K.cap c = K.cpus.length * B) {item : W n} (hA : ItemApart K item)
    {m0 : Mem n} {buf : BitVec 32 → List (List Byte)} (e2 : BufInit K m0 (Bufs.fresh buf))
    (e3 : ∀ c ∈ K.cpus, (buf c).map (nodeVal n K.be d2) =
      (List.range' 1 B).map fun j => (num j : W n).signExtend 64 + BitVec.ofNat 64 (j + 1))
    {s : State n} {G : Bufs n} {H : Hold} (h : TestReach T K m0 (Bufs.fresh buf) N s G H) :
    (∀ t y, H t = some y → ∀ c ∈ K.cpus, ldw K.be s.mem (K.offset c) ≠ num (K.cap c)) ∧
    ((∀ t, H t = none) → ∀ k, K.cpus.length * B < k → ∃ m',
      forCpus (fun c => copyLoop K.be (K.offset c) (K.array c) K.isz item (nodeVal n K.be d2) k) K.cpus s.mem
        0#64 = some (m', BitVec.ofNat 64 (K.cpus.length * ((B + 1) * (B + 1) - 1)))) := by
  have hlen : (K.cpus.flatMap buf).length = K.cpus.length * B := length_flat fun c hc => by
    have := congrArg List.length (e3 c hc)
    simpa using this
  refine ⟨fun t y hy c hc => ?_, fun hq k hk => ?_⟩
  · exact buffer_test_no_abort hn hbe hK e2 hnd h hy hc (by rw [hcap c hc]; exact Nat.le_of_eq hlen)
  · obtain ⟨m', f1, -⟩ := memcpy_buffer_test_final hn hbe hK e2 hnd hA (nodeVal n K.be d2) h hq (k := k)
      (by show (K.cpus.flatMap buf).length < k; rw [hlen]; exact hk)
    refine ⟨m', ?_⟩
    rw [f1]
    congr 2
    refine itemSum_flat fun c hc => ?_
    have hid : itemSum (nodeVal n K.be d2) (buf c) = itemSum id ((buf c).map (nodeVal n K.be d2)) := by
      rw [itemSum_map]; rfl
    show itemSum (nodeVal n K.be d2) (buf c) = _
    rw [hid, e3 c hc, itemSum_map,
      itemSum_congr (val' := fun j => BitVec.ofNat 64 ((fun i => 2 * i + 1) j)), itemSum_ofNat]
    · congr 1
      have := sum_odds 1 B (by omega)
      rw [Nat.add_comm 1 B] at this
      omega
    · intro j hj
      rw [List.mem_range'_1] at hj
      show (num j : W n).signExtend 64 + BitVec.ofNat 64 (j + 1) = _
      rw [signExtend_small (show 2 * j < 2 ^ (8 * n) by omega), ← BitVec.ofNat_add]
      exact congrArg (BitVec.ofNat 64) (by show j + (j + 1) = 2 * j + 1; omega)

end Verif.Rseq
