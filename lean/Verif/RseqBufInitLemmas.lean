import Verif.RseqBufInit
import Verif.RseqBufTestProps
/-
Lemmas on the loops that fill the buffers.
-/

namespace Verif.Rseq

variable {n : Nat} {K : BufLayout n}

theorem wordOf_ptrOf (n : Nat) (be : Bool) (y : List Byte) : wordOf n be y = ptrOf n be y := rfl

/-- Memory with one item more in the buffer of CPU `c`. -/
theorem holds_push (hK : K.OK) {c : BitVec 32} (hc : c ∈ K.cpus) {m m' : Mem n} {l : List (List Byte)}
    (h : K.Holds m c l) (hcap : l.length < K.cap c)
    (hm : ∀ a, K.InArr c a → ¬ (a - K.slot c l.length).toNat < K.isz → m' a = m a)
    (ho : ldw K.be m' (K.offset c) = ldw K.be m (K.offset c) + 1#_) :
    K.Holds m' c (l ++ [bytes m' (K.slot c l.length) K.isz]) := by
  obtain ⟨h1, h2, h3⟩ := h
  refine ⟨?_, by simp; omega, fun i x hx => ?_⟩
  · rw [ho, h1, List.length_append, List.length_singleton]
    exact (BitVec.ofNat_add _ 1).symm
  · by_cases hi : i < l.length
    · rw [List.getElem?_append_left hi] at hx
      rw [← h3 i x hx]
      refine bytes_congr fun a ha => hm a (hK.slot_arr hc (by omega) ha) fun hs => ?_
      have := hK.slot_slot hc (by omega) hcap ha hs
      omega
    · have hlt := (List.getElem?_eq_some_iff.1 hx).1
      simp at hlt
      have : i = l.length := by omega
      subst this
      simp at hx
      exact hx

/-- The words of the nodes of one CPU are apart from the buffers and from each other. -/
structure NodesOK (K : BufLayout n) (doff : W n) (node : BitVec 32 → Nat → W n) (B : Nat) : Prop where
  off : ∀ c ∈ K.cpus, ∀ c' ∈ K.cpus, ∀ j, 1 ≤ j → j ≤ B → ∀ a, InWord (node c j + doff) a → ¬ InWord (K.offset c') a
  arr : ∀ c ∈ K.cpus, ∀ c' ∈ K.cpus, ∀ j, 1 ≤ j → j ≤ B → ∀ a, InWord (node c j + doff) a → ¬ K.InArr c' a
  apart : ∀ c ∈ K.cpus, ∀ c' ∈ K.cpus, ∀ j j', 1 ≤ j → j ≤ B → 1 ≤ j' → j' ≤ B → ∀ a,
    InWord (node c j + doff) a → InWord (node c' j' + doff) a → c = c' ∧ j = j'

theorem range'_cons (j k : Nat) : List.range' j (k + 1) = j :: List.range' (j + 1) k := rfl

theorem itemSum_cons {α : Type} (val : α → BitVec 64) (y : α) (l : List α) :
    itemSum val (y :: l) = val y + itemSum val l := rfl

theorem ptrFill_holds (hK : K.OK) (hisz : K.isz = n) {doff : W n} {node : BitVec 32 → Nat → W n} {B : Nat}
    (hN : NodesOK K doff node B) {c : BitVec 32} (hc : c ∈ K.cpus) : ∀ (k j : Nat) {m : Mem n}
    {l : List (List Byte)} {sum : BitVec 64}, K.Holds m c l → l.length + 1 = j → j + k = B + 1 → B ≤ K.cap c →
    ∃ m', ptrFill K.be (K.offset c) (K.array c) doff (node c) k j m sum =
        (m', sum + itemSum (fun i => BitVec.ofNat 64 i) (List.range' j k)) ∧
      K.Holds m' c (l ++ (List.range' j k).map fun i => wordItem K.be (node c i)) ∧
      (∀ i, j ≤ i → i < j + k → ldw K.be m' (node c i + doff) = num i) ∧
      ∀ a, ¬ InWord (K.offset c) a → ¬ K.InArr c a →
        (∀ i, j ≤ i → i < j + k → ¬ InWord (node c i + doff) a) → m' a = m a := by
  intro k
  induction k with
  | zero =>
    intro j m l sum h _ _ _
    refine ⟨m, by simp [ptrFill, itemSum], by simpa using h, fun i h1 h2 => ?_, fun _ _ _ _ => rfl⟩
    omega
  | succ k ih =>
    intro j m l sum h hj hB hcap
    obtain ⟨m1, hm1⟩ : ∃ m1, m1 = stw K.be m (node c j + doff) (num j) := ⟨_, rfl⟩
    obtain ⟨m2, hm2⟩ : ∃ m2, m2 = stw K.be m1 (K.array c + num ((j - 1) * n)) (node c j) := ⟨_, rfl⟩
    obtain ⟨m3, hm3⟩ : ∃ m3, m3 = stw K.be m2 (K.offset c) (ldw K.be m2 (K.offset c) + 1#_) := ⟨_, rfl⟩
    have hslot : K.array c + num ((j - 1) * n) = K.slot c l.length := by
      unfold BufLayout.slot; rw [hisz, ← hj]; rfl
    rw [hslot] at hm2
    have hlc : l.length < K.cap c := by omega
    have sl : ∀ a, InWord (K.slot c l.length) a ↔ (a - K.slot c l.length).toNat < K.isz := by
      intro a; rw [hisz]; exact Iff.rfl
    have o2 : ldw K.be m2 (K.offset c) = ldw K.be m (K.offset c) := by
      refine ldw_agree fun a ha => ?_
      rw [hm2, stw_other _ _ _ _ _ (fun hw => hK.off_arr c hc c hc a ha (hK.slot_arr hc hlc ((sl a).1 hw))), hm1,
        stw_other _ _ _ _ _ (fun hw => hN.off c hc c hc j (by omega) (by omega) a hw ha)]
    have o3 : ldw K.be m3 (K.offset c) = ldw K.be m (K.offset c) + 1#_ := by
      rw [hm3, ldw_stw_same, o2]
    have a3 : ∀ a, K.InArr c a → m3 a = m2 a := fun a ha => by
      rw [hm3, stw_other _ _ _ _ _ (fun hw => hK.off_arr c hc c hc a hw ha)]
    have h3 : K.Holds m3 c (l ++ [bytes m3 (K.slot c l.length) K.isz]) := by
      refine holds_push hK hc h hlc (fun a ha hs => ?_) o3
      rw [a3 a ha, hm2, stw_other _ _ _ _ _ (fun hw => hs ((sl a).1 hw)), hm1,
        stw_other _ _ _ _ _ (fun hw => hN.arr c hc c hc j (by omega) (by omega) a hw ha)]
    have hb : bytes m3 (K.slot c l.length) K.isz = wordItem K.be (node c j) := by
      rw [bytes_congr (m' := m2) fun a ha => a3 a (hK.slot_arr hc hlc ha), hm2, hisz, bytes_stw]
    rw [hb] at h3
    obtain ⟨m', e1, e2, e3, e4⟩ := ih (j + 1) (m := m3) (sum := sum + BitVec.ofNat 64 j) h3 (by simp; omega)
      (by omega) hcap
    refine ⟨m', ?_, ?_, fun i h1 h2 => ?_, fun a h1 h2 h3' => ?_⟩
    · rw [ptrFill, hslot, ← hm1, ← hm2, ← hm3, e1, range'_cons, itemSum_cons, BitVec.add_assoc]
    · rw [range'_cons, List.map_cons, ← List.singleton_append, ← List.append_assoc]
      exact e2
    · by_cases hi : i = j
      · subst hi
        have : ldw K.be m' (node c i + doff) = ldw K.be m1 (node c i + doff) := by
          refine ldw_agree fun a ha => ?_
          have n1 := hN.off c hc c hc i (by omega) (by omega) a ha
          have n2 := hN.arr c hc c hc i (by omega) (by omega) a ha
          rw [e4 a n1 n2 fun i' g1 g2 hw => by
              have := (hN.apart c hc c hc i i' (by omega) (by omega) (by omega) (by omega) a ha hw).2
              omega, hm3, stw_other _ _ _ _ _ n1, hm2,
            stw_other _ _ _ _ _ fun hw => n2 (hK.slot_arr hc hlc ((sl a).1 hw))]
        rw [this, hm1, ldw_stw_same]
      · exact e3 i (by omega) (by omega)
    · rw [e4 a h1 h2 fun i g1 g2 => h3' i (by omega) (by omega), hm3, stw_other _ _ _ _ _ h1, hm2,
        stw_other _ _ _ _ _ fun hw => h2 (hK.slot_arr hc hlc ((sl a).1 hw)), hm1,
        stw_other _ _ _ _ _ (h3' j (by omega) (by omega))]

/-! ### Items of two data -/

theorem wordOf_bytes (be : Bool) (m : Mem n) (a : W n) {k : Nat} (hk : n ≤ k) :
    wordOf n be (bytes m a k) = ldw be m a := by
  unfold wordOf
  have : ldw be (fun x : W n => (bytes m a k).getD x.toNat 0#8) 0#_ = ldw be (fun x : W n => m (a + x)) 0#_ := by
    refine ldw_agree fun x hx => ?_
    unfold InWord at hx
    rw [BitVec.sub_zero] at hx
    have : x.toNat < k := by omega
    simp [bytes, List.getD_eq_getElem?_getD, this]
  rw [this]
  unfold ldw
  simp only [BitVec.zero_add]

theorem stl_other (m : Mem n) (a : W n) (l : List Byte) (x : W n) (h : ¬ (x - a).toNat < l.length) :
    stl m a l x = m x := by
  unfold stl
  rw [List.getElem?_eq_none (by omega)]
  rfl

theorem wordItem_length (be : Bool) (x : W n) : (wordItem be x).length = n := by simp [wordItem, bytes]

theorem nodeVal_bytes (be : Bool) (m : Mem n) (s : W n) {isz d2 : Nat} (h1 : n ≤ d2) (h2 : d2 + 8 ≤ isz)
    (h3 : isz < 2 ^ (8 * n)) (x : W n) (v : BitVec 64) (m' : Mem n)
    (hm : ∀ a : W n, (a - s).toNat < isz → m' a = stl (stw be m s x) (s + num d2) (wordItem (n := 8) be v) a) :
    nodeVal n be d2 (bytes m' s isz) = x.signExtend 64 + v := by
  unfold nodeVal
  have hd : (num d2 : W n).toNat = d2 := by rw [BitVec.toNat_ofNat]; exact Nat.mod_eq_of_lt (by omega)
  congr 1
  · congr 1
    rw [wordOf_bytes be m' s (by omega)]
    have : ldw be m' s = ldw be (stw be m s x) s := by
      refine ldw_agree fun a ha => ?_
      unfold InWord at ha
      rw [hm a (by omega), stl_other]
      rw [wordItem_length, ← BitVec.sub_sub, BitVec.toNat_sub, hd]
      rw [Nat.mod_eq_of_lt (by omega)]
      omega
    rw [this, ldw_stw_same]
  · refine Eq.trans ?_ (ptrOf_wordItem (n := 8) be v)
    unfold wordOf ptrOf
    refine ldw_agree fun a ha => ?_
    unfold InWord at ha
    rw [BitVec.sub_zero] at ha
    have hlt : d2 + a.toNat < isz := by omega
    simp only [List.getD_eq_getElem?_getD, List.getElem?_drop]
    have hb : (bytes m' s isz)[d2 + a.toNat]? = some (m' (s + num (d2 + a.toNat))) := by
      simp [bytes, hlt]
    rw [hb, Option.getD_some, hm _ (sub_add_lt s hlt)]
    unfold stl
    have he : ((s + num (d2 + a.toNat)) - (s + num d2) : W n).toNat = a.toNat := by
      rw [show (num (d2 + a.toNat) : W n) = num d2 + num a.toNat from BitVec.ofNat_add _ _, ← BitVec.add_assoc,
        BitVec.add_comm (s + num d2), BitVec.add_sub_cancel, BitVec.toNat_ofNat]
      exact Nat.mod_eq_of_lt (by omega)
    rw [he]
    rw [List.getElem?_eq_getElem (by rw [wordItem_length]; exact ha)]
    rfl

theorem copyFill_holds (hK : K.OK) {d2 : Nat} (hd : n ≤ d2) (hd2 : d2 + 8 ≤ K.isz) {c : BitVec 32}
    (hc : c ∈ K.cpus) : ∀ (k j : Nat) {m : Mem n} {l : List (List Byte)} {sum : BitVec 64},
    K.Holds m c l → l.length + 1 = j → l.length + k ≤ K.cap c →
    ∃ m' l', copyFill K.be (K.offset c) (K.array c) K.isz d2 k j m sum =
        (m', sum + itemSum (fun i => BitVec.ofNat 64 (2 * i + 1)) (List.range' j k)) ∧
      K.Holds m' c (l ++ l') ∧
      l'.map (nodeVal n K.be d2) = (List.range' j k).map (fun i => (num i : W n).signExtend 64 + BitVec.ofNat 64 (i + 1)) ∧
      ∀ a, ¬ InWord (K.offset c) a → ¬ K.InArr c a → m' a = m a := by
  intro k
  induction k with
  | zero =>
    intro j m l sum h _ _
    exact ⟨m, [], by simp [copyFill, itemSum], by simpa using h, rfl, fun _ _ _ => rfl⟩
  | succ k ih =>
    intro j m l sum h hj hcap
    obtain ⟨m2, hm2⟩ : ∃ m2, m2 = stl (stw K.be m (K.slot c l.length) (num j)) (K.slot c l.length + num d2)
      (wordItem (n := 8) K.be (BitVec.ofNat 64 (j + 1))) := ⟨_, rfl⟩
    obtain ⟨m3, hm3⟩ : ∃ m3, m3 = stw K.be m2 (K.offset c) (ldw K.be m2 (K.offset c) + 1#_) := ⟨_, rfl⟩
    have hslot : K.array c + num ((j - 1) * K.isz) = K.slot c l.length := by
      unfold BufLayout.slot; rw [← hj]; rfl
    have hlc : l.length < K.cap c := by omega
    have hiszlt := hK.iszlt
    have out : ∀ a, ¬ (a - K.slot c l.length).toNat < K.isz → m2 a = m a := fun a ha => by
      rw [hm2, stl_other, stw_other]
      · unfold InWord; omega
      · intro hw
        refine ha ?_
        rw [wordItem_length] at hw
        have hnum : (num d2 : W n).toNat = d2 := by rw [BitVec.toNat_ofNat]; exact Nat.mod_eq_of_lt (by omega)
        rw [← BitVec.sub_sub, BitVec.toNat_sub, hnum] at hw
        have hlt := (a - K.slot c l.length).isLt
        by_cases hge : d2 ≤ (a - K.slot c l.length).toNat
        · rw [show 2 ^ (8 * n) - d2 + (a - K.slot c l.length).toNat =
              ((a - K.slot c l.length).toNat - d2) + 2 ^ (8 * n) by omega, Nat.add_mod_right,
            Nat.mod_eq_of_lt (by omega)] at hw
          omega
        · rw [Nat.mod_eq_of_lt (by omega)] at hw
          omega
    have o2 : ldw K.be m2 (K.offset c) = ldw K.be m (K.offset c) :=
      ldw_agree fun a ha => out a fun hs => hK.off_arr c hc c hc a ha (hK.slot_arr hc hlc hs)
    have o3 : ldw K.be m3 (K.offset c) = ldw K.be m (K.offset c) + 1#_ := by rw [hm3, ldw_stw_same, o2]
    have a3 : ∀ a, K.InArr c a → m3 a = m2 a := fun a ha => by
      rw [hm3, stw_other _ _ _ _ _ (fun hw => hK.off_arr c hc c hc a hw ha)]
    have h3 : K.Holds m3 c (l ++ [bytes m3 (K.slot c l.length) K.isz]) :=
      holds_push hK hc h hlc (fun a ha hs => by rw [a3 a ha, out a hs]) o3
    have hv : nodeVal n K.be d2 (bytes m3 (K.slot c l.length) K.isz) =
        (num j : W n).signExtend 64 + BitVec.ofNat 64 (j + 1) :=
      nodeVal_bytes K.be m (K.slot c l.length) hd hd2 hiszlt (num j) _ m3 fun a ha => by
        rw [a3 a (hK.slot_arr hc hlc ha), hm2]
    obtain ⟨m', l', e1, e2, e3, e4⟩ := ih (j + 1) (m := m3) (sum := sum + BitVec.ofNat 64 (2 * j + 1)) h3
      (by simp; omega) (by simp; omega)
    refine ⟨m', bytes m3 (K.slot c l.length) K.isz :: l', ?_, ?_, ?_, fun a h1 h2 => ?_⟩
    · rw [copyFill, hslot, ← hm2, ← hm3, e1, range'_cons, itemSum_cons, BitVec.add_assoc]
    · rw [← List.singleton_append, ← List.append_assoc]; exact e2
    · rw [range'_cons, List.map_cons, List.map_cons, hv, e3]
    · rw [e4 a h1 h2, hm3, stw_other _ _ _ _ _ h1, out a fun hs => h2 (hK.slot_arr hc hlc hs)]

/-! ### Sums -/

theorem signExtend_small {w j : Nat} (h : 2 * j < 2 ^ w) : (BitVec.ofNat w j).signExtend 64 = BitVec.ofNat 64 j := by
  have hmsb : (BitVec.ofNat w j).msb = false := by
    rw [BitVec.msb_eq_false_iff_two_mul_lt, BitVec.toNat_ofNat, Nat.mod_eq_of_lt (by omega)]
    exact h
  rw [BitVec.signExtend_eq_setWidth_of_msb_false hmsb]
  apply BitVec.eq_of_toNat_eq
  rw [BitVec.toNat_setWidth, BitVec.toNat_ofNat, BitVec.toNat_ofNat, Nat.mod_eq_of_lt (show j < 2 ^ w by omega)]

theorem itemSum_ofNat {f : Nat → Nat} (l : List Nat) :
    itemSum (fun i => BitVec.ofNat 64 (f i)) l = BitVec.ofNat 64 (l.map f).sum := by
  induction l with
  | nil => rfl
  | cons i l ih => rw [itemSum_cons, ih, List.map_cons, List.sum_cons, BitVec.ofNat_add]

theorem sum_one_to (B : Nat) : ∀ j k, j + k = B + 1 → 1 ≤ j →
    2 * ((List.range' j k).map id).sum + j * (j - 1) = B * (B + 1) := by
  intro j k
  induction k generalizing j with
  | zero =>
    intro h _
    have : j = B + 1 := by omega
    subst this
    simp [Nat.mul_comm]
  | succ k ih =>
    intro h hj
    have := ih (j + 1) (by omega) (by omega)
    rw [range'_cons, List.map_cons, List.sum_cons]
    simp only [id] at this ⊢
    have e : (j + 1) * (j + 1 - 1) = 2 * j + j * (j - 1) := by
      obtain ⟨i, rfl⟩ : ∃ i, j = i + 1 := ⟨j - 1, by omega⟩
      simp only [Nat.add_sub_cancel]
      rw [Nat.mul_comm 2, ← Nat.mul_add, Nat.mul_comm]
      congr 1
      omega
    omega

theorem sum_odds : ∀ j k, 1 ≤ j → ((List.range' j k).map fun i => 2 * i + 1).sum + j * j = (j + k) * (j + k) := by
  intro j k
  induction k generalizing j with
  | zero => intro _; simp
  | succ k ih =>
    intro hj
    have := ih (j + 1) (by omega)
    rw [range'_cons, List.map_cons, List.sum_cons]
    rw [show j + 1 + k = j + (k + 1) by omega] at this
    have e : (j + 1) * (j + 1) = j * j + 2 * j + 1 := by rw [Nat.add_mul, Nat.mul_add]; omega
    omega

theorem forCpus_const {body : BitVec 32 → Mem n → BitVec 64 → Option (Mem n × BitVec 64)} {E : Nat}
    {Good : BitVec 32 → Mem n → Prop} {Done : BitVec 32 → Mem n → Prop} :
    ∀ {cs : List (BitVec 32)} {m : Mem n} {sum : BitVec 64}, cs.Nodup →
    (∀ c ∈ cs, ∀ m sum, Good c m → ∃ m', body c m sum = some (m', sum + BitVec.ofNat 64 E) ∧ Done c m' ∧
      ∀ c', c' ≠ c → (Good c' m → Good c' m') ∧ (Done c' m → Done c' m')) →
    (∀ c ∈ cs, Good c m) →
    ∃ m', forCpus body cs m sum = some (m', sum + BitVec.ofNat 64 (cs.length * E)) ∧ (∀ c ∈ cs, Done c m') ∧
      ∀ c, c ∉ cs → Done c m → Done c m'
  | [], m, sum, _, _, _ => ⟨m, by simp [forCpus], (fun c hc => absurd hc (List.not_mem_nil)), fun _ _ h => h⟩
  | c :: cs, m, sum, hnd, hb, hg => by
    obtain ⟨hc1, hnd'⟩ := List.nodup_cons.1 hnd
    obtain ⟨m1, e1, e2, e3⟩ := hb c (.head _) m sum (hg c (.head _))
    obtain ⟨m2, f1, f2, f3⟩ := forCpus_const (cs := cs) (m := m1) (sum := sum + BitVec.ofNat 64 E) hnd'
      (fun c' hc' => hb c' (.tail _ hc'))
      (fun c' hc' => (e3 c' fun e => hc1 (e ▸ hc')).1 (hg c' (.tail _ hc')))
    refine ⟨m2, ?_, fun c' hc' => ?_, fun c' hc' hd => ?_⟩
    · unfold forCpus
      rw [e1]
      dsimp only
      rw [f1, BitVec.add_assoc, ← BitVec.ofNat_add, List.length_cons, Nat.add_mul, Nat.one_mul, Nat.add_comm E]
    · rcases List.mem_cons.1 hc' with rfl | hc'
      · exact f3 c' hc1 e2
      · exact f2 c' hc'
    · exact f3 c' (fun h => hc' (.tail _ h)) ((e3 c' fun e => hc' (e ▸ .head _)).2 hd)

theorem itemSum_flat {α β : Type} {val : β → BitVec 64} {f : α → List β} {E : Nat} :
    ∀ {l : List α}, (∀ x ∈ l, itemSum val (f x) = BitVec.ofNat 64 E) →
      itemSum val (l.flatMap f) = BitVec.ofNat 64 (l.length * E)
  | [], _ => by simp [itemSum]
  | x :: l, h => by
    rw [List.flatMap_cons, itemSum_append, h x (.head _), itemSum_flat fun y hy => h y (.tail _ hy),
      ← BitVec.ofNat_add, List.length_cons, Nat.add_mul, Nat.one_mul, Nat.add_comm E]

theorem length_flat {α β : Type} {f : α → List β} {B : Nat} :
    ∀ {l : List α}, (∀ x ∈ l, (f x).length = B) → (l.flatMap f).length = l.length * B
  | [], _ => by simp
  | x :: l, h => by
    rw [List.flatMap_cons, List.length_append, h x (.head _), length_flat fun y hy => h y (.tail _ hy),
      List.length_cons, Nat.add_mul, Nat.one_mul, Nat.add_comm B]

end Verif.Rseq
