import Verif.RseqBufTest
/-
The loops that empty the buffers at the end of the buffer tests.
-/

namespace Verif.Rseq

variable {n : Nat} {K : BufLayout n}

theorem itemSum_append {α : Type} {val : α → BitVec 64} (l l' : List α) :
    itemSum val (l ++ l') = itemSum val l + itemSum val l' := by
  induction l with
  | nil => simp [itemSum]
  | cons x l ih =>
    unfold itemSum at ih ⊢
    rw [List.cons_append, List.foldr_cons, ih, List.foldr_cons, BitVec.add_assoc]

theorem itemSum_perm {α : Type} {val : α → BitVec 64} {l l' : List α} (h : l.Perm l') :
    itemSum val l = itemSum val l' := by
  induction h with
  | nil => rfl
  | cons x _ ih => unfold itemSum at ih ⊢; rw [List.foldr_cons, List.foldr_cons, ih]
  | swap x y l =>
    unfold itemSum
    simp only [List.foldr_cons]
    rw [← BitVec.add_assoc, ← BitVec.add_assoc, BitVec.add_comm (val _)]
  | trans _ _ h1 h2 => exact h1.trans h2

theorem itemSum_map {α β : Type} {val : β → BitVec 64} {f : α → β} (l : List α) :
    itemSum val (l.map f) = itemSum (fun x => val (f x)) l := by
  induction l with
  | nil => rfl
  | cons x l ih => unfold itemSum at ih ⊢; rw [List.map_cons, List.foldr_cons, List.foldr_cons, ih]

theorem itemSum_congr {α : Type} {val val' : α → BitVec 64} {l : List α} (h : ∀ x ∈ l, val x = val' x) :
    itemSum val l = itemSum val' l := by
  induction l with
  | nil => rfl
  | cons x l ih =>
    have := ih fun y hy => h y (.tail _ hy)
    unfold itemSum at this ⊢
    rw [List.foldr_cons, List.foldr_cons, this, h x (.head _)]

theorem itemSum_last {α : Type} {val : α → BitVec 64} (l : List α) (x : α) :
    itemSum val (l ++ [x]) = val x + itemSum val l := by
  rw [itemSum_append, BitVec.add_comm]
  simp [itemSum]

/-- The pointer with these bytes. -/
def ptrOf (n : Nat) (be : Bool) (y : List Byte) : W n := ldw be (fun a : W n => y.getD a.toNat 0#8) 0#_

theorem ptrOf_wordItem (be : Bool) (x : W n) : ptrOf n be (wordItem be x) = x := by
  unfold ptrOf
  have h : ldw be (fun a : W n => (wordItem be x).getD a.toNat 0#8) 0#_ =
      ldw be (stw be (fun _ => 0#8) 0#_ x) 0#_ := by
    refine ldw_agree fun a ha => ?_
    unfold InWord at ha
    rw [BitVec.sub_zero] at ha
    unfold wordItem bytes
    rw [List.getD_eq_getElem?_getD, List.getElem?_map, List.getElem?_range ha]
    simp
  rw [h, ldw_stw_same]

/-- One decrement of the offset: the last item is out, the others stay. -/
theorem holds_pop (hK : K.OK) {c : BitVec 32} (hc : c ∈ K.cpus) {m m' : Mem n} {l : List (List Byte)}
    {y : List Byte} (h : K.Holds m c (l ++ [y]))
    (hm : ∀ a, K.InArr c a → m' a = m a) (ho : ldw K.be m' (K.offset c) = num l.length) : K.Holds m' c l := by
  obtain ⟨h1, h2, h3⟩ := h
  simp only [List.length_append, List.length_singleton] at h1 h2
  refine ⟨ho, by omega, fun i x hx => ?_⟩
  have hi := (List.getElem?_eq_some_iff.1 hx).1
  rw [← h3 i x (by rw [List.getElem?_append_left hi, hx])]
  exact bytes_congr fun a ha => hm a (hK.slot_arr hc (by omega) ha)

theorem holds_last (hK : K.OK) {c : BitVec 32} (hc : c ∈ K.cpus) {m : Mem n} {l : List (List Byte)}
    {y : List Byte} (h : K.Holds m c (l ++ [y])) :
    ldw K.be m (K.offset c) ≠ 0#_ ∧ ldw K.be m (K.offset c) - 1#_ = num l.length ∧
    bytes m (K.array c + (ldw K.be m (K.offset c) - 1#_) * num K.isz) K.isz = y := by
  obtain ⟨h1, h2, h3⟩ := h
  simp only [List.length_append, List.length_singleton] at h1 h2
  have hcl := hK.cap_lt hc
  have e1 : ldw K.be m (K.offset c) - 1#_ = num l.length := by
    rw [h1]
    unfold num
    rw [show BitVec.ofNat (8 * n) (l.length + 1) = BitVec.ofNat (8 * n) l.length + 1#_ from BitVec.ofNat_add _ 1,
      BitVec.add_sub_cancel]
  refine ⟨?_, e1, ?_⟩
  · rw [h1]
    intro e
    have : l.length + 1 = 0 := num_inj (j := l.length + 1) (k := 0) (by omega) (by omega) e
    omega
  · rw [e1]
    have := h3 l.length y (by simp)
    unfold BufLayout.slot at this
    rw [show (num l.length : W n) * num K.isz = num (l.length * K.isz) from (BitVec.ofNat_mul _ _).symm]
    exact this

/-- Where the data of the nodes are: not in the offsets, so the loop does not overwrite them. -/
def NodesApart (K : BufLayout n) (doff : W n) (nodes : W n → Prop) : Prop :=
  ∀ c ∈ K.cpus, ∀ x a, nodes x → InWord (x + doff) a → ¬ InWord (K.offset c) a

theorem ptrLoop_buf (hK : K.OK) (hisz : K.isz = n) {doff : W n} {nodes : W n → Prop}
    (hA : NodesApart K doff nodes) {c : BitVec 32} (hc : c ∈ K.cpus) : ∀ (k : Nat) {m : Mem n}
    {l : List (List Byte)} {sum : BitVec 64}, K.Holds m c l → l.length < k →
    (∀ y ∈ l, ∃ x, nodes x ∧ x ≠ 0#_ ∧ y = wordItem K.be x) →
    ∃ m', ptrLoop K.be (K.offset c) (K.array c) doff k m sum =
        some (m', sum + itemSum (fun y => (ldw K.be m (ptrOf n K.be y + doff)).signExtend 64) l) ∧
      ldw K.be m' (K.offset c) = 0#_ ∧ ∀ a, ¬ InWord (K.offset c) a → m' a = m a
  | 0, m, l, sum, _, hk, _ => by omega
  | k + 1, m, l, sum, hh, hk, hl => by
    rcases List.eq_nil_or_concat l with rfl | ⟨l', y, rfl⟩
    · have h1 : ldw K.be m (K.offset c) = 0#_ := hh.1
      refine ⟨m, ?_, h1, fun _ _ => rfl⟩
      unfold ptrLoop
      simp [h1, itemSum]
    · rw [List.concat_eq_append] at hh hk hl ⊢
      obtain ⟨h1, h2, h3⟩ := holds_last hK hc hh
      obtain ⟨x, hx, hx0, rfl⟩ := hl y (by simp)
      obtain ⟨m1, hm1⟩ : ∃ m1, m1 = stw K.be m (K.offset c) (ldw K.be m (K.offset c) - 1#_) := ⟨_, rfl⟩
      have hout : ∀ a, ¬ InWord (K.offset c) a → m1 a = m a := fun a ha => by rw [hm1, stw_other _ _ _ _ _ ha]
      have hdata : ∀ z, nodes z → ldw K.be m1 (z + doff) = ldw K.be m (z + doff) := fun z hz =>
        ldw_agree fun a ha => hout a (hA c hc z a hz ha)
      have hhead : ldw K.be m (K.array c + (ldw K.be m (K.offset c) - 1#_) * num n) = x := by
        rw [hisz, bytes_ldw K.be] at h3
        rw [← ptrOf_wordItem K.be x, ← h3, ptrOf_wordItem]
      obtain ⟨m', e1, e2, e3⟩ := ptrLoop_buf hK hisz hA hc k (m := m1) (l := l')
        (sum := sum + (ldw K.be m1 (x + doff)).signExtend 64)
        (holds_pop hK hc hh (fun a ha => hout a fun h => hK.off_arr c hc c hc a h ha)
          (by rw [hm1, ldw_stw_same, h2]))
        (by simp at hk; omega) (fun y hy => hl y (by simp [hy]))
      refine ⟨m', ?_, e2, fun a ha => by rw [e3 a ha, hout a ha]⟩
      unfold ptrLoop
      dsimp only
      rw [if_neg h1, hhead, if_neg hx0, ← hm1, e1, itemSum_last, ptrOf_wordItem, hdata x hx, BitVec.add_assoc]
      congr 3
      refine congrArg _ (itemSum_congr fun y hy => ?_)
      obtain ⟨z, hz, -, rfl⟩ := hl y (by simp [hy])
      rw [ptrOf_wordItem, hdata z hz]

/-- The local `item` of the main thread is apart from the buffers. -/
structure ItemApart (K : BufLayout n) (item : W n) : Prop where
  off : ∀ c ∈ K.cpus, ∀ a, (a - item).toNat < K.isz → ¬ InWord (K.offset c) a
  arr : ∀ c ∈ K.cpus, ∀ a, (a - item).toNat < K.isz → ¬ K.InArr c a

theorem copyLoop_buf (hK : K.OK) {item : W n} (hA : ItemApart K item) {val : List Byte → BitVec 64}
    {c : BitVec 32} (hc : c ∈ K.cpus) : ∀ (k : Nat) {m : Mem n} {l : List (List Byte)} {sum : BitVec 64},
    K.Holds m c l → l.length < k →
    ∃ m', copyLoop K.be (K.offset c) (K.array c) K.isz item val k m sum = some (m', sum + itemSum val l) ∧
      ldw K.be m' (K.offset c) = 0#_ ∧
      ∀ a, ¬ InWord (K.offset c) a → ¬ (a - item).toNat < K.isz → m' a = m a
  | 0, m, l, sum, _, hk => by omega
  | k + 1, m, l, sum, hh, hk => by
    rcases List.eq_nil_or_concat l with rfl | ⟨l', y, rfl⟩
    · have h1 : ldw K.be m (K.offset c) = 0#_ := hh.1
      refine ⟨m, ?_, h1, fun _ _ _ => rfl⟩
      unfold copyLoop
      simp [h1, itemSum]
    · rw [List.concat_eq_append] at hh hk ⊢
      obtain ⟨h1, h2, h3⟩ := holds_last hK hc hh
      obtain ⟨m1, hm1⟩ : ∃ m1, m1 = memcpy m item
        (K.array c + (ldw K.be m (K.offset c) - 1#_) * num K.isz) (num K.isz) := ⟨_, rfl⟩
      obtain ⟨m2, hm2⟩ : ∃ m2, m2 = stw K.be m1 (K.offset c) (ldw K.be m (K.offset c) - 1#_) := ⟨_, rfl⟩
      have hlen : (num K.isz : W n).toNat = K.isz := by
        rw [BitVec.toNat_ofNat, Nat.mod_eq_of_lt hK.iszlt]
      have h12 : ∀ a, ¬ (a - item).toNat < K.isz → m1 a = m a := fun a ha => by
        rw [hm1]; unfold memcpy; rw [hlen, if_neg ha]
      have hout : ∀ a, ¬ InWord (K.offset c) a → ¬ (a - item).toNat < K.isz → m2 a = m a := fun a ha hb => by
        rw [hm2, stw_other _ _ _ _ _ ha, h12 a hb]
      have hitem : bytes m2 item K.isz = y := by
        rw [← h3, ← bytes_memcpy m item _ hK.iszlt]
        refine bytes_congr fun a ha => ?_
        rw [hm2, stw_other _ _ _ _ _ (hA.off c hc a ha), hm1]
      obtain ⟨m', e1, e2, e3⟩ := copyLoop_buf hK hA (val := val) hc k (m := m2) (l := l')
        (sum := sum + val y)
        (holds_pop hK hc hh (fun a ha => hout a (fun h => hK.off_arr c hc c hc a h ha)
            fun h => hA.arr c hc a h ha)
          (by rw [hm2, ldw_stw_same, h2]))
        (by simp at hk; omega)
      refine ⟨m', ?_, e2, fun a ha hb => by rw [e3 a ha hb, hout a ha hb]⟩
      unfold copyLoop
      dsimp only
      rw [if_neg h1, ← hm1, ← hm2, hitem, e1, itemSum_last, BitVec.add_assoc]

/-- Buffers of other CPUs are not affected. -/
theorem holds_congr (hK : K.OK) {c : BitVec 32} (hc : c ∈ K.cpus) {m m' : Mem n} {l : List (List Byte)}
    (h : K.Holds m c l) (ha : ∀ a, InWord (K.offset c) a ∨ K.InArr c a → m' a = m a) : K.Holds m' c l := by
  obtain ⟨h1, h2, h3⟩ := h
  refine ⟨by rw [← h1]; exact ldw_agree fun a hw => ha a (.inl hw), h2, fun i x hx => ?_⟩
  have hi := (List.getElem?_eq_some_iff.1 hx).1
  rw [← h3 i x hx]
  exact bytes_congr fun a hs => ha a (.inr (hK.slot_arr hc (by omega) hs))

/-- All CPUs, one after the other. -/
theorem forCpus_bufs {body : BitVec 32 → Mem n → BitVec 64 → Option (Mem n × BitVec 64)} {buf : BitVec 32 → List (List Byte)}
    {val : List Byte → BitVec 64} {Good : BitVec 32 → Mem n → Prop} {Done : BitVec 32 → Mem n → Prop} :
    ∀ {cs : List (BitVec 32)} {m : Mem n} {sum : BitVec 64}, cs.Nodup →
    (∀ c ∈ cs, ∀ m sum, Good c m → ∃ m', body c m sum = some (m', sum + itemSum val (buf c)) ∧ Done c m' ∧
      ∀ c', c' ≠ c → (Good c' m → Good c' m') ∧ (Done c' m → Done c' m')) →
    (∀ c ∈ cs, Good c m) →
    ∃ m', forCpus body cs m sum = some (m', sum + itemSum val (cs.flatMap buf)) ∧ (∀ c ∈ cs, Done c m') ∧
      ∀ c, c ∉ cs → Done c m → Done c m'
  | [], m, sum, _, _, _ => ⟨m, by simp [forCpus, itemSum], (fun c hc => absurd hc (List.not_mem_nil)), fun _ _ h => h⟩
  | c :: cs, m, sum, hnd, hb, hg => by
    obtain ⟨hc1, hnd'⟩ := List.nodup_cons.1 hnd
    obtain ⟨m1, e1, e2, e3⟩ := hb c (.head _) m sum (hg c (.head _))
    obtain ⟨m2, f1, f2, f3⟩ := forCpus_bufs (cs := cs) (m := m1) (sum := sum + itemSum val (buf c)) hnd'
      (fun c' hc' => hb c' (.tail _ hc'))
      (fun c' hc' => (e3 c' fun e => hc1 (e ▸ hc')).1 (hg c' (.tail _ hc')))
    refine ⟨m2, ?_, fun c' hc' => ?_, fun c' hc' hd => ?_⟩
    · unfold forCpus
      rw [e1]
      dsimp only
      rw [f1, List.flatMap_cons, itemSum_append, BitVec.add_assoc]
    · rcases List.mem_cons.1 hc' with rfl | hc'
      · exact f3 c' hc1 e2
      · exact f2 c' hc'
    · exact f3 c' (fun h => hc' (.tail _ h)) ((e3 c' fun e => hc' (e ▸ .head _)).2 hd)

end Verif.Rseq
