import Verif.RseqStackProps
/-
The end of `test_percpu_list` (tests/basic_percpu_ops_test.c:310-322): after all threads have been joined, the main
thread pops every node of every list with plain loads and stores and adds up their data.
-/

namespace Verif.Rseq

variable {n : Nat}

/-- `while ((node = __percpu_list_pop(&list, i))) { sum += node->data; free(node); }` (:313-316), with
`__percpu_list_pop` (:236-245). `none`: the loop has not ended after `k` evaluations of its condition. -/
def popLoop (be : Bool) (off doff h : W n) : Nat → Mem n → BitVec 64 → Option (Mem n × BitVec 64)
  | 0, _, _ => none
  | k + 1, m, sum =>
    let node := ldw be m h
    if node = 0#_ then some (m, sum)
    else popLoop be off doff h k (stw be m h (ldw be m (node + off))) (sum + (ldw be m (node + doff)).signExtend 64)

/-- `for (i = 0; i < CPU_SETSIZE; i++)` (:310) -/
def popAll (be : Bool) (off doff : W n) (head : BitVec 32 → W n) (k : Nat) :
    List (BitVec 32) → Mem n → BitVec 64 → Option (Mem n × BitVec 64)
  | [], m, sum => some (m, sum)
  | c :: cs, m, sum =>
    match popLoop be off doff (head c) k m sum with
    | none => none
    | some (m', sum') => popAll be off doff head k cs m' sum'

/-- The data of the nodes in `l`, added up as the test does. -/
def dataSum (be : Bool) (doff : W n) (m : Mem n) (l : List (W n)) : BitVec 64 :=
  l.foldr (fun x a => (ldw be m (x + doff)).signExtend 64 + a) 0#64

theorem dataSum_append {be : Bool} {doff : W n} {m : Mem n} (l l' : List (W n)) :
    dataSum be doff m (l ++ l') = dataSum be doff m l + dataSum be doff m l' := by
  induction l with
  | nil => simp [dataSum]
  | cons x l ih =>
    unfold dataSum at ih ⊢
    rw [List.cons_append, List.foldr_cons, ih, List.foldr_cons, BitVec.add_assoc]

theorem dataSum_perm {be : Bool} {doff : W n} {m : Mem n} {l l' : List (W n)} (h : l.Perm l') :
    dataSum be doff m l = dataSum be doff m l' := by
  induction h with
  | nil => rfl
  | cons x _ ih => unfold dataSum at ih ⊢; rw [List.foldr_cons, List.foldr_cons, ih]
  | swap x y l =>
    unfold dataSum
    simp only [List.foldr_cons]
    rw [← BitVec.add_assoc, ← BitVec.add_assoc, BitVec.add_comm (BitVec.signExtend 64 _)]
  | trans _ _ h1 h2 => exact h1.trans h2

theorem dataSum_congr {be : Bool} {doff : W n} {m m' : Mem n} {l : List (W n)}
    (h : ∀ x ∈ l, ldw be m' (x + doff) = ldw be m (x + doff)) : dataSum be doff m' l = dataSum be doff m l := by
  induction l with
  | nil => rfl
  | cons x l ih =>
    have := ih fun y hy => h y (.tail _ hy)
    unfold dataSum at this ⊢
    rw [List.foldr_cons, List.foldr_cons, this, h x (.head _)]

/-- Popping a whole list: the sum of its data, an empty list, and nothing else has changed. -/
theorem popLoop_list {be : Bool} {off doff h : W n} {l : List (W n)} : ∀ {m : Mem n} {k : Nat} {sum : BitVec 64},
    IsList be off m (ldw be m h) l → l.length < k →
    (∀ x ∈ l, ∀ a, InWord (x + off) a ∨ InWord (x + doff) a → ¬ InWord h a) →
    ∃ m', popLoop be off doff h k m sum = some (m', sum + dataSum be doff m l) ∧ ldw be m' h = 0#_ ∧
      ∀ a, ¬ InWord h a → m' a = m a := by
  induction l with
  | nil =>
    intro m k sum hl hk _
    cases k with
    | zero => cases hk
    | succ k =>
      have hl : ldw be m h = 0#_ := hl
      refine ⟨m, ?_, hl, fun _ _ => rfl⟩
      simp [popLoop, hl, dataSum]
  | cons x l ih =>
    intro m k sum hl hk ha
    cases k with
    | zero => cases hk
    | succ k =>
      obtain ⟨h1, h2, h3⟩ := hl
      have hw : ∀ y ∈ x :: l, ∀ z, (z = y + off ∨ z = y + doff) →
          ldw be (stw be m h (ldw be m (x + off))) z = ldw be m z := by
        intro y hy z hz
        refine ldw_stw_ne be m _ _ _ fun b hb => ha y hy b ?_
        rcases hz with rfl | rfl
        · exact .inl hb
        · exact .inr hb
      obtain ⟨m', e1, e2, e3⟩ := ih (m := stw be m h (ldw be m (x + off))) (k := k)
        (sum := sum + (ldw be m (x + doff)).signExtend 64)
        (by
          rw [ldw_stw_same]
          exact h3.congr fun y hy => hw y (.tail _ hy) _ (.inl rfl))
        (by simpa using hk) (fun y hy => ha y (.tail _ hy))
      refine ⟨m', ?_, e2, fun a hb => by rw [e3 a hb, stw_other _ _ _ _ _ hb]⟩
      unfold popLoop
      simp only [h1]
      rw [if_neg h2, e1, dataSum_congr (m := m) fun y hy => hw y (.tail _ hy) _ (.inr rfl)]
      rw [BitVec.add_assoc]
      rfl

/-- The data words of the nodes are apart from the heads and the local variables. -/
structure DataApart (K : ListLayout n) (doff : W n) : Prop where
  head : ∀ c ∈ K.cpus, ∀ x a, K.nodes x → InWord (K.head c) a → ¬ InWord (x + doff) a
  priv : ∀ x t d a, K.nodes x → InWord (x + doff) a → ¬ K.priv t d a

theorem popAll_lists {K : ListLayout n} {doff : W n} (hD : DataApart K doff) (hK : K.OK) {stk : BitVec 32 → List (W n)}
    {k : Nat} : ∀ {cs : List (BitVec 32)} {m : Mem n} {sum : BitVec 64}, cs.Nodup → (∀ c ∈ cs, c ∈ K.cpus) →
    (∀ c ∈ cs, IsList K.be K.off m (ldw K.be m (K.head c)) (stk c)) →
    (∀ c ∈ cs, ∀ x ∈ stk c, K.nodes x) → (∀ c ∈ cs, (stk c).length < k) →
    ∃ m', popAll K.be K.off doff K.head k cs m sum = some (m', sum + dataSum K.be doff m (cs.flatMap stk)) ∧
      ∀ c ∈ cs, ldw K.be m' (K.head c) = 0#_
  | [], m, sum, _, _, _, _, _ => ⟨m, by simp [popAll, dataSum], fun c hc => by cases hc⟩
  | c :: cs, m, sum, hnd, hsub, hl, hno, hk => by
    have hc := hsub c (.head _)
    obtain ⟨hc1, hnd'⟩ := List.nodup_cons.1 hnd
    obtain ⟨m1, e1, e2, e3⟩ := popLoop_list (doff := doff) (h := K.head c) (sum := sum) (hl c (.head _)) (hk c (.head _))
      (fun x hx a ha hh => by
        have hx' := hno c (.head _) x hx
        rcases ha with ha | ha
        · exact hK.head_next c hc x a hx' hh ha
        · exact hD.head c hc x a hx' hh ha)
    have hsame : ∀ z, (∀ a, InWord z a → ¬ InWord (K.head c) a) → ldw K.be m1 z = ldw K.be m z :=
      fun z hz => ldw_agree fun a ha => e3 a (hz a ha)
    have hheads : ∀ c' ∈ cs, ldw K.be m1 (K.head c') = ldw K.be m (K.head c') := fun c' hc' =>
      hsame _ fun a ha hh => hc1 (hK.head_head c' (hsub c' (.tail _ hc')) c hc a ha hh ▸ hc')
    obtain ⟨m2, f1, f2⟩ := popAll_lists hD hK (stk := stk) (k := k) (cs := cs) (m := m1)
      (sum := sum + dataSum K.be doff m (stk c)) hnd' (fun c hc => hsub c (.tail _ hc))
      (fun c' hc' => by
        rw [hheads c' hc']
        exact (hl c' (.tail _ hc')).congr fun x hx => hsame _ fun a ha hh =>
          hK.head_next c hc x a (hno c' (.tail _ hc') x hx) hh ha)
      (fun c' hc' => hno c' (.tail _ hc')) (fun c' hc' => hk c' (.tail _ hc'))
    have f3 : ldw K.be m2 (K.head c) = 0#_ := by
      have key : ∀ (cs : List (BitVec 32)) (m m2 : Mem n) (sum v : BitVec 64), (∀ c ∈ cs, c ∈ K.cpus) → c ∉ cs →
          popAll K.be K.off doff K.head k cs m sum = some (m2, v) →
          ldw K.be m2 (K.head c) = ldw K.be m (K.head c) := by
        have one : ∀ c' ∈ K.cpus, c' ≠ c → ∀ k m m2 sum v, popLoop K.be K.off doff (K.head c') k m sum = some (m2, v) →
            ldw K.be m2 (K.head c) = ldw K.be m (K.head c) := by
          intro c' hc' hne k
          induction k with
          | zero => intro m m2 sum v h; cases h
          | succ k ih =>
            intro m m2 sum v h
            unfold popLoop at h
            dsimp only at h
            split at h
            · injection h with h; injection h with h _; rw [h]
            · rw [ih _ _ _ _ h]
              exact ldw_stw_ne _ _ _ _ _ fun a ha hh => hne (hK.head_head c' hc' c hc a hh ha)
        intro cs
        induction cs with
        | nil => intro m m2 sum v _ _ h; injection h with h; injection h with h _; rw [h]
        | cons c' cs ih =>
          intro m m2 sum v hs hn h
          unfold popAll at h
          split at h
          · cases h
          · next m' sum' hd =>
            rw [ih m' m2 sum' v (fun c hc => hs c (.tail _ hc)) (fun h => hn (.tail _ h)) h]
            exact one c' (hs c' (.head _)) (fun e => hn (e ▸ .head _)) k m m' sum sum' hd
      rw [key cs m1 m2 _ _ (fun c hc => hsub c (.tail _ hc)) hc1 f1, e2]
    refine ⟨m2, ?_, ?_⟩
    · unfold popAll
      rw [e1]
      dsimp only
      rw [f1, List.flatMap_cons, dataSum_append, ← BitVec.add_assoc]
      have hd : dataSum K.be doff m1 (cs.flatMap stk) = dataSum K.be doff m (cs.flatMap stk) := by
        refine dataSum_congr fun x hx => ?_
        obtain ⟨c', hc', hx⟩ := List.mem_flatMap.1 hx
        exact hsame _ fun a ha hh => hD.head c hc x a (hno c' (.tail _ hc') x hx) hh ha
      rw [hd]
    · intro c' hc'
      rcases List.mem_cons.1 hc' with rfl | hc'
      · exact f3
      · exact f2 c' hc'

end Verif.Rseq
