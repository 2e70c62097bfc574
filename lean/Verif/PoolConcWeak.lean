import Verif.PoolConcStep
/-
A weaker invariant that survives the two-phase page copy: who owns which item, the free list and the
bitmaps, but neither content nor poison.  No `FaultSafe` needed.  Helper lemmas only.
-/
namespace Verif.PoolConc
open Verif Verif.Mem Verif.Mempool MProg

variable [Abi]

/-- All stores of the program, whatever it loads, are in `A`. -/
inductive Within {α : Type} (A : Nat → Prop) : MProg α → Prop
  | ret (a : α) : Within A (.ret a)
  | rd (x : Nat) (k : Byte → MProg α) (h : ∀ b, Within A (k b)) : Within A (.rd x k)
  | wr (x : Nat) (b : Byte) (k : MProg α) (hx : A x) (h : Within A k) : Within A (.wr x b k)

omit [Abi] in
theorem Within.bind {α β : Type} {A : Nat → Prop} {p : MProg α} {f : α → MProg β} (hp : Within A p)
    (hf : ∀ a, Within A (f a)) : Within A (p.bind f) := by
  induction hp with
  | ret a => exact hf a
  | rd x k _ ih => exact .rd _ _ ih
  | wr x b k hx _ ih => exact .wr _ _ _ hx ih

omit [Abi] in
theorem RO.within {α : Type} {X A : Nat → Prop} {p : MProg α} (h : RO X p) : Within A p := by
  induction h with
  | ret a => exact .ret a
  | rd x k _ _ ih => exact .rd _ _ ih

omit [Abi] in
theorem Within.writeP {A : Nat → Prop} {x : Nat} {f : Nat → Byte} {n : Nat} (h : ∀ j, j < n → A (x + j)) :
    Within A (writeP x f n) := by
  induction n with
  | zero => exact .ret _
  | succ n ih => exact (ih fun j hj => h j (by omega)).bind fun _ => .wr _ _ _ (h n (by omega)) (.ret _)

theorem Within.poisonP {A : Nat → Prop} {x : Nat} {v : Word} {n off : Nat} (h : ∀ j, off ≤ j → j < off + wb * n → A (x + j)) :
    Within A (poisonP x v n off) := by
  induction n generalizing off with
  | zero => exact .ret _
  | succ n ih =>
    have hms : wb * (n + 1) = wb * n + wb := Nat.mul_succ wb n
    refine (Within.writeP fun j hj => ?_).bind fun _ => ih fun j h1 h2 => h j (by omega) (by omega)
    rw [Nat.add_assoc]
    exact h _ (by omega) (by omega)

omit [Abi] in
theorem Within.forCpusP {A : Nat → Prop} {body : Nat → MProg Unit} {n : Nat} (h : ∀ i, i < n → Within A (body i)) :
    Within A (forCpusP body n) := by
  induction n with
  | zero => exact .ret _
  | succ n ih => exact (ih fun i hi => h i (by omega)).bind fun _ => h n (by omega)

theorem cmp_any {A : Nat → Prop} {x : Nat} {v : Word} {n off : Nat} : Within A (cmpP x v n off) :=
  (RO.cmpP (X := fun _ => True) fun _ _ _ => trivial).within

omit [Abi] in
theorem memEqual_any {A : Nat → Prop} {x : Nat} {f : Nat → Byte} {n : Nat} : Within A (memEqualP x f n) :=
  (RO.memEqualP (X := fun _ => True) fun _ _ => trivial).within

theorem initPtr_col {c : Config} {r : Range} {off : Nat}
    (hinit : r.init = if c.cow then some (r.base + c.stride * c.ncpu) else none) {q : Nat} (h : initPtr r off = some q) :
    c.cow = true ∧ q = r.base + off + c.stride * c.ncpu := by
  unfold initPtr at h
  rw [hinit] at h
  cases hc : c.cow with
  | false => rw [hc] at h; cases h
  | true =>
    rw [hc] at h
    cases h
    refine ⟨rfl, ?_⟩
    show r.base + c.stride * c.ncpu + off = _
    omega

theorem within_fillP {c : Config} {r : Range} {off : Nat}
    (hinit : r.init = if c.cow then some (r.base + c.stride * c.ncpu) else none) {fill : Fill} (hn : fill.len ≤ c.itemLen) :
    Within (ItemBytes c (r.base + off)) (fillP c r off fill) := by
  have hle := ncpu_le_nCols c
  have hcol : ∀ i n, i < c.ncpu → n ≤ c.itemLen → ∀ j, j < n → ItemBytes c (r.base + off) (percpuPtr c r i off + j) := by
    intro i n hi hn j hj
    rw [percpuPtr_eq]
    exact itemBytes_col (by omega) hn j hj
  cases fill with
  | plain n => exact .ret _
  | zero =>
    refine Within.bind ?_ fun _ => Within.forCpusP fun i hi => cmp_any.bind fun w => ?_
    · split
      · rename_i q hq
        obtain ⟨hc, rfl⟩ := initPtr_col hinit hq
        exact Within.writeP (itemBytes_col (initCol_lt hc) (Nat.le_refl _))
      · exact .ret _
    · split
      · exact .ret _
      · exact Within.writeP (hcol i _ hi (Nat.le_refl _))
  | init f n =>
    refine Within.bind ?_ fun _ => Within.forCpusP fun i hi => memEqual_any.bind fun w => ?_
    · split
      · rename_i q hq
        obtain ⟨hc, rfl⟩ := initPtr_col hinit hq
        exact Within.writeP (itemBytes_col (initCol_lt hc) hn)
      · exact .ret _
    · split
      · exact .ret _
      · exact Within.writeP (hcol i _ hi hn)

theorem within_poisonItemP {c : Config} (hv : Valid c) {r : Range} {off : Nat}
    (hinit : r.init = if c.cow then some (r.base + c.stride * c.ncpu) else none) {v : Word} :
    Within (ItemBytes c (r.base + off)) (poisonItemP c r off v) := by
  have hle := ncpu_le_nCols c
  have h8 := hv.item_wb
  refine Within.bind ?_ fun _ => Within.forCpusP fun i hi => cmp_any.bind fun w => ?_
  · split
    · rename_i q hq
      obtain ⟨hc, rfl⟩ := initPtr_col hinit hq
      exact Within.poisonP fun j _ hj => itemBytes_col (initCol_lt hc) (Nat.le_refl _) j (by rw [Nat.mul_div_cancel' h8] at hj; omega)
    · exact .ret _
  · split
    · exact .ret _
    · refine Within.poisonP fun j _ hj => ?_
      rw [Nat.mul_div_cancel' h8] at hj
      rw [percpuPtr_eq]
      exact itemBytes_col (by omega) (Nat.le_refl _) j (by omega)

omit [Abi] in
theorem Within.ok {α : Type} {pg : Nat} {A : Nat → Prop} {R : Mem → Mem → Prop} {J : Mem → Prop} {p : MProg α}
    (h : Within A p) (hst : ∀ m m', J m → R m m' → J m') (hw : ∀ x b m, A x → J m → J (m.write pg x b)) {m : Mem} (hm : J m) :
    Ok pg A R (fun _ m' => J m') p m := by
  induction h generalizing m with
  | ret a => exact fun m' h' => hst _ _ hm h'
  | rd x k _ ih => exact fun m' h' => ih _ (hst _ _ hm h')
  | wr x b k hx _ ih => exact ⟨hx, fun m' h' => ih (hw _ _ _ hx (hst _ _ hm h'))⟩

/-- Interference as far as the free list nodes of the items `P` are concerned. -/
structure NRely (c : Config) (P : Nat → Prop) (m m' : Mem) : Prop where
  wf : m.WF → m'.WF
  res : ∀ p, P p → ∀ col o, col < c.nCols → o < c.itemLen →
    m'.resolve c.pg (p + c.stride * col + o) = m.resolve c.pg (p + c.stride * col + o) ∨
    m'.resolve c.pg (p + c.stride * col + o) = p + c.stride * col + o
  rd : ∀ p, P p → ∀ o, o < c.itemLen →
    m'.read c.pg (p + c.stride * c.flCol + o) = m.read c.pg (p + c.stride * c.flCol + o)

theorem NRely.refl {c : Config} {P : Nat → Prop} (m : Mem) : NRely c P m m :=
  ⟨id, fun _ _ _ _ _ _ => Or.inl rfl, fun _ _ _ _ => rfl⟩

theorem NRely.trans {c : Config} {P : Nat → Prop} (m m' m'' : Mem) (h : NRely c P m m') (h' : NRely c P m' m'') :
    NRely c P m m'' := by
  refine ⟨fun w => h'.wf (h.wf w), fun p hp col o hc ho => ?_, fun p hp o ho => ?_⟩
  · rcases h'.res p hp col o hc ho with e | e
    · rw [e]; exact h.res p hp col o hc ho
    · exact Or.inr e
  · rw [h'.rd p hp o ho, h.rd p hp o ho]

theorem Rely.node {c : Config} (hv : Valid c) {P : Nat → Prop} {m m' : Mem} (h : Rely c P m m') : NRely c P m m' :=
  ⟨h.wf, h.res, fun p hp o ho => h.rd p hp _ o hv.flCol_lt ho⟩

theorem IShape.nrely {c : Config} {p : Nat} {m m' : Mem} (h : IShape c p m) (hr : NRely c (· = p) m m') : IShape c p m' := by
  intro col o hc ho
  rcases hr.res p rfl col o hc ho with e | e
  · rw [e]; exact h col o hc ho
  · exact Or.inl e

/-- The stores of a free end with the free list link in place. -/
theorem node_freeP {c : Config} (hv : Valid c) {l : List Range} (hR : RangesInv c l) {r : Range} (hr : r ∈ l) {k : Nat}
    (hk : k * c.itemLen + c.itemLen ≤ c.stride) {head : Nat} {m : Mem} (hwf : m.WF)
    (hsh : IShape c (r.base + k * c.itemLen) m) :
    Ok c.pg (ItemBytes c (r.base + k * c.itemLen)) (NRely c (· = r.base + k * c.itemLen))
      (fun _ m' => m'.readWord c.pg (r.base + k * c.itemLen + c.stride * c.flCol) = BitVec.ofNat _ head)
      (freeP c r (r.base + k * c.itemLen) head) m := by
  have h8 := hv.item_ge
  have hfl := hv.flCol_lt
  have hs : Slot c l (r.base + k * c.itemLen) := ⟨r, hr, k, hk, rfl⟩
  have hmod := slot_base hv hR hr hk
  have hpw := fun v => within_poisonItemP hv (off := k * c.itemLen) (v := v) (hR.each r hr).init_eq
  unfold freeP
  rw [hmod, toFreeList_eq]
  generalize hp : r.base + k * c.itemLen = p at *
  refine Ok.bind NRely.refl ?_
  have hW : Within (ItemBytes c p) (match c.poison with
      | some v => poisonItemP c r (k * c.itemLen) v
      | none => ret ()) := by
    cases c.poison with
    | none => exact .ret _
    | some v => exact hpw v
  refine (hW.ok (J := fun m => m.WF ∧ IShape c p m) ?_ ?_ ⟨hwf, hsh⟩).mono ?_
  · exact fun m m' h h' => ⟨h'.wf h.1, h.2.nrely h'⟩
  · intro x b m _ h
    have hf : Frame c.pg _ m (m.write c.pg x b) := Frame.write hv.pg_pos
    exact ⟨hf.wf h.1, h.2.frame hf⟩
  · rintro _ m1 ⟨w1, s1⟩
    refine (ok_writeP (J := fun j m => m.WF ∧ IShape c p m ∧
      ∀ o, o < j → m.read c.pg (p + c.stride * c.flCol + o) = wordByte (BitVec.ofNat _ head) o)
      NRely.refl ?_ (itemBytes_col hfl h8) ?_ ⟨w1, s1, fun o ho => absurd ho (Nat.not_lt_zero _)⟩).mono ?_
    · rintro j m m' hj ⟨a1, a2, a4⟩ hR
      refine ⟨hR.wf a1, a2.nrely hR, fun o ho => ?_⟩
      rw [hR.rd p rfl _ (by omega)]; exact a4 o ho
    · rintro j m hj ⟨a1, a2, a4⟩
      have hf : Frame c.pg _ m (m.write c.pg (p + c.stride * c.flCol + j) (wordByte (BitVec.ofNat _ head) j)) :=
        Frame.write hv.pg_pos
      refine ⟨hf.wf a1, a2.frame hf, fun o ho => ?_⟩
      by_cases e : o = j
      · subst e
        exact read_write_self _ _ _ _
      · rw [write_keep hv hs a1 a2 (by omega) hfl (by omega) (Or.inr e) (by omega)]
        exact a4 o (by omega)
    · rintro _ m' ⟨_, _, a4⟩
      exact readWord_eq_iff.2 a4

/-! ### Installing an arbitrary copy -/

omit [Abi] in
theorem resolve_install {pg : Nat} {m : Mem} {d : Pend} (x : Nat) :
    (installAt pg m d).resolve pg x = if (m.src (d.x / pg)).isSome ∧ x / pg = d.x / pg then x else m.resolve pg x := by
  unfold installAt
  cases hs : m.src (d.x / pg) with
  | none => simp
  | some q =>
    unfold resolve
    dsimp only
    by_cases e : x / pg = d.x / pg
    · rw [if_pos e, if_pos ⟨rfl, e⟩]
    · rw [if_neg e, if_neg (fun h => e h.2)]

omit [Abi] in
theorem install_wf {pg : Nat} {m : Mem} (hwf : m.WF) (d : Pend) : (installAt pg m d).WF := by
  unfold installAt
  cases hs : m.src (d.x / pg) with
  | none => exact hwf
  | some q =>
    intro a b hab
    dsimp only at hab ⊢
    split at hab
    · cases hab
    · split
      · rfl
      · exact hwf a b hab

omit [Abi] in
theorem install_res {pg : Nat} {m : Mem} (d : Pend) (x : Nat) :
    (installAt pg m d).resolve pg x = m.resolve pg x ∨ (installAt pg m d).resolve pg x = x := by
  rw [resolve_install]
  split
  · exact Or.inr rfl
  · exact Or.inl rfl

omit [Abi] in
/-- Bytes that are not shared keep their value. -/
theorem install_self {pg : Nat} (hpg : 0 < pg) {m : Mem} (hwf : m.WF) (d : Pend) {x : Nat} (h : m.resolve pg x = x) :
    (installAt pg m d).read pg x = m.read pg x := by
  have hn := src_of_res hpg hwf h
  unfold Mem.read
  rw [h]
  have : (installAt pg m d).resolve pg x = x := (install_res d x).elim (fun e => e.trans h) id
  rw [this]
  unfold installAt
  cases hs : m.src (d.x / pg) with
  | none => rfl
  | some q =>
    dsimp only
    rw [if_neg]
    intro e
    rw [e, hs] at hn
    cases hn

omit [Abi] in
/-- Bytes of other pages keep their value. -/
theorem install_other {pg : Nat} (hpg : 0 < pg) {m : Mem} (hwf : m.WF) (d : Pend) {x : Nat} (h : x / pg ≠ d.x / pg) :
    (installAt pg m d).read pg x = m.read pg x := by
  unfold Mem.read
  rw [resolve_install, if_neg fun e => h e.2]
  unfold installAt
  cases hs : m.src (d.x / pg) with
  | none => rfl
  | some q =>
    dsimp only
    rw [if_neg]
    intro e
    unfold resolve at e
    cases hx : m.src (x / pg) with
    | none => rw [hx] at e; exact h e
    | some q' =>
      rw [hx] at e
      dsimp only at e
      rw [Nat.mul_comm, Nat.mul_add_div hpg, Nat.div_eq_of_lt (Nat.mod_lt _ hpg), Nat.add_zero] at e
      have := hwf _ _ hx
      rw [e, hs] at this
      cases this

/-- Free list nodes are never in shared pages. -/
theorem node_private {c : Config} {l : List Range} {m : Mem} (hsh : Shape c l m) {p : Nat} (hp : Slot c l p)
    (hv : Valid c) {o : Nat} (ho : o < c.itemLen) :
    m.resolve c.pg (p + c.stride * c.flCol + o) = p + c.stride * c.flCol + o := by
  rcases hsh.slot hp hv.flCol_lt ho with e | ⟨hcow, hlt, _⟩
  · exact e
  · have := ncpu_le_flCol (c := c) (Or.inr hcow)
    omega

theorem install_nrely {c : Config} (hv : Valid c) {l : List Range} {m : Mem} (hwf : m.WF) (hsh : Shape c l m) (d : Pend)
    {P : Nat → Prop} (hP : ∀ q, P q → Slot c l q) : NRely c P m (installAt c.pg m d) :=
  ⟨fun _ => install_wf hwf d, fun _ _ _ _ _ _ => install_res d _,
    fun p hp o ho => install_self hv.pg_pos hwf d (node_private hsh (hP p hp) hv ho)⟩

theorem install_inv {c : Config} (hv : Valid c) {st : State} {L F : List Nat} (h : Inv c true st L F) (d : Pend) :
    Inv c true { st with mem := installAt c.pg st.mem d } L F := by
  have h8 := hv.item_ge
  refine h.mem (install_wf h.wf d) ⟨fun r hr col off hc ho => ?_, fun x hx r hr => ?_⟩ (fun q hq j hj => ?_) (fun hu => by cases hu)
  · rcases install_res (pg := c.pg) (m := st.mem) d (r.base + c.stride * col + off) with e | e
    · rw [e]; exact h.shape.inside r hr col off hc ho
    · exact Or.inl e
  · rcases install_res (pg := c.pg) (m := st.mem) d x with e | e
    · rw [e]; exact h.shape.outside x hx r hr
    · rw [e]; exact hx r hr
  · exact install_self hv.pg_pos h.wf d (node_private h.shape (h.slotF hq) hv (by omega))

end Verif.PoolConc
