import Verif.RseqDrain
import Verif.RseqBufTestProps
import Verif.RseqBufInitLemmas
import Verif.RseqStackEx

/-!
The threads of the buffer tests can always finish: from every state in which threads are in the middle of the loops
(param_test.c:988-1000, 1231-1244) they can be scheduled so that each thread puts back the item it has.
-/

namespace Verif.Rseq

variable {n : Nat} {T : Nat → Site n} {K : BufLayout n} {m0 : Mem n} {G0 : Bufs n} {N : Nat}

/-- The areas a copy reads and writes are disjoint, as `memcpy` wants. -/
def OpOK : Op n → Prop
  | .cbneMemcpyStore _ _ dst src len _ => NoOverlap dst src len
  | _ => True

/-- The program contains a call of the helper `k` on the field `fld`: with whatever arguments, it can be entered. -/
def CanCall (T : Nat → Site n) (fld : Fld) (k : Kind) : Prop :=
  ∀ (op : Op n) (c : BitVec 32) (m : Mem n), op.kind = k → Tidy op → OpOK op →
    ∃ f, Starts T f m ∧ f.op = op ∧ f.cpu = c ∧ f.fld = fld

theorem canCall (hn : 4 ≤ n) {p : Nat} {fld : Fld} {k : Kind} (hk : (T p).kind = k) (ha : (T p).al = exAl) :
    CanCall T fld k := by
  intro op c m ho ht hop
  refine ⟨frame0 p fld c op m, ⟨rfl, rfl, rfl, rfl, hk.trans ho.symm, ?_, ?_, ht⟩, rfl, rfl, rfl⟩
  · show Setup _ _ (T p).al op c (entry exInv op c)
    rw [ha]
    exact entry_setup hn _ op c
  · show CallOK _ (T p).al op
    rw [ha]
    cases op <;> first | trivial | exact ⟨hop, fun _ => exAl_own⟩

/-- A set of states of the test closed under the steps of the threads: helpers, the kernel, reading the offset, storing to
the own local variable. -/
structure TestClosed (T : Nat → Site n) (K : BufLayout n) (m0 : Mem n) (G0 : Bufs n) (N : Nat)
    (R : State n → Bufs n → Hold → Prop) : Prop where
  reach : ∀ s G H, R s G H → TestReach T K m0 G0 N s G H
  step : ∀ s G H t lab s', R s G H → Step T s t lab s' → lab ≠ .user →
    (∀ f, lab = .invoke f → BufCall K G t (s.th t).saved.length f ∧ TestCall K N H s t f) →
    R s' (bufStep K T s G t lab) (holdStep T s (bufStep K T s G t lab) H t lab)
  read : ∀ s G H t c, R s G H → (s.th t).run = true → (s.th t).top = none → c ∈ K.cpus →
    R s (G.read t (s.th t).saved.length c (ldw K.be s.mem (K.offset c))) H
  loc : ∀ s G H t mm, R s G H → (s.th t).run = true → (s.th t).top = none →
    (∀ a, mm a ≠ s.mem a → K.priv t (s.th t).saved.length a) → R { s with mem := mm } G H

/-- One call of the buffer test by a registered running thread that is alone. -/
theorem test_call (hn : 4 ≤ n) (hbe : ∀ p, (T p).prog.be = K.be) (hK : K.OK) (h0 : BufInit K m0 G0)
    {R : State n → Bufs n → Hold → Prop} (hR : TestClosed T K m0 G0 N R) {s : State n} {G : Bufs n} {H : Hold}
    (h : R s G H) {t : Nat} {f0 : Frame n} (hst : Starts T f0 s.mem) (hop : BufCall K G t 0 f0)
    (hte : TestCall K N H s t f0) {m' : Mem n} (hres : (0, m') = pseudo K.be f0.op s.mem)
    (hr : (s.th t).run = true) (htop : (s.th t).top = none) (hreg : (s.th t).reg = true)
    (hfv : (s.th t).fv f0.fld = f0.cpu) :
    ∃ s' cs G' H', G' = bufOp (G.start t 0 (itemOf K s.mem f0)) t 0 f0 ∧
      H' = upd H t (if isPush f0 then none else G'.got t 0) ∧ R s' G' H' ∧
      s'.th = upd s.th t { s.th t with cs := cs } ∧ s'.mem = m' := by
  have hsv := hte.2.1
  obtain ⟨G1, hG1⟩ : ∃ G1, G1 = G.start t 0 (itemOf K s.mem f0) := ⟨_, rfl⟩
  rw [← hG1]
  obtain ⟨G2, hG2⟩ : ∃ G2, G2 = bufOp G1 t 0 f0 := ⟨_, rfl⟩
  obtain ⟨H2, hH2⟩ : ∃ H2, H2 = upd H t (if isPush f0 then none else G2.got t 0) := ⟨_, rfl⟩
  suffices hh : ∃ s' cs, R s' G2 H2 ∧ s'.th = upd s.th t { s.th t with cs := cs } ∧ s'.mem = m' by
    obtain ⟨s', cs, q1, q2⟩ := hh
    exact ⟨s', cs, G2, H2, hG2, hH2, q1, q2⟩
  refine alone_frame (T := T)
    (P := fun s1 => ∃ f, (s1.th t).top = some f ∧ (s1.th t).saved = [] ∧ f.op = f0.op ∧ f.cpu = f0.cpu ∧
      ((f.commits = 0 ∧ R s1 G1 H) ∨ (f.commits = 1 ∧ R s1 G2 H2)))
    (t := t) (s := s) (f0 := f0) hn hst hr htop hreg hfv (by rw [hbe]; exact hres) ?_ ?_ ?_
  · intro s' hs
    have hd : (s.th t).saved.length = 0 := by rw [hsv]; rfl
    have := hR.step _ _ _ _ _ _ h hs (by simp) (fun f hf => by injection hf with hf; subst hf; rw [hd]; exact ⟨hop, hte⟩)
    simp only [bufStep, holdStep, committing, hd] at this
    rw [← hG1] at this
    cases hs with
    | invoke _ _ _ hst =>
      exact ⟨_, by simp only [State.set, updT_same], by simp only [State.set, updT_same]; exact hsv, rfl, rfl,
        .inl ⟨hst.commits, this⟩⟩
  · rintro a b ⟨f, hf, hsa, f1, f2, hor⟩ hs
    have hd : (a.th t).saved.length = 0 := by rw [hsa]; rfl
    obtain ⟨f', i, g, k1, k2, k3, k4, k5, k6, k7⟩ := exec_top hs
    rw [hf] at k1; injection k1 with k1; subst k1
    have hstep : ∀ G1 H1, R a G1 H1 → R b (bufStep K T a G1 t .exec)
        (holdStep T a (bufStep K T a G1 t .exec) H1 t .exec) := fun G1 H1 h1 =>
      hR.step _ _ _ _ _ _ h1 hs (by simp) (fun f hf => by simp at hf)
    refine ⟨g, k3, k4.trans hsa, k5.trans f1, k6.trans f2, ?_⟩
    rw [k7]
    by_cases hcm : i + 1 = (T f.pid).prog.commit
    · rw [if_pos hcm]
      have hcom := committing_eq (T := T) hf k2 hcm
      rcases hor with ⟨q1, q2⟩ | ⟨q1, q2⟩
      · refine .inr ⟨by rw [q1], ?_⟩
        have heq : bufStep K T a G1 t .exec = G2 := by
          rw [hG2]
          simp only [bufStep, hcom, hd]
          unfold bufOp
          rw [f1, f2]
        have heqH : holdStep T a G2 H t .exec = H2 := by
          rw [hH2]
          simp only [holdStep, hcom]
          rw [isPush_congr f1]
        have := hstep G1 H q2
        rwa [heq, heqH] at this
      · exfalso
        have hI := ((((hR.reach _ _ _ q2).breach.inv hn hbe hK h0).reach).reach hn).inv hn
        have := (commit_pseudo hn hI hs hcom).2
        omega
    · rw [if_neg hcm]
      have hcn : committing T a t .exec = none := by
        cases hx : committing T a t .exec with
        | none => rfl
        | some g' =>
          obtain ⟨-, r1, i', r2, r3⟩ := committing_some hx
          rw [hf] at r1; injection r1 with r1; subst r1
          rw [k2] at r2; injection r2 with r2; subst r2
          exact absurd r3 hcm
      have hq : ∀ G1, bufStep K T a G1 t .exec = G1 := fun G1 => by simp only [bufStep, hcn]
      have hq2 : ∀ G1 H1, holdStep T a G1 H1 t .exec = H1 := fun G1 H1 => by simp only [holdStep, hcn]
      rcases hor with ⟨q1, q2⟩ | ⟨q1, q2⟩
      · have := hstep _ _ q2; rw [hq, hq2] at this; exact .inl ⟨q1, this⟩
      · have := hstep _ _ q2; rw [hq, hq2] at this; exact .inr ⟨q1, this⟩
  · rintro a b f ⟨f', hf', hsa, f1, f2, hor⟩ hf hpc hs
    rw [hf] at hf'; injection hf' with hf'; subst hf'
    rcases hor with ⟨q1, q2⟩ | ⟨q1, q2⟩
    · exfalso
      have := (buffer_returns hn hbe hK h0 (hR.reach _ _ _ q2).breach (d := (a.th t).saved.length)
        (by rw [frameAt_top rfl]; exact hf) hpc).1
      rw [q1] at this; simp at this
    · have := hR.step _ _ _ _ _ _ q2 hs (by simp) (fun f hf => by simp at hf)
      simp only [bufStep, holdStep, committing] at this
      exact this

/-! ### The items have the size of items -/

theorem bytes_length (m : Mem n) (a : W n) (k : Nat) : (bytes m a k).length = k := by
  unfold bytes; rw [List.length_map, List.length_range]

theorem popped_length (hn : 4 ≤ n) (hbe : ∀ p, (T p).prog.be = K.be) (hK : K.OK) (h0 : BufInit K m0 G0) {s : State n}
    {G : Bufs n} (h : BReach T K m0 G0 s G) : ∀ y, 0 < G.popped y → y.length = K.isz := by
  induction h with
  | init => intro y hy; rw [h0.popped] at hy; omega
  | read h hr ht hc ih => exact ih
  | @step s s' G t lab h hs hi hu ih =>
    intro y hy
    have hI := h.inv hn hbe hK h0
    unfold bufStep at hy
    split at hy
    · exact ih y hy
    · split at hy
      · exact ih y hy
      · rename_i f hcom
        obtain ⟨-, ht, -⟩ := committing_some hcom
        have hc := (hI.frames t _ f (by rw [frameAt_top rfl]; exact ht)).shape.2.1
        have hpop : 0 < (G.pop f.cpu t (s.th t).saved.length).popped y → y.length = K.isz := by
          intro hy
          unfold Bufs.pop at hy
          split at hy
          · exact ih y hy
          · rename_i x hx
            dsimp only at hy
            by_cases e : y = x
            · subst e
              rw [List.getLast?_eq_getElem?] at hx
              rw [← (hI.holds _ hc).2.2 _ _ hx, bytes_length]
            · rw [if_neg e] at hy; exact ih y hy
        unfold bufOp at hy
        split at hy
        · exact ih y hy
        · exact hpop hy
        · split at hy
          · exact ih y hy
          · exact hpop hy
        · exact ih y hy

theorem item_length (hn : 4 ≤ n) (hbe : ∀ p, (T p).prog.be = K.be) (hK : K.OK) (h0 : BufInit K m0 G0) {s : State n}
    {G : Bufs n} {H : Hold} (h : TestReach T K m0 G0 N s G H) {t : Nat} {y : List Byte} (hy : H t = some y) :
    t < N ∧ y.length = K.isz := by
  have hI := h.inv hn hbe hK h0
  have htN : t < N := by
    apply Classical.byContradiction
    intro hge
    rw [hI.out t (by omega)] at hy
    cases hy
  refine ⟨htN, popped_length hn hbe hK h0 h.breach y ?_⟩
  have := hI.cnt y
  have := holders_pos hy htN
  omega

theorem bytes_stl (m : Mem n) (a : W n) (y : List Byte) (h : y.length ≤ 2 ^ (8 * n)) : bytes (stl m a y) a y.length = y := by
  refine List.ext_getElem (bytes_length _ _ _) fun i h1 h2 => ?_
  have e : (bytes (stl m a y) a y.length)[i] = stl m a y (a + BitVec.ofNat (8 * n) i) := by simp [bytes]
  rw [e]
  unfold stl
  rw [BitVec.add_comm, BitVec.add_sub_cancel, BitVec.toNat_ofNat, Nat.mod_eq_of_lt (by omega), List.getElem?_eq_getElem h2]
  rfl

theorem wordItem_onto (be : Bool) {y : List Byte} (h : y.length = n) (hn : n ≤ 2 ^ (8 * n)) : ∃ x : W n, wordItem be x = y := by
  refine ⟨ldw be (stl (fun _ => 0#8) 0#_ y) 0#_, ?_⟩
  rw [← bytes_ldw]
  have := bytes_stl (n := n) (fun _ => 0#8) 0#_ y (by omega)
  rwa [h] at this

/-! ### Emptying the hands of the threads -/

/-- The helpers that the loops of the tests call to put an item back. -/
def PushSites (T : Nat → Site n) (K : BufLayout n) (N : Nat) : Prop :=
  (K.isz = n ∧ CanCall T K.fld .cbneStoreStore) ∨
  (CanCall T K.fld .cbneMemcpyStore ∧ ∀ t, t < N → ∃ src, ∀ a, InRange src (num K.isz) a → K.priv t 0 a)

/-- A thread that runs alone on a CPU puts back the item it has. -/
theorem push_back (hn : 4 ≤ n) (hbe : ∀ p, (T p).prog.be = K.be) (hK : K.OK) (h0 : BufInit K m0 G0)
    {R : State n → Bufs n → Hold → Prop} (hR : TestClosed T K m0 G0 N R) (hS : PushSites T K N) {c : BitVec 32}
    (hc : c ∈ K.cpus)
    (hroom : ∀ s G H t y, R s G H → H t = some y → ldw K.be s.mem (K.offset c) ≠ num (K.cap c)) {s : State n} {G : Bufs n} {H : Hold}
    (h : R s G H) {t : Nat} {y : List Byte} (hy : H t = some y)
    (hr : (s.th t).run = true) (htop : (s.th t).top = none) (hsv : (s.th t).saved = []) (hreg : (s.th t).reg = true)
    (hfv : (s.th t).fv K.fld = c) :
    ∃ s' cs G', R s' G' (upd H t none) ∧ s'.th = upd s.th t { s.th t with cs := cs } := by
  obtain ⟨htN, hlen⟩ := item_length hn hbe hK h0 (hR.reach _ _ _ h) hy
  have hd : (s.th t).saved.length = 0 := by rw [hsv]; rfl
  have key : ∀ (s : State n) (G : Bufs n) (f0 : Frame n), R s G H → Starts T f0 s.mem → BufCall K G t 0 f0 →
      itemOf K s.mem f0 = y → isPush f0 = true → f0.cpu = c → (∃ m', (0, m') = pseudo K.be f0.op s.mem) →
      (s.th t).run = true → (s.th t).top = none → (s.th t).saved = [] → (s.th t).reg = true → (s.th t).fv K.fld = c →
      ∃ s' cs G', R s' G' (upd H t none) ∧ s'.th = upd s.th t { s.th t with cs := cs } := by
    intro s G f0 h hst hop hit hpu hcpu ⟨m', hm'⟩ hr htop hsv hreg hfv
    obtain ⟨s', cs, G', H', -, hH', h', e, -⟩ := test_call hn hbe hK h0 hR h hst hop
      ⟨htN, hsv, by rw [hy]; exact ⟨hpu, hit⟩⟩ hm' hr htop hreg (by rw [hop.1, hfv, hcpu])
    rw [if_pos hpu] at hH'
    exact ⟨s', cs, G', hH' ▸ h', e⟩
  rcases hS with ⟨hisz, hcall⟩ | ⟨hcall, hsrc⟩
  · have hro := hroom _ _ _ _ _ h hy
    have hrd := hR.read _ _ _ t c h hr htop hc
    rw [hd] at hrd
    obtain ⟨w, hw⟩ : ∃ w, ldw K.be s.mem (K.offset c) = w := ⟨_, rfl⟩
    rw [hw] at hrd hro
    obtain ⟨x, hx⟩ := wordItem_onto (n := n) K.be (hlen.trans hisz) (by have := hK.iszlt; omega)
    have hI := (hR.reach _ _ _ h).breach.inv hn hbe hK h0
    obtain ⟨l1, l2, -⟩ := hI.holds c hc
    have hk : (G.buf c).length < K.cap c := by
      rcases Nat.lt_or_ge (G.buf c).length (K.cap c) with q | q
      · exact q
      · exact absurd (by rw [← hw, l1, Nat.le_antisymm l2 q]) hro
    have hslot : K.array c + w * num K.isz = K.slot c (G.buf c).length := by
      rw [← hw, l1]; unfold BufLayout.slot num; rw [BitVec.ofNat_mul]
    have htidy : Tidy (Op.cbneStoreStore (K.offset c) w (K.array c + w * num K.isz) x (w + 1#_) : Op n) := by
      intro a ha ho
      rw [hslot] at ha
      exact hK.off_arr c hc c hc a ho (hK.slot_arr hc hk (by rw [hisz]; exact ha))
    obtain ⟨f0, f1, f2, f3, f4⟩ := hcall (.cbneStoreStore (K.offset c) w (K.array c + w * num K.isz) x (w + 1#_)) c s.mem rfl
      htidy trivial
    subst f3
    refine key s _ f0 hrd f1 ⟨f4, w, by simp [Bufs.read], .inl ⟨hisz, hro, x, f2⟩⟩ ?_ ?_ rfl ?_ hr htop hsv hreg hfv
    · unfold itemOf; rw [f2]; exact hx
    · unfold isPush; rw [f2]
    · rw [f2]; simp only [pseudo]; rw [if_neg (not_not_intro hw)]; exact ⟨_, rfl⟩
  · obtain ⟨src, hsrc⟩ := hsrc t htN
    have hnum : (num K.isz : W n).toNat = K.isz := by
      unfold num; rw [BitVec.toNat_ofNat, Nat.mod_eq_of_lt hK.iszlt]
    have h := hR.loc _ _ _ t (stl s.mem src y) h hr htop fun a ha => by
      rw [hd]
      refine hsrc a ?_
      unfold InRange
      rw [hnum, ← hlen]
      exact Classical.byContradiction fun hno => ha (stl_other _ _ _ _ hno)
    have hro := hroom _ _ _ _ _ h hy
    have hrd := hR.read _ _ _ t c h hr htop hc
    rw [show (({ s with mem := stl s.mem src y } : State n).th t).saved.length = 0 from hd] at hrd
    obtain ⟨w, hw⟩ : ∃ w, ldw K.be (stl s.mem src y) (K.offset c) = w := ⟨_, rfl⟩
    have hro : w ≠ num (K.cap c) := hw ▸ hro
    rw [show ldw K.be ({ s with mem := stl s.mem src y } : State n).mem (K.offset c) = w from hw] at hrd
    have hI := (hR.reach _ _ _ h).breach.inv hn hbe hK h0
    obtain ⟨l1, l2, -⟩ := hI.holds c hc
    have l1 : w = num (G.buf c).length := hw ▸ l1
    have hk : (G.buf c).length < K.cap c := by
      rcases Nat.lt_or_ge (G.buf c).length (K.cap c) with q | q
      · exact q
      · exact absurd (by rw [l1, Nat.le_antisymm l2 q]) hro
    have hslot : K.array c + w * num K.isz = K.slot c (G.buf c).length := by
      rw [l1]; unfold BufLayout.slot num; rw [BitVec.ofNat_mul]
    have hin : ∀ a, InRange (K.array c + w * num K.isz) (num K.isz) a → K.InArr c a := fun a ha => by
      unfold InRange at ha
      rw [hslot, hnum] at ha
      exact hK.slot_arr hc hk ha
    obtain ⟨f0, f1, f2, f3, f4⟩ := hcall (.cbneMemcpyStore (K.offset c) w (K.array c + w * num K.isz) src (num K.isz) (w + 1#_))
      c (stl s.mem src y) rfl (fun a ha ho => hK.off_arr c hc c hc a ho (hin a ha)) (by
        intro i j hi hj e
        exact hK.arr_priv c hc t 0 _ (hin _ (sub_add_lt _ hj)) (e ▸ hsrc _ (sub_add_lt _ hi)))
    subst f3
    refine key { s with mem := stl s.mem src y } _ f0 hrd f1 ⟨f4, w, by simp [Bufs.read], .inr (.inr (.inl ⟨hro, src, f2, hsrc⟩))⟩
      ?_ ?_ rfl ?_ hr htop hsv hreg hfv
    · unfold itemOf; rw [f2, ← hlen]; exact bytes_stl _ _ _ (by have := hK.iszlt; omega)
    · unfold isPush; rw [f2]; simp
    · rw [f2]; simp only [pseudo]; rw [if_neg (not_not_intro hw)]; exact ⟨_, rfl⟩

/-- From every state of a buffer test the threads can be scheduled so that none has an item any more and all are outside
of the helpers, if a thread that has an item finds room. -/
theorem buffers_drain (hn : 4 ≤ n) (hbe : ∀ p, (T p).prog.be = K.be) (hK : K.OK) (h0 : BufInit K m0 G0)
    {R : State n → Bufs n → Hold → Prop} (hR : TestClosed T K m0 G0 N R) (hS : PushSites T K N) {c : BitVec 32}
    (hc : c ∈ K.cpus)
    (hroom : ∀ s G H t y, R s G H → H t = some y → ldw K.be s.mem (K.offset c) ≠ num (K.cap c)) {s : State n} {G : Bufs n} {H : Hold}
    (h : R s G H) : ∃ s' G' H', R s' G' H' ∧ (∀ t, H' t = none) ∧ ∀ u, Idle (s'.th u) := by
  have hany : ∀ {s G H}, R s G H → Live T s := fun h =>
    ((((hR.reach _ _ _ h).breach.inv hn hbe hK h0).reach).reach hn).any.live
  obtain ⟨M, hM⟩ := (hany h).few
  obtain ⟨s0, ⟨G1, H1, h1⟩, -, hid⟩ := settle (M := M) (P := fun s => ∃ G H, R s G H)
    (fun s s' t lab _ ⟨G, H, h⟩ hs hl => by
      refine ⟨_, _, hR.step _ _ _ _ _ _ h hs ?_ fun f hf => ?_⟩
      · rcases hl with e | e | e | e | e <;> rw [e] <;> simp
      · rcases hl with e | e | e | e | e <;> rw [e] at hf <;> simp at hf) ⟨G, H, h⟩ (hany h) hM
  have key : ∀ k, ∃ s' G' H', R s' G' H' ∧ (∀ t, t < k → H' t = none) ∧ ∀ u, Idle (s'.th u) := by
    intro k
    induction k with
    | zero => exact ⟨s0, G1, H1, h1, fun t ht => by omega, hid⟩
    | succ k ih =>
      obtain ⟨s1, G2, H2, a1, a2, a3⟩ := ih
      cases hk : H2 k with
      | none =>
        refine ⟨s1, G2, H2, a1, fun t ht => ?_, a3⟩
        by_cases e : t = k
        · subst e; exact hk
        · exact a2 t (by omega)
      | some y =>
        obtain ⟨s2, x, b1, -, b3, b4, b5, b6, b7, b8, b9⟩ := put_on (T := T) (t := k) (P := fun s => R s G2 H2)
          (fun s s' lab h hs hl => by
            have := hR.step _ _ _ _ _ _ h hs (by rcases hl with e | e <;> rw [e] <;> simp)
              (fun f hf => by rcases hl with e | e <;> rw [e] at hf <;> simp at hf)
            rcases hl with e | e <;> subst e <;> simpa only [bufStep, holdStep, committing] using this) a1 a3 c
        have hx : s2.th k = x := by rw [b3, updT_same]
        obtain ⟨s3, cs, G3, d1, d2⟩ := push_back hn hbe hK h0 hR hS hc hroom b1 hk (by rw [hx]; exact b4)
          (by rw [hx]; exact b5) (by rw [hx]; exact b6) (by rw [hx]; exact b7) (by rw [hx]; cases K.fld <;> assumption)
        have h3 : s3.th k = { x with cs := cs } := by rw [d2, updT_same, hx]
        have hst := Step.preempt (T := T) (s := s3) (t := k) (by rw [h3]; exact b4)
        have d3 := hR.step _ _ _ _ _ _ d1 hst (by simp) (fun f hf => by simp at hf)
        simp only [bufStep, holdStep, committing] at d3
        refine ⟨_, _, _, d3, fun t ht => ?_, fun u => ?_⟩
        · by_cases e : t = k
          · subst e; rw [updT_same]
          · rw [updT_other _ _ e]; exact a2 t (by omega)
        · simp only [State.set]
          by_cases e : u = k
          · subst e; rw [updT_same, h3]; exact ⟨rfl, b5, b6⟩
          · rw [updT_other _ _ e, d2, updT_other _ _ e, b3, updT_other _ _ e]; exact a3 u
  obtain ⟨s', G', H', a1, a2, a3⟩ := key N
  refine ⟨s', G', H', a1, fun t => ?_, a3⟩
  rcases Nat.lt_or_ge t N with q | q
  · exact a2 t q
  · exact ((hR.reach _ _ _ a1).inv hn hbe hK h0).out t q

end Verif.Rseq
