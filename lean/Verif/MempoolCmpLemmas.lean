import Verif.MempoolCmp
import Verif.MempoolProps
/-
Helper lemmas about the comparisons with undefined overflow.
-/
namespace Verif.Mempool
open Verif Verif.Mem

variable [Abi]

theorem toInt_lt_word (v : Word) : v.toInt < (2 ^ (8 * wb - 1) : Int) := by
  have := BitVec.toInt_lt (x := v)
  exact_mod_cast this

theorem le_toInt_word (v : Word) : -(2 ^ (8 * wb - 1) : Int) ≤ v.toInt := by
  have := BitVec.le_toInt (x := v)
  exact_mod_cast this

theorem subOverflows_iff {v w : Word} : subOverflows v w = true ↔
    v.toInt - w.toInt < -(2 ^ (8 * wb - 1) : Int) ∨ (2 ^ (8 * wb - 1) : Int) ≤ v.toInt - w.toInt := by
  unfold subOverflows; rw [Bool.or_eq_true, decide_eq_true_iff, decide_eq_true_iff]

theorem subOverflows_zero (v : Word) : subOverflows v 0#_ = false := by
  rw [← Bool.not_eq_true, subOverflows_iff, BitVec.toInt_zero]
  have := toInt_lt_word v
  have := le_toInt_word v
  omega

theorem subOverflows_self (v : Word) : subOverflows v v = false := by
  rw [← Bool.not_eq_true, subOverflows_iff, Int.sub_self]
  have h1 := toInt_lt_word v
  have h2 := le_toInt_word v
  omega

/-- Every poison but zero has a word whose comparison overflows. -/
theorem exists_overflow {v : Word} (hv : v ≠ 0#_) : ∃ w : Word, subOverflows w v = true := by
  have hwb := wb_pos
  have hne : v.toInt ≠ 0 := by
    intro h
    apply hv
    apply BitVec.eq_of_toInt_eq
    rw [h, BitVec.toInt_zero]
  by_cases h : 0 < v.toInt
  · refine ⟨BitVec.intMin _, subOverflows_iff.2 (Or.inl ?_)⟩
    rw [BitVec.toInt_intMin_of_pos (by omega)]
    omega
  · refine ⟨BitVec.intMax _, subOverflows_iff.2 (Or.inr ?_)⟩
    have : (BitVec.intMax (8 * wb)).toInt = 2 ^ (8 * wb - 1) - 1 := by
      rw [BitVec.toInt_intMax]
    rw [this]; omega

/-! ### The comparison loop -/

theorem cmpLoopS_ub {pg : Nat} {m : Mem} {p : Nat} {v : Word} {n off : Nat} :
    cmpLoopS pg m p v n off = .ub ↔ ∃ k, k < n ∧ (∀ j, j < k → m.readWord pg (p + (off + wb * j)) = v) ∧
      subOverflows (m.readWord pg (p + (off + wb * k))) v = true := by
  induction n generalizing off with
  | zero =>
    unfold cmpLoopS
    exact ⟨(fun h => by cases h), fun ⟨k, h, _⟩ => by omega⟩
  | succ n ih =>
    have hs : ∀ i, off + wb * (i + 1) = off + wb + wb * i := fun i => by rw [Nat.mul_succ]; omega
    unfold cmpLoopS
    dsimp only
    split
    · rename_i h
      refine ⟨fun _ => ⟨0, by omega, fun j hj => by omega, by simpa using h⟩, fun _ => rfl⟩
    · rename_i h
      split
      · rename_i hne
        refine ⟨(fun h => by cases h), ?_⟩
        rintro ⟨k, hk, heq, hov⟩
        exfalso
        cases k with
        | zero => exact h (by simpa using hov)
        | succ k =>
          have := heq 0 (by omega)
          rw [Nat.mul_zero, Nat.add_zero] at this
          exact hne (sub_eq_zero_iff.2 this)
      · rename_i hz
        have h0 : m.readWord pg (p + off) = v := sub_eq_zero_iff.1 (Classical.not_not.1 hz)
        rw [ih]
        constructor
        · rintro ⟨k, hk, heq, hov⟩
          refine ⟨k + 1, by omega, ?_, by rw [hs]; exact hov⟩
          intro j hj
          cases j with
          | zero => simpa using h0
          | succ j => rw [hs]; exact heq j (by omega)
        · rintro ⟨k, hk, heq, hov⟩
          cases k with
          | zero => exact absurd (by simpa using hov) h
          | succ k =>
            refine ⟨k, by omega, ?_, by rw [← hs]; exact hov⟩
            intro j hj
            rw [← hs]; exact heq (j + 1) (by omega)

theorem cmpLoopS_ok {pg : Nat} {m : Mem} {p : Nat} {v : Word} {n off : Nat} :
    cmpLoopS pg m p v n off = .ub ∨ cmpLoopS pg m p v n off = .ok (cmpLoop pg m p v n off) := by
  induction n generalizing off with
  | zero => exact Or.inr rfl
  | succ n ih =>
    unfold cmpLoopS cmpLoop
    dsimp only
    split
    · exact Or.inl rfl
    · split
      · exact Or.inr rfl
      · exact ih

theorem cmpItemS_ok {pg : Nat} {m : Mem} {p : Nat} {v : Word} {len : Nat} :
    cmpItemS pg m p len v = .ub ∨ cmpItemS pg m p len v = .ok (cmpItem pg m p len v) := cmpLoopS_ok

theorem cmpItemS_ub {pg : Nat} {m : Mem} {p : Nat} {v : Word} {len : Nat} :
    cmpItemS pg m p len v = .ub ↔ ∃ k, k < len / wb ∧ (∀ j, j < k → m.readWord pg (p + wb * j) = v) ∧
      subOverflows (m.readWord pg (p + wb * k)) v = true := by
  unfold cmpItemS
  rw [cmpLoopS_ub]
  simp only [Nat.zero_add]

theorem cmpItemS_zero {pg : Nat} {m : Mem} {p : Nat} {len : Nat} :
    cmpItemS pg m p len 0#_ = .ok (cmpItem pg m p len 0#_) := by
  rcases cmpItemS_ok (pg := pg) (m := m) (p := p) (v := 0#_) (len := len) with h | h
  · obtain ⟨k, _, _, hov⟩ := cmpItemS_ub.1 h
    rw [subOverflows_zero] at hov; cases hov
  · exact h

theorem cmpItemS_equal {pg : Nat} {m : Mem} {p : Nat} {v : Word} {len : Nat} (h8 : wb ∣ len)
    (h : Holds pg m p (pat v) len) : cmpItemS pg m p len v = .ok 0#_ := by
  have hz := (cmpItem_eq_zero_iff h8).2 h
  rcases cmpItemS_ok (pg := pg) (m := m) (p := p) (v := v) (len := len) with hu | hu
  · obtain ⟨k, hk, _, hov⟩ := cmpItemS_ub.1 hu
    have := cmpLoop_eq_zero_iff.1 hz k hk
    rw [Nat.zero_add] at this
    rw [this, subOverflows_self] at hov; cases hov
  · rw [hu, hz]

/-! ### Loops over the CPUs -/

omit [Abi] in
theorem forCpusS_eq {bodyS : Nat → Mem → Outcome Mem} {body : Nat → Mem → Mem}
    (h : ∀ i m, bodyS i m = .ub ∨ bodyS i m = .ok (body i m)) (n : Nat) (m : Mem) :
    (forCpusS bodyS n m = .ub ∧ ∃ i, i < n ∧ bodyS i (forCpus body i m) = .ub) ∨
    (forCpusS bodyS n m = .ok (forCpus body n m) ∧ ∀ i, i < n → bodyS i (forCpus body i m) ≠ .ub) := by
  induction n with
  | zero => exact Or.inr ⟨rfl, fun i hi => by omega⟩
  | succ n ih =>
    unfold forCpusS
    rcases ih with ⟨e, i, hi, hu⟩ | ⟨e, hno⟩
    · left
      rw [e]
      exact ⟨rfl, i, by omega, hu⟩
    · rw [e]
      dsimp only
      rcases h n (forCpus body n m) with hu | hu
      · exact Or.inl ⟨hu, n, by omega, hu⟩
      · refine Or.inr ⟨by rw [hu]; rfl, ?_⟩
        intro i hi
        by_cases hin : i = n
        · subst hin; rw [hu]; intro h; cases h
        · exact hno i (by omega)

theorem zeroItemS_eq {c : Config} {r : Range} {off : Nat} {m : Mem} :
    zeroItemS c r off m = .ok (zeroItem c r off m) := by
  have hb : ∀ i m, zeroCpuS c r off i m = .ok (if cmpItem c.pg m (percpuPtr c r i off) c.itemLen 0#_ = 0#_ then m else
      bzero c.pg m (percpuPtr c r i off) c.itemLen) := by
    intro i m; unfold zeroCpuS; dsimp only; rw [cmpItemS_zero]
  unfold zeroItemS zeroItem
  rcases forCpusS_eq (fun i m => Or.inr (hb i m)) c.ncpu (match initPtr r off with
    | some p => bzero c.pg m p c.itemLen
    | none => m) with ⟨_, i, _, hu⟩ | ⟨e, _⟩
  · rw [hb] at hu; cases hu
  · exact e

/-- The body of the poisoning loop. -/
def pBody (c : Config) (r : Range) (off : Nat) (v : Word) : Nat → Mem → Mem := fun i m =>
  if cmpItem c.pg m (percpuPtr c r i off) c.itemLen v = 0#_ then m else
    poisonBlock c.pg m (percpuPtr c r i off) c.itemLen v

/-- Memory once the init copy (if any) is poisoned. -/
def pInit (c : Config) (r : Range) (off : Nat) (v : Word) (m : Mem) : Mem :=
  match initPtr r off with
  | some p => poisonBlock c.pg m p c.itemLen v
  | none => m

theorem poisonItemS_eq {c : Config} {r : Range} {off : Nat} {v : Word} {m : Mem} :
    (poisonItemS c r off v m = .ub ∧ ∃ i, i < c.ncpu ∧
      cmpItemS c.pg (forCpus (pBody c r off v) i (pInit c r off v m)) (percpuPtr c r i off) c.itemLen v = .ub) ∨
    (poisonItemS c r off v m = .ok (poisonItem c r off v m) ∧ ∀ i, i < c.ncpu →
      cmpItemS c.pg (forCpus (pBody c r off v) i (pInit c r off v m)) (percpuPtr c r i off) c.itemLen v ≠ .ub) := by
  have hb : ∀ i m, poisonCpuS c r off v i m = .ub ∨ poisonCpuS c r off v i m = .ok (pBody c r off v i m) := by
    intro i m
    unfold poisonCpuS
    dsimp only
    rcases cmpItemS_ok (pg := c.pg) (m := m) (p := percpuPtr c r i off) (v := v) (len := c.itemLen) with h | h
    · left; rw [h]
    · right; rw [h]; rfl
  have hub : ∀ i m, poisonCpuS c r off v i m = .ub ↔ cmpItemS c.pg m (percpuPtr c r i off) c.itemLen v = .ub := by
    intro i m
    unfold poisonCpuS
    dsimp only
    rcases cmpItemS_ok (pg := c.pg) (m := m) (p := percpuPtr c r i off) (v := v) (len := c.itemLen) with h | h
    · rw [h]; exact ⟨fun _ => rfl, fun _ => rfl⟩
    · rw [h]; exact ⟨(fun h => by cases h), fun h => by cases h⟩
  rcases forCpusS_eq hb c.ncpu (pInit c r off v m) with ⟨e, i, hi, hu⟩ | ⟨e, hno⟩
  · exact Or.inl ⟨e, i, hi, (hub _ _).1 hu⟩
  · exact Or.inr ⟨e, fun i hi h => hno i hi ((hub _ _).2 h)⟩

/-! ### Stores to private pages keep the sharing -/

omit [Abi] in
theorem src_write {pg : Nat} {m : Mem} {a : Nat} {b : Byte} (h : m.src (a / pg) = none) : (m.write pg a b).src = m.src := by
  unfold Mem.write; rw [h]

omit [Abi] in
theorem src_writeBlock {pg : Nat} {m : Mem} {a : Nat} {f : Nat → Byte} {n : Nat}
    (h : ∀ j, j < n → m.src ((a + j) / pg) = none) : (m.writeBlock pg a f n).src = m.src := by
  induction n with
  | zero => rfl
  | succ n ih =>
    have ih := ih fun j hj => h j (by omega)
    unfold Mem.writeBlock
    rw [src_write (by rw [ih]; exact h n (by omega)), ih]

theorem src_poisonLoop {pg : Nat} {p : Nat} {v : Word} {n off : Nat} {m : Mem}
    (h : ∀ j, j < wb * n → m.src ((p + off + j) / pg) = none) : (poisonLoop pg p v n off m).src = m.src := by
  induction n generalizing off m with
  | zero => rfl
  | succ n ih =>
    rw [Nat.mul_succ] at h
    unfold poisonLoop
    have h1 : (m.writeWord pg (p + off) v).src = m.src := src_writeBlock fun j hj => h j (by omega)
    rw [ih, h1]
    intro j hj
    rw [h1, show p + (off + wb) + j = p + off + (j + wb) from by omega]
    exact h _ (by omega)

/-! ### What the poisoning loop sees -/

theorem pBody_fill {c : Config} (hv : Valid c) {r : Range} {off : Nat} {v : Word} :
    FillBody c.pg (fun i => percpuPtr c r i off) (pat v) c.itemLen (pBody c r off v) :=
  poisonBody hv.pg_pos hv.item_wb r off v

theorem initPtr_eq {c : Config} {r : Range} {off : Nat}
    (hinit : r.init = if c.cow then some (r.base + c.stride * c.ncpu) else none) :
    initPtr r off = if c.cow then some (r.base + off + c.stride * c.ncpu) else none := by
  unfold initPtr
  rw [hinit]
  cases c.cow
  · rfl
  · simp; omega

theorem seen_before {c : Config} (hv : Valid c) {l : List Range} {m : Mem} (hwf : m.WF) (hsh : Shape c l m)
    {r : Range} {off : Nat} (hslot : Slot c l (r.base + off))
    (hinit : r.init = if c.cow then some (r.base + c.stride * c.ncpu) else none) {v : Word}
    {i o : Nat} (hi : i < c.ncpu) (ho : o < c.itemLen) :
    (forCpus (pBody c r off v) i (pInit c r off v m)).read c.pg (percpuPtr c r i off + o) =
      seenByte c m v (r.base + off) i o := by
  have hn := ncpu_le_nCols c
  rw [percpuPtr_eq]
  unfold seenByte
  rw [show cpuAddr c (r.base + off) i = r.base + off + c.stride * i from rfl]
  -- the init copy
  have hf1 : Frame c.pg (fun x => c.cow = true ∧ r.base + off + c.stride * c.ncpu ≤ x ∧ x < r.base + off + c.stride * c.ncpu + c.itemLen)
      m (pInit c r off v m) := by
    unfold pInit
    rw [initPtr_eq hinit]
    cases hc : c.cow with
    | false => exact Frame.refl
    | true => exact (poisonBlock_frame hv.pg_pos).mono fun x hx => ⟨rfl, hx⟩
  have hwf1 := hf1.wf hwf
  have hsh1 : Shape c l (pInit c r off v m) := hsh.frame hf1
  have hgen : ∀ col k, col ≠ k → ¬ (r.base + off + c.stride * k ≤ r.base + off + c.stride * col + o ∧
      r.base + off + c.stride * col + o < r.base + off + c.stride * k + c.itemLen) := by
    intro col k hck ⟨h1, h2⟩
    exact slot_col_disj hslot hck (o := o) (o' := r.base + off + c.stride * col + o - (r.base + off + c.stride * k))
      ho (by omega) (by omega)
  have hcpus : (forCpus (pBody c r off v) i (pInit c r off v m)).read c.pg (r.base + off + c.stride * i + o) =
      (pInit c r off v m).read c.pg (r.base + off + c.stride * i + o) := by
    refine (forCpus_frame (pBody_fill hv) i _).rd hwf1 _ ?_ ?_
    · rintro ⟨k, hk, h⟩
      rw [percpuPtr_eq] at h
      exact hgen i k (by omega) h
    · rintro ⟨k, hk, h⟩
      rw [percpuPtr_eq] at h
      rcases hsh1.slot hslot (col := i) (o := o) (by omega) ho with e | ⟨_, _, e⟩
      · rw [e] at h; exact hgen i k (by omega) h
      · rw [e] at h; exact hgen c.ncpu k (by omega) h
  rw [hcpus]
  split
  · rename_i hres
    refine hf1.rd hwf _ ?_ ?_
    · exact fun h => hgen i c.ncpu (by omega) h.2
    · rw [hres]; exact fun h => hgen i c.ncpu (by omega) h.2
  · rename_i hres
    rcases hsh.slot hslot (col := i) (o := o) (by omega) ho with e | ⟨hc, _, e⟩
    · exact absurd e hres
    · -- shared with the init copy, before and after
      have hh : Holds c.pg (pInit c r off v m) (r.base + off + c.stride * c.ncpu) (pat v) c.itemLen := by
        unfold pInit
        rw [initPtr_eq hinit, if_pos hc]
        exact poisonBlock_holds hv.pg_pos hwf hv.item_wb
      have hsrc : ∀ j, j < c.itemLen → m.src ((r.base + off + c.stride * c.ncpu + j) / c.pg) = none := by
        intro j hj
        rcases hsh.slot hslot (col := c.ncpu) (o := j) (initCol_lt hc) hj with e | ⟨_, h, _⟩
        · cases hs : m.src ((r.base + off + c.stride * c.ncpu + j) / c.pg) with
          | none => rfl
          | some q =>
            exfalso
            unfold Mem.resolve at e
            rw [hs] at e
            dsimp only at e
            have hq : q = (r.base + off + c.stride * c.ncpu + j) / c.pg := by
              rw [← e, Nat.mul_comm, Nat.mul_add_div hv.pg_pos, Nat.div_eq_of_lt (Nat.mod_lt _ hv.pg_pos), Nat.add_zero]
            have := hwf _ _ hs
            rw [hq, hs] at this; cases this
        · omega
      have hs1 : (pInit c r off v m).src = m.src := by
        unfold pInit
        rw [initPtr_eq hinit, if_pos hc]
        dsimp only
        unfold poisonBlock
        refine src_poisonLoop fun j hj => ?_
        rw [Nat.add_zero]
        exact hsrc j (Nat.lt_of_lt_of_le hj (Nat.mul_div_le _ _))
      have hres1 : ∀ x, (pInit c r off v m).resolve c.pg x = m.resolve c.pg x := by
        intro x; unfold Mem.resolve; rw [hs1]
      have hi1 : (pInit c r off v m).resolve c.pg (r.base + off + c.stride * c.ncpu + o) = r.base + off + c.stride * c.ncpu + o := by
        rcases hsh1.slot hslot (col := c.ncpu) (o := o) (initCol_lt hc) ho with e | ⟨_, h, _⟩
        · exact e
        · omega
      have := hh o ho
      unfold Mem.read at this ⊢
      rw [hi1] at this
      rw [hres1, e]
      exact this

theorem word_offset {c : Config} {k j : Nat} (hk : k < c.itemLen / wb) (hj : j < wb) : wb * k + j < c.itemLen := by
  have h1 : wb * (k + 1) ≤ wb * (c.itemLen / wb) := Nat.mul_le_mul_left _ hk
  have h2 := Nat.mul_div_le c.itemLen wb
  rw [Nat.mul_succ] at h1
  omega

/-- The comparison of CPU `i` in the poisoning loop, in terms of the memory before the loop. -/
theorem poison_cmp_ub {c : Config} (hv : Valid c) {l : List Range} {m : Mem} (hwf : m.WF) (hsh : Shape c l m)
    {r : Range} {off : Nat} (hslot : Slot c l (r.base + off))
    (hinit : r.init = if c.cow then some (r.base + c.stride * c.ncpu) else none) {v : Word}
    {i : Nat} (hi : i < c.ncpu) :
    cmpItemS c.pg (forCpus (pBody c r off v) i (pInit c r off v m)) (percpuPtr c r i off) c.itemLen v = .ub ↔
      ∃ k, k < c.itemLen / wb ∧ (∀ j, j < k → seenWord c m v (r.base + off) i j = v) ∧
        subOverflows (seenWord c m v (r.base + off) i k) v = true := by
  have hw : ∀ k, k < c.itemLen / wb →
      (forCpus (pBody c r off v) i (pInit c r off v m)).readWord c.pg (percpuPtr c r i off + wb * k) =
        seenWord c m v (r.base + off) i k := by
    intro k hk
    refine joinBytes_congr fun j hj => ?_
    rw [Nat.add_assoc]
    exact seen_before hv hwf hsh hslot hinit hi (word_offset hk hj)
  rw [cmpItemS_ub]
  constructor
  · rintro ⟨k, hk, h1, h2⟩
    exact ⟨k, hk, fun j hj => by rw [← hw j (by omega)]; exact h1 j hj, by rw [← hw k hk]; exact h2⟩
  · rintro ⟨k, hk, h1, h2⟩
    exact ⟨k, hk, fun j hj => by rw [hw j (by omega)]; exact h1 j hj, by rw [hw k hk]; exact h2⟩

/-! ### Poison checks -/

theorem checkCopiesS_cases {c : Config} {v : Word} {m : Mem} (ps : List Nat) :
    checkCopiesS c v m ps = .ub ∨
    checkCopiesS c v m ps = if ps.all fun p => cmpItem c.pg m p c.itemLen v == 0#_ then .ok () else .aborted .poison := by
  induction ps with
  | nil => exact Or.inr rfl
  | cons p ps ih =>
    unfold checkCopiesS
    rcases cmpItemS_ok (pg := c.pg) (m := m) (p := p) (v := v) (len := c.itemLen) with h | h
    · left; rw [h]
    · rw [h, List.all_cons]
      dsimp only
      by_cases h0 : cmpItem c.pg m p c.itemLen v = 0#_
      · rw [if_pos h0, h0]
        simpa using ih
      · right
        rw [if_neg h0]
        have : (cmpItem c.pg m p c.itemLen v == 0#_) = false := by simpa using h0
        rw [this]; rfl

theorem checkPoisonItem_copies {c : Config} {r : Range} {off : Nat} {m : Mem} (hr : c.robust = true) :
    checkPoisonItem c r off m = (checkedCopies c r off).all fun p => cmpItem c.pg m p c.itemLen (c.poison.getD 0#_) == 0#_ := by
  unfold checkPoisonItem checkedCopies
  rw [hr, List.all_append, List.all_map]
  cases initPtr r off with
  | none => rfl
  | some p => simp; rfl

theorem checkPoisonItemS_cases {c : Config} {r : Range} {off : Nat} {m : Mem} :
    checkPoisonItemS c r off m = .ub ∨
    checkPoisonItemS c r off m = if checkPoisonItem c r off m then .ok () else .aborted .poison := by
  unfold checkPoisonItemS
  cases hr : c.robust with
  | false =>
    right
    unfold checkPoisonItem
    rw [hr]; rfl
  | true =>
    rw [checkPoisonItem_copies hr]
    exact checkCopiesS_cases _

theorem checkCopiesS_equal {c : Config} (hv : Valid c) {v : Word} {m : Mem} {ps : List Nat}
    (h : ∀ p ∈ ps, Holds c.pg m p (pat v) c.itemLen) : checkCopiesS c v m ps = .ok () := by
  induction ps with
  | nil => rfl
  | cons p ps ih =>
    unfold checkCopiesS
    rw [cmpItemS_equal hv.item_wb (h p List.mem_cons_self)]
    dsimp only
    rw [if_pos rfl]
    exact ih fun q hq => h q (List.mem_cons_of_mem _ hq)

theorem checkPoisonItemS_equal {c : Config} (hv : Valid c) {v : Word} (hpv : c.poison = some v) {r : Range} {off : Nat}
    (hinit : r.init = if c.cow then some (r.base + c.stride * c.ncpu) else none) {m : Mem}
    (h : c.robust = true → ∀ col o, PoisonByte c col o → m.read c.pg (r.base + off + c.stride * col + o) = pat v o) :
    checkPoisonItemS c r off m = .ok () := by
  unfold checkPoisonItemS
  cases hr : c.robust with
  | false => rfl
  | true =>
    rw [hpv]
    refine checkCopiesS_equal hv fun p hp o ho => ?_
    unfold checkedCopies at hp
    rw [initPtr_eq hinit, List.mem_append] at hp
    rcases hp with hp | hp
    · cases hc : c.cow with
      | false => rw [hc] at hp; simp at hp
      | true =>
        rw [hc] at hp
        simp at hp
        subst hp
        exact h hr c.ncpu o ⟨by simp [hc], ho, Or.inl hr⟩
    · obtain ⟨i, hi, rfl⟩ := List.mem_map.1 hp
      rw [percpuPtr_eq]
      exact h hr i o ⟨by have := List.mem_range.1 hi; omega, ho, Or.inl hr⟩

theorem checkRangePoisonS_cases {c : Config} {r : Range} {m : Mem} (n off : Nat) :
    checkRangePoisonS c r m n off = .ub ∨
    checkRangePoisonS c r m n off = if checkRangePoison c r m n off then .ok () else .aborted .poison := by
  induction n generalizing off with
  | zero => exact Or.inr rfl
  | succ n ih =>
    unfold checkRangePoisonS checkRangePoison
    rcases checkPoisonItemS_cases (c := c) (r := r) (off := off) (m := m) with h | h
    · left; rw [h]
    · rw [h]
      cases checkPoisonItem c r off m with
      | false => right; rfl
      | true => simpa using ih _

theorem checkPoolPoisonS_cases {c : Config} {m : Mem} (l : List Range) :
    checkPoolPoisonS c m l = .ub ∨
    checkPoolPoisonS c m l = if l.all fun r => checkRangePoison c r m ((r.nextUnused + c.itemLen - 1) / c.itemLen) 0
      then .ok () else .aborted .poison := by
  induction l with
  | nil => exact Or.inr rfl
  | cons r l ih =>
    unfold checkPoolPoisonS
    rw [List.all_cons]
    rcases checkRangePoisonS_cases (c := c) (r := r) (m := m) ((r.nextUnused + c.itemLen - 1) / c.itemLen) 0 with h | h
    · left; rw [h]
    · rw [h]
      cases checkRangePoison c r m ((r.nextUnused + c.itemLen - 1) / c.itemLen) 0 with
      | false => right; rfl
      | true => simpa using ih

theorem checkRangePoisonS_ok {c : Config} {r : Range} {m : Mem} {n off : Nat}
    (h : ∀ k, k < n → checkPoisonItemS c r (off + k * c.itemLen) m = .ok ()) : checkRangePoisonS c r m n off = .ok () := by
  induction n generalizing off with
  | zero => rfl
  | succ n ih =>
    have h0 := h 0 (by omega)
    rw [Nat.zero_mul, Nat.add_zero] at h0
    unfold checkRangePoisonS
    rw [h0]
    dsimp only
    refine ih fun k hk => ?_
    have := h (k + 1) (by omega)
    rw [Nat.succ_mul] at this
    rw [show off + c.itemLen + k * c.itemLen = off + (k * c.itemLen + c.itemLen) from by omega]
    exact this

theorem checkPoolPoisonS_ok {c : Config} {m : Mem} {l : List Range}
    (h : ∀ r ∈ l, checkRangePoisonS c r m ((r.nextUnused + c.itemLen - 1) / c.itemLen) 0 = .ok ()) :
    checkPoolPoisonS c m l = .ok () := by
  induction l with
  | nil => rfl
  | cons r l ih =>
    unfold checkPoolPoisonS
    rw [h r List.mem_cons_self]
    exact ih fun x hx => h x (List.mem_cons_of_mem _ hx)

theorem destroyLoop_ne_ub {c : Config} {acc : Bool} (ok : Nat → Bool) (l : List Range) (k : Nat) (done : List (Nat × Nat)) :
    destroyLoop c acc ok l k done ≠ .ub := by
  induction l generalizing k done with
  | nil => intro h; cases h
  | cons r l ih =>
    unfold destroyLoop
    split
    · intro h; cases h
    · split
      · exact ih _ _
      · intro h; cases h

/-! ### The API functions -/

theorem lockedAllocS_cases {c : Config} {env : RangeEnv} {s : State} :
    lockedAllocS c env s = .ub ∨ lockedAllocS c env s = lockedAlloc c env s := by
  unfold lockedAllocS
  by_cases hh : s.pool.head ≠ 0
  · rw [if_pos hh]
    dsimp only
    cases hf : findRange s.pool.ranges (freeListToPercpu c s.pool.head - freeListToPercpu c s.pool.head % c.stride) with
    | none => exact Or.inl rfl
    | some r =>
      dsimp only
      rcases checkPoisonItemS_cases (c := c) (r := r) (m := s.mem) (off := freeListToPercpu c s.pool.head -
        (freeListToPercpu c s.pool.head - freeListToPercpu c s.pool.head % c.stride)) with h | h
      · left; rw [h]
      · right
        rw [h]
        cases hc : checkPoisonItem c r (freeListToPercpu c s.pool.head -
          (freeListToPercpu c s.pool.head - freeListToPercpu c s.pool.head % c.stride)) s.mem with
        | true => rfl
        | false =>
          unfold lockedAlloc
          dsimp only
          rw [if_pos hh, hf]
          dsimp only
          rw [hc]; rfl
  · rw [if_neg hh]; exact Or.inr rfl

theorem fillItemS_eq {c : Config} {r : Range} {off : Nat} {fill : Fill} {m : Mem} :
    fillItemS c r off fill m = .ok (fillItem c r off fill m) := by
  cases fill with
  | plain n => rfl
  | zero => exact zeroItemS_eq
  | init f n => rfl

theorem mallocS_of {c : Config} {fill : Fill} {env : RangeEnv} {s : State}
    (h : lockedAllocS c env s = lockedAlloc c env s) : mallocS c fill env s = malloc c fill env s := by
  unfold mallocS malloc
  split
  · rfl
  · rw [h]
    cases lockedAlloc c env s with
    | ub => rfl
    | aborted w => rfl
    | ok x =>
      obtain ⟨ch, s'⟩ := x
      cases ch with
      | null e => rfl
      | item r off addr =>
        dsimp only
        rw [fillItemS_eq]

theorem freePoisonS_cases {c : Config} {r : Range} {off : Nat} {m : Mem} :
    freePoisonS c r off m = .ub ∨ freePoisonS c r off m = .ok (match c.poison with
      | some v => poisonItem c r off v m
      | none => m) := by
  unfold freePoisonS
  cases c.poison with
  | none => exact Or.inr rfl
  | some v =>
    rcases poisonItemS_eq (c := c) (r := r) (off := off) (v := v) (m := m) with ⟨e, _⟩ | ⟨e, _⟩
    · exact Or.inl e
    · exact Or.inr e

/-- Where the free list head leads. -/
theorem head_facts {c : Config} (hv : Valid c) {uaf : Bool} {s : State} {L F' : List Nat} {p : Nat}
    (h : Inv c uaf s L (p :: F')) :
    s.pool.head ≠ 0 ∧ freeListToPercpu c s.pool.head = p ∧
    ∃ r k, r ∈ s.pool.ranges ∧ p = r.base + k * c.itemLen ∧ findRange s.pool.ranges (p - p % c.stride) = some r ∧
      p - (p - p % c.stride) = k * c.itemLen := by
  obtain ⟨hhead, hchain⟩ := h.chain
  obtain ⟨r, hr, k, hk, hp⟩ := (h.used p).2 (Or.inr List.mem_cons_self)
  have hR := h.ranges.each r hr
  have hkS : k * c.itemLen + c.itemLen ≤ c.stride := Nat.le_trans (lt_item_of_lt hR.nud hk) hR.nu
  have hpg := hv.pg_pos
  have hpos := hR.pos
  have hmod : p % c.stride = k * c.itemLen := by rw [hp]; exact slot_base hv h.ranges hr hkS
  have hbase : p - p % c.stride = r.base := by rw [hmod, hp]; omega
  refine ⟨by rw [hhead, hp]; omega, by rw [hhead]; exact toPercpu_toFreeList c p, r, k, hr, hp, ?_, by omega⟩
  rw [hbase]
  exact findRange_eq h.ranges.nodup hr

/-- A word stored by the program, as a history. -/
theorem hist_word {c : Config} {uaf : Bool} {g : Ghost} (h : Hist c uaf g) {p cpu : Nat}
    (hp : p ∈ g.live ∨ (uaf = true ∧ p ∈ g.freed)) (hcpu : cpu < c.ncpu) (w : Word) :
    Hist c uaf ⟨{ g.s with mem := g.s.mem.writeWord c.pg (cpuAddr c p cpu) w }, g.live, g.freed⟩ := by
  have hall : ∀ n, n ≤ wb →
      Hist c uaf ⟨{ g.s with mem := g.s.mem.writeBlock c.pg (cpuAddr c p cpu) (wordByte w) n }, g.live, g.freed⟩ := by
    intro n
    induction n with
    | zero => intro _; exact h
    | succ n ih =>
      intro hn
      have h' := ih (by omega)
      have hlen := h.valid.item_ge
      exact ⟨h.valid, .step _ _ h'.reach (Step.store _ p cpu n (wordByte w n) hp hcpu (by omega)), h.mode⟩
  exact hall wb (Nat.le_refl _)

end Verif.Mempool
