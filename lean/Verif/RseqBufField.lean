import Verif.RseqBufInitProps

/-!
The buffer tests of tests/param_test.c with the fields `buflen` and `array` of `struct percpu_buffer` (:411-415) and
`struct percpu_memcpy_buffer` (:424-428) in memory: the loops of the main thread store and read them there.  In
RseqBufInit and RseqBufTest they are parameters.
-/

namespace Verif.Rseq

variable {n : Nat}

/-- :1058-1075 with `cpubuffer->array` read at `fa` in every iteration. -/
def ptrFillM (be : Bool) (off fa doff : W n) (node : Nat → W n) : Nat → Nat → Mem n → BitVec 64 → Mem n × BitVec 64
  | 0, _, m, sum => (m, sum)
  | k + 1, j, m, sum =>
    let m := stw be m (node j + doff) (num j)
    let m := stw be m (ldw be m fa + num ((j - 1) * n)) (node j)
    let m := stw be m off (ldw be m off + 1#_)
    ptrFillM be off fa doff node k (j + 1) m (sum + BitVec.ofNat 64 j)

/-- :1302-1315 likewise. -/
def copyFillM (be : Bool) (off fa : W n) (isz d2 : Nat) : Nat → Nat → Mem n → BitVec 64 → Mem n × BitVec 64
  | 0, _, m, sum => (m, sum)
  | k + 1, j, m, sum =>
    let m := stw be m (ldw be m fa + num ((j - 1) * isz)) (num j)
    let m := stl m (ldw be m fa + num ((j - 1) * isz) + num d2) (wordItem (n := 8) be (BitVec.ofNat 64 (j + 1)))
    let m := stw be m off (ldw be m off + 1#_)
    copyFillM be off fa isz d2 k (j + 1) m (sum + BitVec.ofNat 64 (2 * j + 1))

/-- :1052-1057, :1296-1301: `cpubuffer->array = malloc(...)`, which returned `arr`, and `cpubuffer->buflen = len`. -/
def setFields (be : Bool) (fl fa : W n) (arr len : W n) (m : Mem n) : Mem n := stw be (stw be m fa arr) fl len

/-- :1047-1076 with the fields: `arr c` is the array allocated for CPU `c`, `len` is `max_nr_cpus` times the number of
items per CPU. -/
def ptrSetupM (be : Bool) (cpus : List (BitVec 32)) (off fl fa : BitVec 32 → W n) (arr : BitVec 32 → W n) (len : W n)
    (doff : W n) (node : BitVec 32 → Nat → W n) (B : Nat) (m : Mem n) : Option (Mem n × BitVec 64) :=
  forCpus (fun c m sum => some (ptrFillM be (off c) (fa c) doff (node c) B 1
    (setFields be (fl c) (fa c) (arr c) len m) sum)) cpus m 0#64

/-- :1291-1316 with the fields. -/
def copySetupM (be : Bool) (cpus : List (BitVec 32)) (off fl fa : BitVec 32 → W n) (arr : BitVec 32 → W n) (len : W n)
    (isz d2 B : Nat) (m : Mem n) : Option (Mem n × BitVec 64) :=
  forCpus (fun c m sum => some (copyFillM be (off c) (fa c) isz d2 B 1
    (setFields be (fl c) (fa c) (arr c) len m) sum)) cpus m 0#64

/-- :1102-1105 with `buffer->array` read at `fa` in every call of `__percpu_buffer_pop` (:964-978). -/
def ptrLoopM (be : Bool) (off fa doff : W n) : Nat → Mem n → BitVec 64 → Option (Mem n × BitVec 64)
  | 0, _, _ => none
  | k + 1, m, sum =>
    let o := ldw be m off
    if o = 0#_ then some (m, sum)
    else
      let head := ldw be m (ldw be m fa + (o - 1#_) * num n)
      let m := stw be m off (o - 1#_)
      if head = 0#_ then some (m, sum)
      else ptrLoopM be off fa doff k m (sum + (ldw be m (head + doff)).signExtend 64)

/-- :1343-1346 likewise (`__percpu_memcpy_buffer_pop` :1207-1221). -/
def copyLoopM (be : Bool) (off fa : W n) (isz : Nat) (item : W n) (val : List Byte → BitVec 64) :
    Nat → Mem n → BitVec 64 → Option (Mem n × BitVec 64)
  | 0, _, _ => none
  | k + 1, m, sum =>
    let o := ldw be m off
    if o = 0#_ then some (m, sum)
    else
      let m := memcpy m item (ldw be m fa + (o - 1#_) * num isz) (num isz)
      let m := stw be m off (o - 1#_)
      copyLoopM be off fa isz item val k m (sum + val (bytes m item isz))

/-! ### Words apart from what the loops store to -/

/-- The fields do not overlap anything else. -/
structure FieldsOK (K : BufLayout n) (fl fa : BitVec 32 → W n) : Prop where
  off : ∀ c ∈ K.cpus, ∀ c' ∈ K.cpus, ∀ a, InWord (fl c) a ∨ InWord (fa c) a → ¬ InWord (K.offset c') a
  arr : ∀ c ∈ K.cpus, ∀ c' ∈ K.cpus, ∀ a, InWord (fl c) a ∨ InWord (fa c) a → ¬ K.InArr c' a
  apart : ∀ c ∈ K.cpus, ∀ c' ∈ K.cpus, ∀ a, InWord (fl c) a ∨ InWord (fa c) a → InWord (fl c') a ∨ InWord (fa c') a →
    c = c'
  two : ∀ c ∈ K.cpus, ∀ a, InWord (fl c) a → ¬ InWord (fa c) a

/-- Memory has the fields of CPU `c`. -/
def HasFields (be : Bool) (fl fa arr : W n) (len : W n) (m : Mem n) : Prop := ldw be m fa = arr ∧ ldw be m fl = len

variable {K : BufLayout n} {fl fa : BitVec 32 → W n}

theorem setFields_has (hF : FieldsOK K fl fa) {c : BitVec 32} (hc : c ∈ K.cpus) (be : Bool) (arr len : W n) (m : Mem n) :
    HasFields be (fl c) (fa c) arr len (setFields be (fl c) (fa c) arr len m) := by
  unfold setFields
  refine ⟨?_, ldw_stw_same _ _ _ _⟩
  rw [ldw_stw_ne _ _ _ _ _ fun x h1 h2 => hF.two c hc x h2 h1, ldw_stw_same]

theorem setFields_other {be : Bool} {fl fa arr len a : W n} {m : Mem n} (h1 : ¬ InWord fl a) (h2 : ¬ InWord fa a) :
    setFields be fl fa arr len m a = m a := by
  unfold setFields
  rw [stw_other _ _ _ _ _ h1, stw_other _ _ _ _ _ h2]

theorem ptrFillM_eq {be : Bool} {off fa doff arr : W n} {node : Nat → W n} (h1 : ∀ a, InWord fa a → ¬ InWord off a) :
    ∀ (k j : Nat) (m : Mem n) (sum : BitVec 64), ldw be m fa = arr →
    (∀ i, j ≤ i → i < j + k → ∀ a, InWord fa a → ¬ InWord (node i + doff) a ∧ ¬ InWord (arr + num ((i - 1) * n)) a) →
    ptrFillM be off fa doff node k j m sum = ptrFill be off arr doff node k j m sum := by
  intro k
  induction k with
  | zero => intro j m sum _ _; rfl
  | succ k ih =>
    intro j m sum hm hi
    have hj := hi j (Nat.le_refl _) (by omega)
    have e1 : ldw be (stw be m (node j + doff) (num j)) fa = arr := by
      rw [ldw_stw_ne _ _ _ _ _ fun x hx => (hj x hx).1, hm]
    unfold ptrFillM ptrFill
    dsimp only
    rw [e1]
    refine ih _ _ _ ?_ fun i g1 g2 => hi i (by omega) (by omega)
    rw [ldw_stw_ne _ _ _ _ _ h1, ldw_stw_ne _ _ _ _ _ fun x hx => (hj x hx).2, e1]

theorem copyFillM_eq {be : Bool} {off fa arr : W n} {isz d2 : Nat} (h1 : ∀ a, InWord fa a → ¬ InWord off a) :
    ∀ (k j : Nat) (m : Mem n) (sum : BitVec 64), ldw be m fa = arr →
    (∀ i, j ≤ i → i < j + k → ∀ a, InWord fa a → ¬ InWord (arr + num ((i - 1) * isz)) a ∧
      ¬ (a - (arr + num ((i - 1) * isz) + num d2)).toNat < 8) →
    copyFillM be off fa isz d2 k j m sum = copyFill be off arr isz d2 k j m sum := by
  intro k
  induction k with
  | zero => intro j m sum _ _; rfl
  | succ k ih =>
    intro j m sum hm hi
    have hj := hi j (Nat.le_refl _) (by omega)
    have e1 : ldw be (stw be m (arr + num ((j - 1) * isz)) (num j)) fa = arr := by
      rw [ldw_stw_ne _ _ _ _ _ fun x hx => (hj x hx).1, hm]
    unfold copyFillM copyFill
    dsimp only
    rw [hm, e1]
    refine ih _ _ _ ?_ fun i g1 g2 => hi i (by omega) (by omega)
    rw [ldw_stw_ne _ _ _ _ _ h1, ← e1]
    refine ldw_agree fun x hx => ?_
    rw [e1]
    exact stl_other _ _ _ _ (by rw [wordItem_length]; exact (hj x hx).2)

theorem ptrLoopM_eq {be : Bool} {off fa doff arr : W n} (h1 : ∀ a, InWord fa a → ¬ InWord off a) :
    ∀ (k : Nat) (m : Mem n) (sum : BitVec 64), ldw be m fa = arr →
    ptrLoopM be off fa doff k m sum = ptrLoop be off arr doff k m sum := by
  intro k
  induction k with
  | zero => intro m sum _; rfl
  | succ k ih =>
    intro m sum hm
    unfold ptrLoopM ptrLoop
    dsimp only
    rw [hm]
    split
    · rfl
    · split
      · rfl
      · exact ih _ _ (by rw [ldw_stw_ne _ _ _ _ _ h1, hm])

theorem copyLoopM_eq {be : Bool} {off fa arr item : W n} {isz : Nat} {val : List Byte → BitVec 64}
    (h1 : ∀ a, InWord fa a → ¬ InWord off a) (h2 : ∀ a, InWord fa a → ¬ InRange item (num isz) a) :
    ∀ (k : Nat) (m : Mem n) (sum : BitVec 64), ldw be m fa = arr →
    copyLoopM be off fa isz item val k m sum = copyLoop be off arr isz item val k m sum := by
  intro k
  induction k with
  | zero => intro m sum _; rfl
  | succ k ih =>
    intro m sum hm
    unfold copyLoopM copyLoop
    dsimp only
    rw [hm]
    split
    · rfl
    · refine ih _ _ ?_
      rw [ldw_stw_ne _ _ _ _ _ h1, ← hm]
      refine ldw_agree fun x hx => ?_
      exact if_neg (h2 x hx)

/-! ### What the loops leave alone -/

theorem forCpus_frame {body : BitVec 32 → Mem n → BitVec 64 → Option (Mem n × BitVec 64)} {a : W n} :
    ∀ (cs : List (BitVec 32)) (m : Mem n) (sum : BitVec 64) (m' : Mem n) (sum' : BitVec 64),
    (∀ c ∈ cs, ∀ m sum m' sum', body c m sum = some (m', sum') → m' a = m a) →
    forCpus body cs m sum = some (m', sum') → m' a = m a := by
  intro cs
  induction cs with
  | nil => intro m sum m' sum' _ e; cases e; rfl
  | cons c cs ih =>
    intro m sum m' sum' hb e
    unfold forCpus at e
    split at e
    · cases e
    · next m1 sum1 e1 => rw [ih _ _ _ _ (fun c h => hb c (.tail _ h)) e, hb c (.head _) _ _ _ _ e1]

theorem forCpus_congr {body body' : BitVec 32 → Mem n → BitVec 64 → Option (Mem n × BitVec 64)} {I : Mem n → Prop} :
    ∀ (cs : List (BitVec 32)) (m : Mem n) (sum : BitVec 64),
    (∀ c ∈ cs, ∀ m sum, I m → body c m sum = body' c m sum ∧ ∀ m' sum', body' c m sum = some (m', sum') → I m') →
    I m → forCpus body cs m sum = forCpus body' cs m sum := by
  intro cs
  induction cs with
  | nil => intro m sum _ _; rfl
  | cons c cs ih =>
    intro m sum hb hI
    obtain ⟨h1, h2⟩ := hb c (.head _) m sum hI
    unfold forCpus
    rw [h1]
    split
    · rfl
    · next m1 sum1 e1 => exact ih _ _ (fun c h => hb c (.tail _ h)) (h2 _ _ e1)

theorem ptrFill_frame {be : Bool} {off arr doff : W n} {node : Nat → W n} {a : W n} (h1 : ¬ InWord off a) :
    ∀ (k j : Nat) (m : Mem n) (sum : BitVec 64),
    (∀ i, j ≤ i → i < j + k → ¬ InWord (node i + doff) a ∧ ¬ InWord (arr + num ((i - 1) * n)) a) →
    (ptrFill be off arr doff node k j m sum).1 a = m a := by
  intro k
  induction k with
  | zero => intro j m sum _; rfl
  | succ k ih =>
    intro j m sum hi
    obtain ⟨h2, h3⟩ := hi j (Nat.le_refl _) (by omega)
    unfold ptrFill
    dsimp only
    rw [ih (j + 1) _ _ fun i g1 g2 => hi i (by omega) (by omega), stw_other _ _ _ _ _ h1,
      stw_other _ _ _ _ _ h3, stw_other _ _ _ _ _ h2]

theorem copyFill_frame {be : Bool} {off arr : W n} {isz d2 : Nat} {a : W n} (h1 : ¬ InWord off a) :
    ∀ (k j : Nat) (m : Mem n) (sum : BitVec 64),
    (∀ i, j ≤ i → i < j + k → ¬ InWord (arr + num ((i - 1) * isz)) a ∧
      ¬ (a - (arr + num ((i - 1) * isz) + num d2)).toNat < 8) →
    (copyFill be off arr isz d2 k j m sum).1 a = m a := by
  intro k
  induction k with
  | zero => intro j m sum _; rfl
  | succ k ih =>
    intro j m sum hi
    obtain ⟨h2, h3⟩ := hi j (Nat.le_refl _) (by omega)
    unfold copyFill
    dsimp only
    rw [ih (j + 1) _ _ fun i g1 g2 => hi i (by omega) (by omega), stw_other _ _ _ _ _ h1,
      stl_other _ _ _ _ (by rw [wordItem_length]; exact h3), stw_other _ _ _ _ _ h2]

theorem ptrLoop_frame {be : Bool} {off arr doff : W n} {a : W n} (h1 : ¬ InWord off a) :
    ∀ (k : Nat) (m : Mem n) (sum : BitVec 64) (m' : Mem n) (sum' : BitVec 64),
    ptrLoop be off arr doff k m sum = some (m', sum') → m' a = m a := by
  intro k
  induction k with
  | zero => intro m sum m' sum' e; cases e
  | succ k ih =>
    intro m sum m' sum' e
    unfold ptrLoop at e
    dsimp only at e
    split at e
    · cases e; rfl
    · split at e
      · cases e; exact stw_other _ _ _ _ _ h1
      · rw [ih _ _ _ _ e, stw_other _ _ _ _ _ h1]

theorem copyLoop_frame {be : Bool} {off arr item : W n} {isz : Nat} {val : List Byte → BitVec 64} {a : W n}
    (h1 : ¬ InWord off a) (h2 : ¬ InRange item (num isz) a) :
    ∀ (k : Nat) (m : Mem n) (sum : BitVec 64) (m' : Mem n) (sum' : BitVec 64),
    copyLoop be off arr isz item val k m sum = some (m', sum') → m' a = m a := by
  intro k
  induction k with
  | zero => intro m sum m' sum' e; cases e
  | succ k ih =>
    intro m sum m' sum' e
    unfold copyLoop at e
    dsimp only at e
    split at e
    · cases e; rfl
    · rw [ih _ _ _ _ e, stw_other _ _ _ _ _ h1]
      exact if_neg h2

/-! ### The words of an array -/

theorem slot_word (hK : K.OK) (hisz : n ≤ K.isz) {c : BitVec 32} (hc : c ∈ K.cpus) {i : Nat} (hi : i < K.cap c) {a : W n}
    (h : InWord (K.array c + num (i * K.isz)) a) : K.InArr c a :=
  hK.slot_arr hc hi (Nat.lt_of_lt_of_le h hisz)

/-- The second field of an item is within the item. -/
theorem slot_second (hK : K.OK) {d2 : Nat} (hd2 : d2 + 8 ≤ K.isz) {c : BitVec 32} (hc : c ∈ K.cpus) {i : Nat}
    (hi : i < K.cap c) {a : W n} (h : (a - (K.array c + num (i * K.isz) + num d2)).toNat < 8) : K.InArr c a := by
  refine hK.slot_arr hc hi ?_
  have hiszlt := hK.iszlt
  show (a - (K.array c + num (i * K.isz))).toNat < K.isz
  generalize K.array c + num (i * K.isz) = b at h
  have hnum : (num d2 : W n).toNat = d2 := by rw [BitVec.toNat_ofNat]; exact Nat.mod_eq_of_lt (by omega)
  rw [← BitVec.sub_sub, BitVec.toNat_sub, hnum] at h
  have hlt := (a - b).isLt
  by_cases hge : d2 ≤ (a - b).toNat
  · rw [show 2 ^ (8 * n) - d2 + (a - b).toNat = ((a - b).toNat - d2) + 2 ^ (8 * n) by omega, Nat.add_mod_right,
      Nat.mod_eq_of_lt (by omega)] at h
    omega
  · rw [Nat.mod_eq_of_lt (by omega)] at h
    omega

end Verif.Rseq
