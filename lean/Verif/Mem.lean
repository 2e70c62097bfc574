/-
Byte-addressed memory with private copy-on-write pages.

This models the kernel side of the mappings created by `rseq_mempool_range_create`
(src/rseq-mempool.c:774-798): the per-CPU areas of a COW_INIT pool are `MAP_PRIVATE` mappings of the
memfd whose `MAP_SHARED` mapping is the init area.  A private page that has not been written yet
reads the bytes of its source page; the first store copies the whole page.
Anonymous zero-filled memory (COW_ZERO) has no source page.

The page copy and the store are one step here; the two-phase behaviour of a concurrent page fault is
modelled separately (`Verif.PoolConc`).  Addresses are `Nat`; callers keep them below 2^(8*wb).
-/
namespace Verif

/-- The machine: size of `unsigned long`, `intptr_t` and pointers, and byte order. -/
class Abi where
  /-- `sizeof(unsigned long)` -/
  wb : Nat
  wb_eq : wb = 4 ∨ wb = 8
  /-- big endian? -/
  be : Bool

export Abi (wb)

/-- 64-bit little endian (x86-64, riscv64, ...). -/
@[reducible] def le64 : Abi := ⟨8, .inr rfl, false⟩
/-- 32-bit little endian (i386, arm, ...). -/
@[reducible] def le32 : Abi := ⟨4, .inl rfl, false⟩
/-- 64-bit big endian (s390x, ppc64, ...). -/
@[reducible] def be64 : Abi := ⟨8, .inr rfl, true⟩
/-- 32-bit big endian (ppc32, mips, ...). -/
@[reducible] def be32 : Abi := ⟨4, .inl rfl, true⟩

abbrev Byte := BitVec 8
/-- An `unsigned long`, `intptr_t` or pointer. -/
abbrev Word [Abi] := BitVec (8 * wb)

/-- Memory: `phys` holds the bytes of each address, `src p = some q` says that page `p` is a private
page still sharing the content of page `q`. -/
structure Mem where
  phys : Nat → Byte
  src : Nat → Option Nat

namespace Mem

/-- The address whose byte is seen when reading `a` (page size `pg`). -/
def resolve (pg : Nat) (m : Mem) (a : Nat) : Nat :=
  match m.src (a / pg) with
  | none => a
  | some q => q * pg + a % pg

/-- Load one byte. -/
def read (pg : Nat) (m : Mem) (a : Nat) : Byte := m.phys (m.resolve pg a)

/-- Store one byte; the first store to a shared private page copies the page. -/
def write (pg : Nat) (m : Mem) (a : Nat) (b : Byte) : Mem :=
  match m.src (a / pg) with
  | none => { m with phys := fun x => if x = a then b else m.phys x }
  | some q =>
    { phys := fun x => if x = a then b
                       else if x / pg = a / pg then m.phys (q * pg + x % pg) else m.phys x
      src := fun p => if p = a / pg then none else m.src p }

/-- Store `n` bytes `f 0 .. f (n-1)` at `a`, in ascending order (`bzero`, `memcpy`, word stores). -/
def writeBlock (pg : Nat) (m : Mem) (a : Nat) (f : Nat → Byte) : Nat → Mem
  | 0 => m
  | n + 1 => (writeBlock pg m a f n).write pg (a + n) (f n)

section word
variable [Abi]

/-- Significance of the byte at offset `j` of a word. -/
def bytePos (j : Nat) : Nat := if Abi.be then wb - 1 - j else j

/-- The byte at offset `j` of a word. -/
def wordByte (w : Word) (j : Nat) : Byte := w.extractLsb' (8 * bytePos j) 8

/-- Assemble `k` bytes, least significant first. -/
def joinLE (f : Nat → Byte) : (k : Nat) → BitVec (8 * k)
  | 0 => 0#0
  | k + 1 => (f k ++ joinLE f k).cast (by omega)

/-- Assemble a word from the bytes at offsets 0, 1, ... -/
def joinBytes (f : Nat → Byte) : Word := joinLE (fun k => f (bytePos k)) wb

/-- Load a word. -/
def readWord (pg : Nat) (m : Mem) (a : Nat) : Word := joinBytes fun j => m.read pg (a + j)

/-- Store a word. -/
def writeWord (pg : Nat) (m : Mem) (a : Nat) (w : Word) : Mem := m.writeBlock pg a (wordByte w) wb

end word

/-- Sources are never themselves private pages. -/
def WF (m : Mem) : Prop := ∀ p q, m.src p = some q → m.src q = none

/-! ### Lemmas -/

section word
variable [Abi]

theorem wb_pos : 0 < wb := by rcases Abi.wb_eq with h | h <;> omega

theorem bytePos_lt {j : Nat} (hj : j < wb) : bytePos j < wb := by
  unfold bytePos; split <;> omega

theorem bytePos_bytePos {j : Nat} (hj : j < wb) : bytePos (bytePos j) = j := by
  unfold bytePos; split <;> omega

omit [Abi] in
theorem getLsbD_joinLE (f : Nat → Byte) (k i : Nat) (hi : i < 8 * k) :
    (joinLE f k).getLsbD i = (f (i / 8)).getLsbD (i % 8) := by
  induction k with
  | zero => omega
  | succ k ih =>
    rw [joinLE, BitVec.getLsbD_cast, BitVec.getLsbD_append]
    by_cases h : i < 8 * k
    · rw [if_pos h, ih h]
    · rw [if_neg h]
      have h1 : i / 8 = k := by omega
      have h2 : i - 8 * k = i % 8 := by omega
      rw [h1, h2]

theorem wordByte_joinBytes (f : Nat → Byte) {j : Nat} (hj : j < wb) : wordByte (joinBytes f) j = f j := by
  apply BitVec.eq_of_getLsbD_eq
  intro i hi
  have hb := bytePos_lt hj
  unfold wordByte joinBytes
  rw [BitVec.getLsbD_extractLsb', getLsbD_joinLE _ _ _ (by omega)]
  have h1 : (8 * bytePos j + i) / 8 = bytePos j := by omega
  have h2 : (8 * bytePos j + i) % 8 = i := by omega
  rw [h1, h2, bytePos_bytePos hj]
  simp [hi]

theorem joinBytes_wordByte (w : Word) : joinBytes (wordByte w) = w := by
  apply BitVec.eq_of_getLsbD_eq
  intro i hi
  have hj : i / 8 < wb := by omega
  unfold joinBytes
  rw [getLsbD_joinLE _ _ _ hi, wordByte, bytePos_bytePos hj, BitVec.getLsbD_extractLsb']
  have h2 : 8 * (i / 8) + i % 8 = i := by omega
  rw [h2]
  simp [Nat.mod_lt]

theorem joinBytes_congr {f g : Nat → Byte} (h : ∀ j, j < wb → f j = g j) : joinBytes f = joinBytes g := by
  apply BitVec.eq_of_getLsbD_eq
  intro i hi
  unfold joinBytes
  rw [getLsbD_joinLE _ _ _ hi, getLsbD_joinLE _ _ _ hi, h _ (bytePos_lt (by omega))]

theorem readWord_eq_iff {pg : Nat} {m : Mem} {a : Nat} {w : Word} :
    m.readWord pg a = w ↔ ∀ j, j < wb → m.read pg (a + j) = wordByte w j := by
  unfold readWord
  constructor
  · rintro rfl j hj
    exact (wordByte_joinBytes (fun j => m.read pg (a + j)) hj).symm
  · intro h
    rw [joinBytes_congr h, joinBytes_wordByte]

end word

theorem resolve_of_none {pg : Nat} {m : Mem} {a : Nat} (h : m.src (a / pg) = none) :
    m.resolve pg a = a := by
  unfold resolve; rw [h]

theorem src_write (pg : Nat) (m : Mem) (a : Nat) (b : Byte) (p : Nat) :
    (m.write pg a b).src p = if p = a / pg then none else m.src p := by
  unfold write
  cases h : m.src (a / pg) with
  | none => by_cases hp : p = a / pg <;> simp [hp, h]
  | some q => rfl

theorem WF_write {pg : Nat} {m : Mem} (h : m.WF) (a : Nat) (b : Byte) : (m.write pg a b).WF := by
  intro p q
  rw [src_write, src_write]
  split
  · intro h'; cases h'
  · intro h'
    split
    · rfl
    · exact h p q h'

theorem WF_writeBlock {pg : Nat} {m : Mem} (h : m.WF) (a : Nat) (f : Nat → Byte) (n : Nat) :
    (m.writeBlock pg a f n).WF := by
  induction n with
  | zero => exact h
  | succ n ih => exact WF_write ih _ _

/-- After a store at `a`, an address resolves as before, or to itself. -/
theorem resolve_write (pg : Nat) (m : Mem) (a : Nat) (b : Byte) (x : Nat) :
    (m.write pg a b).resolve pg x = if x / pg = a / pg then x else m.resolve pg x := by
  unfold resolve
  rw [src_write]
  by_cases h : x / pg = a / pg
  · rw [if_pos h, if_pos h]
  · rw [if_neg h, if_neg h]

theorem read_write_self (pg : Nat) (m : Mem) (a : Nat) (b : Byte) :
    (m.write pg a b).read pg a = b := by
  unfold read
  rw [resolve_write, if_pos rfl]
  unfold write
  split <;> simp

theorem div_mod_page {pg q x : Nat} (hpg : 0 < pg) : (q * pg + x % pg) / pg = q := by
  rw [Nat.mul_comm, Nat.mul_add_div hpg, Nat.div_eq_of_lt (Nat.mod_lt _ hpg), Nat.add_zero]

/-- Frame rule for one store. -/
theorem read_write_frame {pg : Nat} (hpg : 0 < pg) {m : Mem} (hwf : m.WF) {a : Nat} {b : Byte} {x : Nat}
    (h1 : x ≠ a) (h2 : m.resolve pg x ≠ a) : (m.write pg a b).read pg x = m.read pg x := by
  unfold read
  rw [resolve_write]
  unfold write
  cases hs : m.src (a / pg) with
  | none =>
    by_cases hp : x / pg = a / pg
    · rw [if_pos hp]
      have : m.resolve pg x = x := resolve_of_none (by rw [hp]; exact hs)
      rw [this]
      simp [h1]
    · rw [if_neg hp]
      simp [h2]
  | some q =>
    by_cases hp : x / pg = a / pg
    · rw [if_pos hp]
      have : m.resolve pg x = q * pg + x % pg := by unfold resolve; rw [hp, hs]
      rw [this]
      simp [h1, hp]
    · rw [if_neg hp]
      have hpage : m.resolve pg x / pg ≠ a / pg := by
        unfold resolve
        cases hx : m.src (x / pg) with
        | none => exact hp
        | some q' =>
          dsimp only
          rw [div_mod_page hpg]
          intro h
          have := hwf _ _ hx
          rw [h, hs] at this
          cases this
      simp [h2, hpage]

/-- After a block store, an address resolves as before, or to itself. -/
theorem resolve_writeBlock (pg : Nat) (m : Mem) (a : Nat) (f : Nat → Byte) (n : Nat) (x : Nat) :
    (m.writeBlock pg a f n).resolve pg x = m.resolve pg x ∨
    (m.writeBlock pg a f n).resolve pg x = x := by
  induction n with
  | zero => exact Or.inl rfl
  | succ n ih =>
    unfold writeBlock
    rw [resolve_write]
    split
    · exact Or.inr rfl
    · exact ih

/-- Frame rule for a block store. -/
theorem read_writeBlock_frame {pg : Nat} (hpg : 0 < pg) {m : Mem} (hwf : m.WF) {a : Nat}
    {f : Nat → Byte} {n : Nat} {x : Nat}
    (h1 : ¬ (a ≤ x ∧ x < a + n)) (h2 : ¬ (a ≤ m.resolve pg x ∧ m.resolve pg x < a + n)) :
    (m.writeBlock pg a f n).read pg x = m.read pg x := by
  induction n with
  | zero => rfl
  | succ n ih =>
    have ih := ih (by omega) (by omega)
    unfold writeBlock
    rw [read_write_frame hpg (WF_writeBlock hwf _ _ _) (by omega) ?_, ih]
    rcases resolve_writeBlock pg m a f n x with h | h <;> rw [h] <;> omega

/-- A block store is visible through its own addresses. -/
theorem read_writeBlock_self {pg : Nat} (hpg : 0 < pg) {m : Mem} (hwf : m.WF) {a : Nat}
    {f : Nat → Byte} {n j : Nat} (hj : j < n) :
    (m.writeBlock pg a f n).read pg (a + j) = f j ∧
    (m.writeBlock pg a f n).resolve pg (a + j) = a + j := by
  induction n with
  | zero => omega
  | succ n ih =>
    unfold writeBlock
    by_cases h : j = n
    · subst h
      refine ⟨read_write_self _ _ _ _, ?_⟩
      rw [resolve_write, if_pos rfl]
    · obtain ⟨i1, i2⟩ := ih (by omega)
      constructor
      · rw [read_write_frame hpg (WF_writeBlock hwf _ _ _) (by omega) (by rw [i2]; omega), i1]
      · rw [resolve_write]
        split
        · rfl
        · exact i2

section word
variable [Abi]

theorem readWord_writeWord_self {pg : Nat} (hpg : 0 < pg) {m : Mem} (hwf : m.WF) {a : Nat} {w : Word} :
    (m.writeWord pg a w).readWord pg a = w := by
  rw [readWord_eq_iff]
  intro j hj
  exact (read_writeBlock_self hpg hwf hj).1

theorem readWord_congr {pg : Nat} {m m' : Mem} {a : Nat}
    (h : ∀ j, j < wb → m'.read pg (a + j) = m.read pg (a + j)) : m'.readWord pg a = m.readWord pg a := by
  rw [readWord_eq_iff]
  intro j hj
  rw [h j hj]
  exact (readWord_eq_iff.1 rfl) j hj

end word

end Mem
end Verif
