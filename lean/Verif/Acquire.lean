import Verif.RseqPseudo
/-
The values that `rseq_smp_load_acquire` and `rseq_smp_store_release` transfer (include/rseq/arch/*.h), for scalar types of
every size; the ordering is in `Barriers.lean`, which has accesses of one size.

aarch64.h:45-72 and :78-106 select an instruction by `sizeof(*(p))` and go through a union of the value and a byte array.
The other architectures access the object as its own type (`RSEQ_READ_ONCE`, `RSEQ_WRITE_ONCE`, compiler.h:33-36).
`rseq_unqual_scalar_typeof` (compiler.h:81-93) gives the same type without qualifiers, of equal size and sign.

Simplifications: 64-bit addresses; an object is the list of its bytes; floating-point and pointer values are their bytes
read as unsigned numbers; casts of `char` arrays to `__u8 *`, … access the bytes (the library relies on
`-fno-strict-aliasing` or on the compiler for this); the union is aligned as the compiler requires.
-/

namespace Verif.Acquire

open Verif.Rseq (Arch)

abbrev Byte := BitVec 8
abbrev Mem := BitVec 64 → Byte

/-- A scalar type. -/
structure Ty where
  size : Nat
  signed : Bool
  deriving DecidableEq, Repr

def leNat : List Byte → Nat
  | [] => 0
  | b :: l => b.toNat + 256 * leNat l

def leBytes : Nat → Nat → List Byte
  | 0, _ => []
  | k + 1, v => BitVec.ofNat 8 v :: leBytes k (v / 256)

/-- The number an object of these bytes represents, unsigned. -/
def toNat (be : Bool) (l : List Byte) : Nat := leNat (if be then l.reverse else l)

/-- The bytes of an unsigned object of `k` bytes. -/
def ofNat (be : Bool) (k v : Nat) : List Byte := if be then (leBytes k v).reverse else leBytes k v

/-- The bytes of an object in memory. -/
def rd (m : Mem) (p : BitVec 64) : Nat → List Byte
  | 0 => []
  | k + 1 => m p :: rd m (p + 1#64) k

def wr (m : Mem) (p : BitVec 64) : List Byte → Mem
  | [] => m
  | b :: l => wr (fun a => if a = p then b else m a) (p + 1#64) l

/-- The value of an object of type `ty` with these bytes: two's complement. -/
def Ty.value (ty : Ty) (be : Bool) (l : List Byte) : Int :=
  if ty.signed ∧ 2 ^ (8 * ty.size) ≤ 2 * toNat be l then (toNat be l : Int) - 2 ^ (8 * ty.size) else toNat be l

/-- The object representation of `(T) v`. -/
def Ty.repr (ty : Ty) (be : Bool) (v : Int) : List Byte := ofNat be ty.size (v % 2 ^ (8 * ty.size)).toNat

/-- `ldarb`, `ldarh`, `ldar` with `%w0` and `%0`: the register, zero-extended. -/
def ldar (be : Bool) (m : Mem) (p : BitVec 64) (k : Nat) : BitVec 64 := BitVec.ofNat 64 (toNat be (rd m p k))

/-- `stlrb`, `stlrh`, `stlr` -/
def stlr (be : Bool) (m : Mem) (p : BitVec 64) (k : Nat) (r : BitVec 64) : Mem := wr m p (ofNat be k r.toNat)

/-- `rseq_smp_load_acquire(p)`. `junk`: the bytes of the union `__u` before anything is stored to it. -/
def loadAcquire (arch : Arch) (be : Bool) (ty : Ty) (junk : List Byte) (m : Mem) (p : BitVec 64) : Int :=
  match arch with
  | .aarch64 =>
    let u : List Byte :=
      match ty.size with
      | 1 => ofNat be 1 (ldar be m p 1).toNat
      | 2 => ofNat be 2 (ldar be m p 2).toNat
      | 4 => ofNat be 4 (ldar be m p 4).toNat
      | 8 => ofNat be 8 (ldar be m p 8).toNat
      | _ => junk
    ty.value be u
  | _ => ty.value be (rd m p ty.size)

/-- `rseq_smp_store_release(p, v)` -/
def storeRelease (arch : Arch) (be : Bool) (ty : Ty) (m : Mem) (p : BitVec 64) (v : Int) : Mem :=
  match arch with
  | .aarch64 =>
    let u := ty.repr be v
    match ty.size with
    | 1 => stlr be m p 1 (BitVec.ofNat 64 (toNat be u))
    | 2 => stlr be m p 2 (BitVec.ofNat 64 (toNat be u))
    | 4 => stlr be m p 4 (BitVec.ofNat 64 (toNat be u))
    | 8 => stlr be m p 8 (BitVec.ofNat 64 (toNat be u))
    | _ => m
  | _ => wr m p (ty.repr be v)

/-! ### Specification -/

/-- The object at `p` has type `ty` and value `v`: the value of its bytes, as a sum of powers of 256. -/
def Holds (be : Bool) (ty : Ty) (m : Mem) (p : BitVec 64) (v : Int) : Prop :=
  ∃ u : Nat, (∀ i, i < ty.size →
      (m (p + BitVec.ofNat 64 (if be then ty.size - 1 - i else i))).toNat = u / 256 ^ i % 256) ∧
    u < 256 ^ ty.size ∧ v = if ty.signed ∧ 256 ^ ty.size ≤ 2 * u then (u : Int) - 256 ^ ty.size else u

/-- `v` is a value of the type. -/
def Ty.InRange (ty : Ty) (v : Int) : Prop :=
  if ty.signed then - 256 ^ ty.size ≤ 2 * v ∧ 2 * v < 256 ^ ty.size else 0 ≤ v ∧ v < 256 ^ ty.size

/-- The sizes of the integer types and pointers. -/
def Ty.Common (ty : Ty) : Prop := ty.size = 1 ∨ ty.size = 2 ∨ ty.size = 4 ∨ ty.size = 8

end Verif.Acquire
