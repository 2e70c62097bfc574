/-
Model of the bit helpers of src/rseq-utils.h.
C `uint64_t` is `BitVec 64`, `uint32_t` is `BitVec 32`; `unsigned long`/`uintptr_t`/`size_t` values are `BitVec n`
with `n` = RSEQ_BITS_PER_LONG, 32 or 64.  `unsigned int r` never leaves 0..64, so it is a `Nat`.
-/
namespace Verif.Bits

/-- One `if (!(x & mask)) { x <<= k; r -= k; }` block of `rseq_fls_u64`/`rseq_fls_u32`
(src/rseq-utils.h:26-49 and 60-79). The pair is `(x, r)`. -/
def flsStep {n : Nat} (mask : BitVec n) (k : Nat) (p : BitVec n × Nat) : BitVec n × Nat :=
  if p.1 &&& mask = 0#n then (p.1 <<< k, p.2 - k) else p

/-- `rseq_fls_u64` (src/rseq-utils.h:18-51). -/
def flsU64 (x : BitVec 64) : Nat :=
  if x = 0#64 then 0
  else
    let p := (x, 64)
    let p := flsStep 0xFFFFFFFF00000000#64 32 p
    let p := flsStep 0xFFFF000000000000#64 16 p
    let p := flsStep 0xFF00000000000000#64 8 p
    let p := flsStep 0xF000000000000000#64 4 p
    let p := flsStep 0xC000000000000000#64 2 p
    let p := flsStep 0x8000000000000000#64 1 p
    p.2

/-- `rseq_fls_u32` (src/rseq-utils.h:53-81). -/
def flsU32 (x : BitVec 32) : Nat :=
  if x = 0#32 then 0
  else
    let p := (x, 32)
    let p := flsStep 0xFFFF0000#32 16 p
    let p := flsStep 0xFF000000#32 8 p
    let p := flsStep 0xF0000000#32 4 p
    let p := flsStep 0xC0000000#32 2 p
    let p := flsStep 0x80000000#32 1 p
    p.2

/-- `rseq_get_count_order_ulong` (src/rseq-utils.h:97-104), 64-bit `unsigned long`
(`rseq_fls_ulong`, lines 83-91, is `rseq_fls_u64`). The result is a C `int`. -/
def countOrder (x : BitVec 64) : Int :=
  if x = 0#64 then -1 else (flsU64 (x - 1#64) : Int)

/-- `rseq_get_count_order_ulong` with a 32-bit `unsigned long` (src/rseq-utils.h:86-87). -/
def countOrder32 (x : BitVec 32) : Int :=
  if x = 0#32 then -1 else (flsU32 (x - 1#32) : Int)

/-- `rseq_get_count_order_ulong` for an `unsigned long` of `n` bits: the `#if` of `rseq_fls_ulong` (86-90). -/
def countOrderUlong {n : Nat} (x : BitVec n) : Int :=
  if n = 32 then countOrder32 (x.setWidth 32) else countOrder (x.setWidth 64)

/-- `is_pow2` (src/rseq-utils.h:124-128). -/
def isPow2 (x : BitVec 64) : Bool := x &&& (x - 1#64) = 0#64

/-- `offset_align` (src/rseq-utils.h:134-138). The result type `off_t` is signed, the value is
below `alignment`; the model keeps the bit pattern. -/
def offsetAlign {n : Nat} (p alignment : BitVec n) : BitVec n := (alignment - p) &&& (alignment - 1#n)

/-- `rseq_align(v, align)` (src/rseq-utils.h:15-16) on `n`-bit operands. -/
def rseqAlign {n : Nat} (v align : BitVec n) : BitVec n :=
  (v + (align - 1#n)) &&& ~~~(align - 1#n)

/-- `rseq_hweight_ulong` (src/rseq-utils.h:118-122): population count of an `unsigned long`
(`__builtin_popcountl` modelled as counting the set bits one by one). -/
def hweight {n : Nat} (v : BitVec n) : Nat := ((List.range n).filter fun i => v.getLsbD i).length

/-- `rseq_get_page_len` (src/rseq-utils.h:106-116): `sysconf(_SC_PAGE_SIZE)` answer as argument. -/
def pageLen (sysconf : Int) : Nat := if sysconf < 0 then 4096 else sysconf.toNat

end Verif.Bits
