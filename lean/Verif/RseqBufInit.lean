import Verif.RseqBufTest
/-
How the main thread of the buffer tests of tests/param_test.c fills the buffers before it creates the threads:
`test_percpu_buffer` :1046-1076 and `test_percpu_memcpy_buffer` :1290-1316.
Simplifications: the addresses returned by `malloc` are parameters (the array of CPU `c` is `K.array c`, the nodes are
`node c j`); the fields `array` and `buflen` are not stored to memory, they are `K.array` and `K.cap`.
-/

namespace Verif.Rseq

variable {n : Nat}

/-- The rest of `for (j = 1; j <= BUFFER_ITEM_PER_CPU; j++)` (:1058-1075), `k` iterations from `j` on, with
`expected_sum += j`, `node->data = j`, `cpubuffer->array[j - 1] = node`, `cpubuffer->offset++`. `node j` is the address
of the node allocated in iteration `j`, `doff` the offset of `data` in it. -/
def ptrFill (be : Bool) (off arr doff : W n) (node : Nat → W n) : Nat → Nat → Mem n → BitVec 64 → Mem n × BitVec 64
  | 0, _, m, sum => (m, sum)
  | k + 1, j, m, sum =>
    let m := stw be m (node j + doff) (num j)
    let m := stw be m (arr + num ((j - 1) * n)) (node j)
    let m := stw be m off (ldw be m off + 1#_)
    ptrFill be off arr doff node k (j + 1) m (sum + BitVec.ofNat 64 j)

/-- Store a list of bytes. -/
def stl (m : Mem n) (a : W n) (l : List Byte) : Mem n := fun x => (l[(x - a).toNat]?).getD (m x)

/-- The rest of `for (j = 1; j <= MEMCPY_BUFFER_ITEM_PER_CPU; j++)` (:1302-1315): `expected_sum += 2 * j + 1`,
`array[j - 1].data1 = j`, `array[j - 1].data2 = j + 1`, `cpubuffer->offset++`. `data2` is a `uint64_t` at offset `d2`
of the item. -/
def copyFill (be : Bool) (off arr : W n) (isz d2 : Nat) : Nat → Nat → Mem n → BitVec 64 → Mem n × BitVec 64
  | 0, _, m, sum => (m, sum)
  | k + 1, j, m, sum =>
    let m := stw be m (arr + num ((j - 1) * isz)) (num j)
    let m := stl m (arr + num ((j - 1) * isz) + num d2) (wordItem (n := 8) be (BitVec.ofNat 64 (j + 1)))
    let m := stw be m off (ldw be m off + 1#_)
    copyFill be off arr isz d2 k (j + 1) m (sum + BitVec.ofNat 64 (2 * j + 1))

/-- :1047-1076, the outer loop of `test_percpu_buffer`, `B` items per CPU: memory and `expected_sum`. -/
def ptrSetup (K : BufLayout n) (doff : W n) (node : BitVec 32 → Nat → W n) (B : Nat) (m : Mem n) :
    Option (Mem n × BitVec 64) :=
  forCpus (fun c m sum => some (ptrFill K.be (K.offset c) (K.array c) doff (node c) B 1 m sum)) K.cpus m 0#64

/-- :1291-1316, the outer loop of `test_percpu_memcpy_buffer`. -/
def copySetup (K : BufLayout n) (d2 B : Nat) (m : Mem n) : Option (Mem n × BitVec 64) :=
  forCpus (fun c m sum => some (copyFill K.be (K.offset c) (K.array c) K.isz d2 B 1 m sum)) K.cpus m 0#64

/-- The value of bytes `0`, `1`, … of a list as a word. -/
def wordOf (n : Nat) (be : Bool) (y : List Byte) : W n := ldw be (fun a : W n => y.getD a.toNat 0#8) 0#_

/-- `item.data1` and `item.data2` added up as the sum does (:1344-1345): the first is an `intptr_t`. -/
def nodeVal (n : Nat) (be : Bool) (d2 : Nat) (y : List Byte) : BitVec 64 :=
  (wordOf n be y).signExtend 64 + wordOf 8 be (y.drop d2)

/-- The abstract state with the given buffers and no calls yet. -/
def Bufs.fresh (buf : BitVec 32 → List (List Byte)) : Bufs n where
  buf := buf
  arg := fun _ _ => []
  got := fun _ _ => none
  rd := fun _ _ => none
  pushed := fun _ => 0
  popped := fun _ => 0

end Verif.Rseq
