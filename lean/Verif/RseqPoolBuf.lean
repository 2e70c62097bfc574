import Verif.RseqPoolListProps
import Verif.RseqBufFieldLemmas

/-!
`test_percpu_buffer` and `test_percpu_memcpy_buffer` of tests/param_test.c (887-1119, 1121-1360) from the creation of the
pool to its destruction: `struct percpu_buffer` (:411-415) and `struct percpu_memcpy_buffer` (:424-428) are items of a
pool, with the fields `offset`, `buflen` and `array` in this order; the arrays and the nodes come from `malloc`, outside
the pool.

Simplification: the structures of the pool itself are not in the memory of the model, as in RseqPoolList.
-/

namespace Verif.Joint

open Mempool (Config Ghost Hist cpuAddr InRegion RangeEnv)

variable [Abi]

/-- The fields of the item `p`. -/
def bufOffset (c : Config) (p : Nat) : BitVec 32 → Rseq.W wb := ctr c p 0
def bufLen (c : Config) (p : Nat) : BitVec 32 → Rseq.W wb := ctr c p wb
def bufArray (c : Config) (p : Nat) : BitVec 32 → Rseq.W wb := ctr c p (2 * wb)

/-- The buffers as the memory `m` describes them: `buflen` and `array` are read from the item.  `isz`: the size of an
item of the array. -/
def memLayout (be : Bool) (fld : Rseq.Fld) (c : Config) (p isz : Nat) (priv : Nat → Nat → Rseq.W wb → Prop)
    (m : Rseq.Mem wb) : Rseq.BufLayout wb where
  be := be
  fld := fld
  cpus := cpus c
  offset := bufOffset c p
  array := fun k => Rseq.ldw be m (bufArray c p k)
  cap := fun k => (Rseq.ldw be m (bufLen c p k)).toNat
  isz := isz
  priv := priv

/-- The memory of the test outside the pool: `arr k` is what `malloc` returned for the CPU `k` (:1052, :1296), `len` items
of `isz` bytes; `priv t d` are the bytes of the local variable `item` (:1233) of thread `t` at signal depth `d`. -/
structure BufHeap (c : Config) (g : Ghost) (arr : BitVec 32 → Rseq.W wb) (len isz : Nat)
    (priv : Nat → Nat → Rseq.W wb → Prop) : Prop where
  isz0 : 0 < isz
  iszlt : isz < 2 ^ (8 * wb)
  size : len * isz < 2 ^ (8 * wb)
  arr_out : ∀ k ∈ cpus c, ∀ a, (a - arr k).toNat < len * isz → Outside c g a.toNat
  arr_arr : ∀ k ∈ cpus c, ∀ k' ∈ cpus c, ∀ a, (a - arr k).toNat < len * isz → (a - arr k').toNat < len * isz → k = k'
  arr_priv : ∀ k ∈ cpus c, ∀ t d a, (a - arr k).toNat < len * isz → ¬ priv t d a
  priv_out : ∀ t d a, priv t d a → Outside c g a.toNat
  priv_priv : ∀ t d t' d' a, priv t d a → priv t' d' a → t = t' ∧ d = d'

/-- The nodes of `test_percpu_buffer` (:1070): `node k j` is what the `j`-th `malloc` for CPU `k` returned. -/
structure BufNodes (c : Config) (g : Ghost) (arr : BitVec 32 → Rseq.W wb) (len : Nat)
    (priv : Nat → Nat → Rseq.W wb → Prop) (node : BitVec 32 → Nat → Rseq.W wb) (B : Nat) : Prop where
  apart : ∀ k ∈ cpus c, ∀ k' ∈ cpus c, ∀ j j', 1 ≤ j → j ≤ B → 1 ≤ j' → j' ≤ B → ∀ a,
    Rseq.InWord (node k j) a → Rseq.InWord (node k' j') a → k = k' ∧ j = j'
  nonnull : ¬ IsNode c node B 0#_
  out : ∀ x a, IsNode c node B x → Rseq.InWord x a → Outside c g a.toNat
  arr : ∀ x a, IsNode c node B x → Rseq.InWord x a → ∀ k ∈ cpus c, ¬ (a - arr k).toNat < len * wb
  priv : ∀ x a, IsNode c node B x → Rseq.InWord x a → ∀ t d, ¬ priv t d a

/-- The executions of the `N` threads of a buffer test from the state `g0` of the pool.  As `Rseq.TestReach`, but the
memory is the memory of the pool and the calls take `buflen` and `array` from the item.  `other`: plain code of a thread
and whatever the program does to the pool meanwhile, as long as it leaves alone the item `p`, the arrays, the local
variables of others and the bytes `data`. -/
inductive BufPool (T : Nat → Rseq.Site wb) (be : Bool) (fld : Rseq.Fld) (c : Config) (p isz : Nat)
    (priv : Nat → Nat → Rseq.W wb → Prop) (data : Rseq.W wb → Prop) (N : Nat) (G0 : Rseq.Bufs wb) (g0 : Ghost) :
    Rseq.State wb → Rseq.Bufs wb → Rseq.Hold → Ghost → Prop
  | init : BufPool T be fld c p isz priv data N G0 g0 { mem := view c g0.s.mem, th := fun _ => Rseq.thread0 } G0
      (fun _ => none) g0
  | step {s s' : Rseq.State wb} {G : Rseq.Bufs wb} {H : Rseq.Hold} {g g' : Ghost} {t : Nat} {lab : Rseq.Lab wb}
      (h : BufPool T be fld c p isz priv data N G0 g0 s G H g) (hs : Rseq.Step T s t lab s') (hl : lab ≠ .user)
      (hi : ∀ f, lab = .invoke f → Rseq.BufCall (memLayout be fld c p isz priv s.mem) G t (s.th t).saved.length f ∧
        Rseq.TestCall (memLayout be fld c p isz priv s.mem) N H s t f)
      (hw : Writes c p g g') (hm : s'.mem = view c g'.s.mem) :
      BufPool T be fld c p isz priv data N G0 g0 s' (Rseq.bufStep (memLayout be fld c p isz priv s.mem) T s G t lab)
        (Rseq.holdStep T s (Rseq.bufStep (memLayout be fld c p isz priv s.mem) T s G t lab) H t lab) g'
  | other {s : Rseq.State wb} {G : Rseq.Bufs wb} {H : Rseq.Hold} {g g' : Ghost} {t : Nat}
      (h : BufPool T be fld c p isz priv data N G0 g0 s G H g) (hr : (s.th t).run = true) (ht : (s.th t).top = none)
      (hp : PoolStep c false [p] g g')
      (hu : ∀ a, view c g'.s.mem a ≠ view c g.s.mem a →
        (∀ k ∈ cpus c, ¬ (memLayout be fld c p isz priv s.mem).InArr k a) ∧
        (∀ t' d', priv t' d' a → t' = t ∧ d' = (s.th t).saved.length) ∧ ¬ data a) :
      BufPool T be fld c p isz priv data N G0 g0 { s with mem := view c g'.s.mem } G H g'
  | read {s : Rseq.State wb} {G : Rseq.Bufs wb} {H : Rseq.Hold} {g : Ghost} {t : Nat} {k : BitVec 32}
      (h : BufPool T be fld c p isz priv data N G0 g0 s G H g) (hr : (s.th t).run = true) (ht : (s.th t).top = none)
      (hk : k ∈ cpus c) :
      BufPool T be fld c p isz priv data N G0 g0 s
        (G.read t (s.th t).saved.length k (Rseq.ldw be s.mem (bufOffset c p k))) H g

/-! ### The layout -/

variable {T : Nat → Rseq.Site wb} {fld : Rseq.Fld} {be : Bool} {c : Config} {p isz len B N : Nat}
  {arr : BitVec 32 → Rseq.W wb} {node : BitVec 32 → Nat → Rseq.W wb} {priv : Nat → Nat → Rseq.W wb → Prop}
  {data : Rseq.W wb → Prop}

/-- The buffers the setup makes. -/
def bufLayout (be : Bool) (fld : Rseq.Fld) (c : Config) (p isz : Nat) (priv : Nat → Nat → Rseq.W wb → Prop)
    (arr : BitVec 32 → Rseq.W wb) (len : Nat) : Rseq.BufLayout wb where
  be := be
  fld := fld
  cpus := cpus c
  offset := bufOffset c p
  array := arr
  cap := fun _ => len
  isz := isz
  priv := priv

/-- A word of the item is in the item and in the pool. -/
theorem word_inside {g : Ghost} (hg : Hist c false g) (hp : p ∈ g.live) (hn : c.ncpu ≤ 2 ^ 32) {off : Nat}
    (hoff : off + wb ≤ c.itemLen) {k : BitVec 32} (hk : k ∈ cpus c) {a : Rseq.W wb} (ha : Rseq.InWord (ctr c p off k) a) :
    (∃ i, i < c.ncpu ∧ InItem c [p] i a.toNat) ∧ ¬ Outside c g a.toNat := by
  have hk := (mem_cpus hn).1 hk
  obtain ⟨o, ho, e⟩ := inWord_ctr hg hp hoff hk ha
  refine ⟨⟨_, hk, p, .head _, off + o, by omega, e⟩, fun h => ?_⟩
  obtain ⟨r, hr, hx⟩ := in_region hg hp hk (o := off + o) (by omega)
  exact h r hr (e ▸ hx)

/-- Words at different offsets of the item do not overlap, words of different CPUs do not either. -/
theorem words_apart {g : Ghost} (hg : Hist c false g) (hp : p ∈ g.live) (hn : c.ncpu ≤ 2 ^ 32) {off off' : Nat}
    (hoff : off + wb ≤ c.itemLen) (hoff' : off' + wb ≤ c.itemLen) {k k' : BitVec 32} (hk : k ∈ cpus c)
    (hk' : k' ∈ cpus c) {a : Rseq.W wb} (ha : Rseq.InWord (ctr c p off k) a) (ha' : Rseq.InWord (ctr c p off' k') a) :
    k = k' ∧ off < off' + wb ∧ off' < off + wb := by
  have hk := (mem_cpus hn).1 hk
  have hk' := (mem_cpus hn).1 hk'
  obtain ⟨o, ho, e⟩ := inWord_ctr hg hp hoff hk ha
  obtain ⟨o', ho', e'⟩ := inWord_ctr hg hp hoff' hk' ha'
  obtain ⟨h1, -⟩ := Mempool.addressing_injective hg p p (.inl hp) (.inl hp)
  obtain ⟨-, h2, h3⟩ := h1 _ _ _ _ hk hk' (by omega) (by omega) (e.symm.trans e')
  exact ⟨BitVec.eq_of_toNat_eq h2, by omega, by omega⟩

theorem buf_layout_ok {g : Ghost} (hg : Hist c false g) (hp : p ∈ g.live) (hn : c.ncpu ≤ 2 ^ 32)
    (hl : 3 * wb ≤ c.itemLen) (hH : BufHeap c g arr len isz priv) : (bufLayout be fld c p isz priv arr len).OK where
  isz0 := hH.isz0
  iszlt := hH.iszlt
  size := fun _ _ => hH.size
  off_off := ctr_disjoint hg hp hn (by omega)
  arr_arr := hH.arr_arr
  off_arr := fun k hk k' hk' a ha h => (word_inside hg hp hn (off := 0) (by omega) hk ha).2 (hH.arr_out k' hk' a h)
  off_priv := fun k hk t d a ha h => (word_inside hg hp hn (off := 0) (by omega) hk ha).2 (hH.priv_out t d a h)
  arr_priv := hH.arr_priv
  priv_priv := hH.priv_priv

theorem fields_ok {g : Ghost} (hg : Hist c false g) (hp : p ∈ g.live) (hn : c.ncpu ≤ 2 ^ 32)
    (hl : 3 * wb ≤ c.itemLen) (hH : BufHeap c g arr len isz priv) :
    Rseq.FieldsOK (bufLayout be fld c p isz priv arr len) (bufLen c p) (bufArray c p) := by
  have h4 := wb_ge
  constructor
  · intro k hk k' hk' a ha h
    rcases ha with ha | ha
    · have := words_apart hg hp hn (off := wb) (off' := 0) (by omega) (by omega) hk hk' ha h; omega
    · have := words_apart hg hp hn (off := 2 * wb) (off' := 0) (by omega) (by omega) hk hk' ha h; omega
  · intro k hk k' hk' a ha h
    rcases ha with ha | ha
    · exact (word_inside hg hp hn (off := wb) (by omega) hk ha).2 (hH.arr_out k' hk' a h)
    · exact (word_inside hg hp hn (off := 2 * wb) (by omega) hk ha).2 (hH.arr_out k' hk' a h)
  · intro k hk k' hk' a ha ha'
    rcases ha with ha | ha <;> rcases ha' with ha' | ha'
    · exact (words_apart hg hp hn (off := wb) (off' := wb) (by omega) (by omega) hk hk' ha ha').1
    · exact (words_apart hg hp hn (off := wb) (off' := 2 * wb) (by omega) (by omega) hk hk' ha ha').1
    · exact (words_apart hg hp hn (off := 2 * wb) (off' := wb) (by omega) (by omega) hk hk' ha ha').1
    · exact (words_apart hg hp hn (off := 2 * wb) (off' := 2 * wb) (by omega) (by omega) hk hk' ha ha').1
  · intro k hk a ha h
    have := words_apart hg hp hn (off := wb) (off' := 2 * wb) (by omega) (by omega) hk hk ha h
    omega

/-- The memory describes the buffers the setup made. -/
def Described (be : Bool) (c : Config) (p : Nat) (arr : BitVec 32 → Rseq.W wb) (len : Nat) (m : Rseq.Mem wb) : Prop :=
  ∀ k ∈ cpus c, Rseq.HasFields be (bufLen c p k) (bufArray c p k) (arr k) (Rseq.num len) m

theorem Described.array {m : Rseq.Mem wb} (h : Described be c p arr len m) {k : BitVec 32} (hk : k ∈ cpus c) :
    (memLayout be fld c p isz priv m).array k = arr k := (h k hk).1

theorem Described.cap {m : Rseq.Mem wb} (h : Described be c p arr len m) (hlen : len < 2 ^ (8 * wb)) {k : BitVec 32}
    (hk : k ∈ cpus c) : (memLayout be fld c p isz priv m).cap k = len := by
  show (Rseq.ldw be m (bufLen c p k)).toNat = len
  rw [(h k hk).2, BitVec.toNat_ofNat, Nat.mod_eq_of_lt hlen]

theorem bufCall_described {m : Rseq.Mem wb} {G : Rseq.Bufs wb} {t d : Nat} {f : Rseq.Frame wb}
    (h : Described be c p arr len m) (hlen : len < 2 ^ (8 * wb)) (hf : f.cpu ∈ cpus c) :
    Rseq.BufCall (memLayout be fld c p isz priv m) G t d f ↔
      Rseq.BufCall (bufLayout be fld c p isz priv arr len) G t d f := by
  unfold Rseq.BufCall
  rw [h.array hf, h.cap hlen hf]
  exact Iff.rfl

theorem inArr_described {m : Rseq.Mem wb} (h : Described be c p arr len m) (hlen : len < 2 ^ (8 * wb)) {k : BitVec 32}
    (hk : k ∈ cpus c) {a : Rseq.W wb} : (memLayout be fld c p isz priv m).InArr k a ↔
      (bufLayout be fld c p isz priv arr len).InArr k a := by
  unfold Rseq.BufLayout.InArr
  rw [h.array hk, h.cap hlen hk]
  exact Iff.rfl

theorem bufHeap_writes {g g' : Ghost} (hg : Hist c false g) (hp : p ∈ g.live) (hH : BufHeap c g arr len isz priv)
    (h : Writes c p g g') : BufHeap c g' arr len isz priv := { hH with
  arr_out := fun k hk a ha => h.outside hg hp (hH.arr_out k hk a ha)
  priv_out := fun t d a ha => h.outside hg hp (hH.priv_out t d a ha) }

end Verif.Joint
