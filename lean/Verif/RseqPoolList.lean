import Verif.RseqPoolTestProps
import Verif.RseqListInitProps

/-!
`test_percpu_list` of tests/param_test.c (684-885) from the creation of the pool to its destruction: the heads of the
per-CPU lists are an item of a pool, the nodes come from `malloc` of the C library, outside the pool.

Simplification: the structures of the pool itself (`struct rseq_mempool`, range headers, bitmaps) are not in the
memory of the model, so "outside the pool" means outside the mapped areas of its ranges.
-/

namespace Verif.Joint

open Mempool (Config Ghost Hist cpuAddr InRegion RangeEnv)

variable [Abi]

/-- Byte `x` is not in the memory of the pool. -/
def Outside (c : Config) (g : Ghost) (x : Nat) : Prop := ∀ r ∈ g.s.pool.ranges, ¬ InRegion c r.base x

/-- Plain code of the test and of the C library: stores to the item `p` and to memory outside the pool. -/
inductive Writes (c : Config) (p : Nat) (g : Ghost) : Ghost → Prop
  | refl : Writes c p g g
  | item {g' g'' : Ghost} (h : Writes c p g g') (hs : Stores c [p] g' g'') : Writes c p g g''
  | other {g' : Ghost} (h : Writes c p g g') (m' : Verif.Mem)
      (he : Mempool.ExtOK c g'.s.pool.ranges g'.s.mem m') : Writes c p g ⟨{ g'.s with mem := m' }, g'.live, g'.freed⟩

/-- `struct percpu_list_node` (param_test.c:396-399): `data` at offset 0, `next` one word later. -/
def nodeData : Rseq.W wb := 0#_
def nodeNext : Rseq.W wb := BitVec.ofNat _ wb

/-- Byte `a` belongs to the node at `x`. -/
def InNode (x a : Rseq.W wb) : Prop := Rseq.InWord (x + nodeData) a ∨ Rseq.InWord (x + nodeNext) a

/-- `a` is the address of one of the `B` nodes allocated for a CPU of the pool. -/
def IsNode (c : Config) (node : BitVec 32 → Nat → Rseq.W wb) (B : Nat) (x : Rseq.W wb) : Prop :=
  ∃ k ∈ cpus c, ∃ j, 1 ≤ j ∧ j ≤ B ∧ x = node k j

/-- The memory of the test outside the pool: `node k j` is what the `j`-th `malloc` for the CPU `k` returned (:840),
`priv t d` are the bytes of the local variable `head` (:719) of thread `t` at signal depth `d`.  The allocations do
not overlap each other or local variables, and nothing is at the address `&((struct percpu_list_node *)NULL)->next`. -/
structure Heap (c : Config) (g : Ghost) (node : BitVec 32 → Nat → Rseq.W wb) (B : Nat)
    (priv : Nat → Nat → Rseq.W wb → Prop) : Prop where
  apart : ∀ k ∈ cpus c, ∀ k' ∈ cpus c, ∀ j j', 1 ≤ j → j ≤ B → 1 ≤ j' → j' ≤ B → ∀ a,
    InNode (node k j) a → InNode (node k' j') a → k = k' ∧ j = j'
  nonnull : ¬ IsNode c node B 0#_
  node_out : ∀ x a, IsNode c node B x → InNode x a → Outside c g a.toNat
  priv_out : ∀ t d a, priv t d a → Outside c g a.toNat
  node_priv : ∀ x t d a, IsNode c node B x → InNode x a → ¬ priv t d a
  priv_priv : ∀ t d t' d' a, priv t d a → priv t' d' a → t = t' ∧ d = d'
  null_out : ∀ a, Rseq.InWord nodeNext a → Outside c g a.toNat
  null_priv : ∀ t d a, Rseq.InWord nodeNext a → ¬ priv t d a
  null_node : ∀ x a, IsNode c node B x → InNode x a → ¬ Rseq.InWord nodeNext a

/-- The lists of the test: `struct percpu_list` (:401-403) has its `head` at offset 0 of the item `p`. -/
def listLayout (be : Bool) (fld : Rseq.Fld) (c : Config) (p : Nat) (node : BitVec 32 → Nat → Rseq.W wb) (B : Nat)
    (priv : Nat → Nat → Rseq.W wb → Prop) : Rseq.ListLayout wb where
  be := be
  fld := fld
  off := nodeNext
  cpus := cpus c
  head := ctr c p 0
  nodes := IsNode c node B
  priv := priv

/-- The executions of the threads of the list test from the state `g0` of the pool.  As `Rseq.SReach`, but the memory
is the memory of the pool.  `other`: plain code of a thread, such as `node->next = expect` (:702), and whatever the
program does to the pool meanwhile, as long as it leaves the item `p`, the data of the nodes, the `next` fields of
nodes the thread does not hold and the local variables of others alone. -/
inductive ListPool (T : Nat → Rseq.Site wb) (K : Rseq.ListLayout wb) (c : Config) (p : Nat) (G0 : Rseq.Stacks wb)
    (g0 : Ghost) : Rseq.State wb → Rseq.Stacks wb → Ghost → Prop
  | init : ListPool T K c p G0 g0 { mem := view c g0.s.mem, th := fun _ => Rseq.thread0 } G0 g0
  | step {s s' : Rseq.State wb} {G : Rseq.Stacks wb} {g g' : Ghost} {t : Nat} {lab : Rseq.Lab wb}
      (h : ListPool T K c p G0 g0 s G g) (hs : Rseq.Step T s t lab s') (hl : lab ≠ .user)
      (hi : ∀ f, lab = .invoke f → Rseq.ListCall K G s.mem t (s.th t).saved.length f)
      (hw : Writes c p g g') (hm : s'.mem = view c g'.s.mem) :
      ListPool T K c p G0 g0 s' (Rseq.applyOp G t (s.th t).saved.length (Rseq.committing T s t lab)) g'
  | other {s : Rseq.State wb} {G : Rseq.Stacks wb} {g g' : Ghost} {t : Nat}
      (h : ListPool T K c p G0 g0 s G g) (hr : (s.th t).run = true) (ht : (s.th t).top = none)
      (hp : PoolStep c false [p] g g')
      (hu : ∀ a, view c g'.s.mem a ≠ view c g.s.mem a →
        (∀ x, K.nodes x → ¬ Rseq.InWord (x + nodeData) a) ∧
        (∀ x, K.nodes x → Rseq.InWord (x + K.off) a → G.own x = some (t, (s.th t).saved.length)) ∧
        (∀ t' d', K.priv t' d' a → t' = t ∧ d' = (s.th t).saved.length) ∧ ¬ Rseq.InWord K.off a) :
      ListPool T K c p G0 g0 { s with mem := view c g'.s.mem } G g'
  | give {s : Rseq.State wb} {G : Rseq.Stacks wb} {g : Ghost} {t : Nat} (x : Rseq.W wb) (t' d' : Nat)
      (h : ListPool T K c p G0 g0 s G g) (ht : (s.th t).top = none)
      (ho : G.own x = some (t, (s.th t).saved.length)) : ListPool T K c p G0 g0 s (G.give x t' d') g

variable {T : Nat → Rseq.Site wb} {fld : Rseq.Fld} {be : Bool} {c : Config} {p B : Nat}

/-! ### Plain code -/

theorem Writes.hist {g g' : Ghost} (hg : Hist c false g) (hp : p ∈ g.live) (h : Writes c p g g') :
    Hist c false g' ∧ g'.live = g.live ∧ g'.s.pool.ranges = g.s.pool.ranges := by
  induction h with
  | refl => exact ⟨hg, rfl, rfl⟩
  | item h hs ih =>
    obtain ⟨h1, h2, h3⟩ := ih
    obtain ⟨j1, -, j3, -⟩ := hs.hist h1 (one_live (h2 ▸ hp))
    refine ⟨j1, j3.trans h2, ?_⟩
    rw [← h3]
    clear j1 j3
    induction hs with
    | refl => rfl
    | tail hs p cpu o b hp hcpu ho ih => exact ih
  | @other g' h m' he ih =>
    obtain ⟨h1, h2, h3⟩ := ih
    exact ⟨⟨h1.valid, .step _ _ h1.reach (.ext _ m' he), h1.mode⟩, h2, h3⟩

theorem Writes.outside {g g' : Ghost} (hg : Hist c false g) (hp : p ∈ g.live) (h : Writes c p g g') {x : Nat}
    (hx : Outside c g x) : Outside c g' x := by
  unfold Outside
  rw [(h.hist hg hp).2.2]
  exact hx

theorem region_page {g : Ghost} (hg : Hist c false g) {x : Nat} :
    (∃ r ∈ g.s.pool.ranges, InRegion c r.base (x / c.pg * c.pg)) ↔ ∃ r ∈ g.s.pool.ranges, InRegion c r.base x := by
  have hv := hg.valid
  have key : ∀ r ∈ g.s.pool.ranges, (InRegion c r.base (x / c.pg * c.pg) ↔ InRegion c r.base x) := by
    intro r hr
    have hb : c.pg ∣ r.base := Nat.dvd_trans hv.pg_dvd (hg.inv.ranges.each r hr).al
    unfold InRegion
    have h1 := Mempool.page_lt_iff (x := x) hv.pg_pos hb
    have h2 := Mempool.page_lt_iff (x := x) hv.pg_pos (Nat.dvd_add hb hv.pg_dvd_rangeLen)
    omega
  exact ⟨fun ⟨r, hr, h⟩ => ⟨r, hr, (key r hr).1 h⟩, fun ⟨r, hr, h⟩ => ⟨r, hr, (key r hr).2 h⟩⟩

/-- Any content can be given to the memory outside the pool. -/
theorem ext_reach {g : Ghost} (hg : Hist c false g) (mm : Rseq.Mem wb)
    (hm : ∀ a, mm a ≠ view c g.s.mem a → Outside c g a.toNat) :
    ∃ m', Mempool.ExtOK c g.s.pool.ranges g.s.mem m' ∧ mm = view c m' := by
  classical
  have hv := hg.valid
  let inn : Nat → Prop := fun x => ∃ r ∈ g.s.pool.ranges, InRegion c r.base x
  let m' : Verif.Mem :=
    { phys := fun x => if inn x then g.s.mem.phys x else mm (BitVec.ofNat _ x)
      src := fun q => if inn (q * c.pg) then g.s.mem.src q else none }
  have hout : ∀ x, ¬ inn x → m'.resolve c.pg x = x := by
    intro x hx
    refine Verif.Mem.resolve_of_none ?_
    show (if inn (x / c.pg * c.pg) then _ else none) = none
    exact if_neg fun h => hx ((region_page hg).1 h)
  have hin : ∀ x, inn x → m'.resolve c.pg x = g.s.mem.resolve c.pg x := by
    intro x hx
    have e : m'.src (x / c.pg) = g.s.mem.src (x / c.pg) := if_pos ((region_page hg).2 hx)
    unfold Verif.Mem.resolve
    rw [e]
  have hrd : ∀ x, inn x → m'.read c.pg x = g.s.mem.read c.pg x := by
    intro x hx
    unfold Verif.Mem.read
    rw [hin x hx]
    obtain ⟨r, hr, h⟩ := hx
    exact if_pos ⟨r, hr, hg.inv.shape.region hv hr h⟩
  have hext : Mempool.ExtOK c g.s.pool.ranges g.s.mem m' := by
    refine ⟨?_, fun r hr x hx => ⟨.inl (hin x ⟨r, hr, hx⟩), hrd x ⟨r, hr, hx⟩⟩, fun x hx r hr => ?_⟩
    · intro a b h
      have h : (if inn (a * c.pg) then g.s.mem.src a else none) = some b := h
      show (if inn (b * c.pg) then g.s.mem.src b else none) = none
      split at h
      · rw [hg.inv.wf a b h]; simp
      · cases h
    · rw [hout x fun ⟨r, hr, h⟩ => hx r hr h]
      exact hx r hr
  refine ⟨m', hext, funext fun a => ?_⟩
  show mm a = m'.read c.pg a.toNat
  by_cases ha : inn a.toNat
  · rw [hrd _ ha]
    refine Classical.byContradiction fun h => ?_
    obtain ⟨r, hr, hx⟩ := ha
    exact hm a h r hr hx
  · unfold Verif.Mem.read
    rw [hout _ ha]
    show mm a = if inn a.toNat then _ else _
    rw [if_neg ha]
    simp

/-- A memory that differs from the pool's only in the item and outside the pool is reached by plain code. -/
theorem Writes.reach {g : Ghost} (hg : Hist c false g) (hp : p ∈ g.live) (mm : Rseq.Mem wb)
    (hm : ∀ a, mm a ≠ view c g.s.mem a → (∃ k, k < c.ncpu ∧ InItem c [p] k a.toNat) ∨ Outside c g a.toNat) :
    ∃ g', Writes c p g g' ∧ mm = view c g'.s.mem := by
  classical
  obtain ⟨g1, h1, e1⟩ := Stores.reach hg (one_live hp)
    (fun a => if Outside c g a.toNat then view c g.s.mem a else mm a) fun a ha => by
      split at ha
      · exact absurd rfl ha
      · next ho => exact (hm a ha).resolve_right ho
  have hw : Writes c p g g1 := .item .refl h1
  obtain ⟨i1, i2, i3⟩ := hw.hist hg hp
  obtain ⟨m2, h2, e2⟩ := ext_reach i1 mm fun a ha => by
    have := congrFun e1 a
    split at this
    · next ho => exact hw.outside hg hp ho
    · exact absurd this ha
  exact ⟨_, hw.other m2 h2, e2⟩

/-! ### The layout -/

variable {node : BitVec 32 → Nat → Rseq.W wb} {priv : Nat → Nat → Rseq.W wb → Prop}

theorem head_inside {g : Ghost} (hg : Hist c false g) (hp : p ∈ g.live) (hn : c.ncpu ≤ 2 ^ 32) {k : BitVec 32}
    (hk : k ∈ cpus c) {a : Rseq.W wb} (ha : Rseq.InWord (ctr c p 0 k) a) :
    (∃ i, i < c.ncpu ∧ InItem c [p] i a.toNat) ∧ ¬ Outside c g a.toNat := by
  have hk := (mem_cpus hn).1 hk
  have hl := hg.valid.item_ge
  obtain ⟨o, ho, e⟩ := inWord_ctr hg hp (off := 0) (by omega) hk ha
  refine ⟨⟨_, hk, p, .head _, 0 + o, by omega, e⟩, fun h => ?_⟩
  obtain ⟨r, hr, hx⟩ := in_region hg hp hk (o := 0 + o) (by omega)
  exact h r hr (e ▸ hx)

theorem layout_ok {g : Ghost} (hg : Hist c false g) (hp : p ∈ g.live) (hn : c.ncpu ≤ 2 ^ 32)
    (hH : Heap c g node B priv) : (listLayout be fld c p node B priv).OK where
  node0 := hH.nonnull
  head_head := ctr_disjoint hg hp hn (by have := hg.valid.item_ge; omega)
  next_next := by
    rintro x y a ⟨k, hk, j, h1, h2, rfl⟩ ⟨k', hk', j', h1', h2', rfl⟩ ha ha'
    obtain ⟨rfl, rfl⟩ := hH.apart k hk k' hk' j j' h1 h2 h1' h2' a (.inr ha) (.inr ha')
    rfl
  head_next := fun k hk x a hx ha h => (head_inside hg hp hn hk ha).2 (hH.node_out x a hx (.inr h))
  head_priv := fun k hk t d a ha h => (head_inside hg hp hn hk ha).2 (hH.priv_out t d a h)
  next_priv := fun x t d a hx ha => hH.node_priv x t d a hx (.inr ha)
  priv_priv := hH.priv_priv
  null_head := fun k hk a h ha => (head_inside hg hp hn hk ha).2 (hH.null_out a h)
  null_priv := hH.null_priv

theorem data_apart {g : Ghost} (hg : Hist c false g) (hp : p ∈ g.live) (hn : c.ncpu ≤ 2 ^ 32)
    (hH : Heap c g node B priv) : Rseq.DataApart (listLayout be fld c p node B priv) nodeData where
  head := fun k hk x a hx ha h => (head_inside hg hp hn hk ha).2 (hH.node_out x a hx (.inl h))
  priv := fun x t d a hx ha => hH.node_priv x t d a hx (.inl ha)

theorem data_next_word {x a : Rseq.W wb} (h1 : Rseq.InWord (x + nodeData) a) : ¬ Rseq.InWord (x + nodeNext) a := by
  unfold Rseq.InWord nodeData at h1
  unfold Rseq.InWord nodeNext
  rw [BitVec.add_zero] at h1
  have h2 : 2 * wb ≤ 2 ^ (8 * wb) := by rcases Abi.wb_eq with h | h <;> rw [h] <;> decide
  have h4 := wb_ge
  rw [← BitVec.sub_sub, BitVec.toNat_sub, BitVec.toNat_ofNat, Nat.mod_eq_of_lt (by omega : wb < 2 ^ (8 * wb)),
    Nat.mod_eq_of_lt (by omega)]
  omega

theorem nodes_ok {g : Ghost} (hH : Heap c g node B priv) :
    Rseq.ListNodesOK (listLayout be fld c p node B priv) nodeData node B where
  nodes := fun x => Iff.rfl
  inj := by
    intro k hk k' hk' j j' h1 h2 h1' h2' e
    have hx : InNode (node k j) (node k j + nodeData) := .inl (by unfold Rseq.InWord; simp; exact Verif.Mem.wb_pos)
    exact hH.apart k hk k' hk' j j' h1 h2 h1' h2' _ hx (by rw [← e]; exact hx)
  data_data := by
    rintro x y a ⟨k, hk, j, h1, h2, rfl⟩ ⟨k', hk', j', h1', h2', rfl⟩ ha ha'
    obtain ⟨rfl, rfl⟩ := hH.apart k hk k' hk' j j' h1 h2 h1' h2' a (.inl ha) (.inl ha')
    rfl
  data_next := by
    rintro x y a ⟨k, hk, j, h1, h2, rfl⟩ ⟨k', hk', j', h1', h2', rfl⟩ ha ha'
    obtain ⟨rfl, rfl⟩ := hH.apart k hk k' hk' j j' h1 h2 h1' h2' a (.inl ha) (.inr ha')
    exact data_next_word ha ha'

end Verif.Joint
