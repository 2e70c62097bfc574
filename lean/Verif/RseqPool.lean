import Verif.RseqCounter
import Verif.MempoolProps

/-!
Restartable sequences working on items of a per-CPU pool: the machine of `Verif.RseqConc` (threads, CPUs,
signals, the kernel's abort rule, the helpers of `include/rseq/arch/*`) and the pool of `Verif.Mempool`
(`src/rseq-mempool.c`) run together on one memory.

The memory the helpers see is the memory of the pool model looked at through its page mapping (`view`).  A set
`I` of live items is used through the helpers at `rseq_percpu_ptr(p, cpu)` (mempool.h:61-65); everything else
happens to the pool meanwhile: allocations of any kind, frees and stores of all other items, new ranges, other
pools and the rest of the program.

Simplifications: an operation of the pool is one step here (that every interleaving of pool operations with
stores of other threads amounts to this is C27, `Verif.PoolConc`); a store of a helper is a sequence of byte
stores to the items, each of which may fault in a private page (COW), as in `Mempool.Step.store`.
-/

namespace Verif.Joint

open Mempool (Config Ghost Hist cpuAddr InRegion)

variable [Abi]

/-- What a thread sees at each address. -/
def view (c : Config) (m : Verif.Mem) : Rseq.Mem wb := fun a => m.read c.pg a.toNat

/-- Byte `x` belongs to the instance of an item of `I` for the CPU `k`. -/
def InItem (c : Config) (I : List Nat) (k x : Nat) : Prop :=
  ∃ p ∈ I, ∃ o, o < c.itemLen ∧ x = cpuAddr c p k + o

/-- Something happens to the pool or elsewhere that leaves the items `I` alone: any allocation, the release of
another item, a store to another item (also to a freed one if the program does that), any other code. -/
inductive PoolStep (c : Config) (uaf : Bool) (I : List Nat) : Ghost → Ghost → Prop where
  | mallocPtr (g : Ghost) (fill : Mempool.Fill) (env : Mempool.RangeEnv) (p : Nat) (s' : Mempool.State)
      (henv : Mempool.EnvOK c g.s.pool.ranges g.s.mem env)
      (h : Mempool.malloc c fill env g.s = .ok (.ptr p, s')) :
      PoolStep c uaf I g ⟨s', p :: g.live, g.freed.erase p⟩
  | mallocNull (g : Ghost) (fill : Mempool.Fill) (env : Mempool.RangeEnv) (e : Mempool.Errno) (s' : Mempool.State)
      (henv : Mempool.EnvOK c g.s.pool.ranges g.s.mem env)
      (h : Mempool.malloc c fill env g.s = .ok (.null e, s')) :
      PoolStep c uaf I g ⟨s', g.live, g.freed⟩
  | free (g : Ghost) (p : Nat) (s' : Mempool.State) (hp : p ∈ g.live) (hI : p ∉ I)
      (h : Mempool.free c p g.s = .ok s') :
      PoolStep c uaf I g ⟨s', g.live.erase p, p :: g.freed⟩
  | store (g : Ghost) (p cpu o : Nat) (b : Byte) (hI : p ∉ I)
      (hp : p ∈ g.live ∨ (uaf = true ∧ p ∈ g.freed)) (hcpu : cpu < c.ncpu) (ho : o < c.itemLen) :
      PoolStep c uaf I g ⟨Mempool.store c (cpuAddr c p cpu + o) b g.s, g.live, g.freed⟩
  | ext (g : Ghost) (m' : Verif.Mem) (h : Mempool.ExtOK c g.s.pool.ranges g.s.mem m') :
      PoolStep c uaf I g ⟨{ g.s with mem := m' }, g.live, g.freed⟩

/-- Some byte stores to instances of the items `I`. -/
inductive Stores (c : Config) (I : List Nat) (g : Ghost) : Ghost → Prop where
  | refl : Stores c I g g
  | tail {g' : Ghost} (h : Stores c I g g') (p cpu o : Nat) (b : Byte) (hp : p ∈ I) (hcpu : cpu < c.ncpu)
      (ho : o < c.itemLen) :
      Stores c I g ⟨Mempool.store c (cpuAddr c p cpu + o) b g'.s, g'.live, g'.freed⟩

/-- The amount of a call counts when it returns 0. -/
def counted (lab : Rseq.Lab wb) (top : Option (Rseq.Frame wb)) (R : Rseq.W wb) : Rseq.W wb :=
  match lab, top with
  | .ret, some f => if f.l.pc = .ret 0 then R + f.op.count else R
  | _, _ => R

/-- The executions of at most `N` threads that call helpers as `Q` says and use the pool otherwise, from the
state `g0` of the pool.  The last argument is the sum of the amounts of all `rseq_load_add_store` calls that
have returned 0 so far. -/
inductive Reach (T : Nat → Rseq.Site wb) (Q : Nat → Rseq.Frame wb → Prop) (c : Config) (uaf : Bool)
    (I : List Nat) (N : Nat) (g0 : Ghost) : Rseq.State wb → Ghost → Rseq.W wb → Prop
  | init : Reach T Q c uaf I N g0 { mem := view c g0.s.mem, th := fun _ => Rseq.thread0 } g0 0#(8 * wb)
  | helper {s s' : Rseq.State wb} {g g' : Ghost} {R : Rseq.W wb} {t : Nat} {lab : Rseq.Lab wb}
      (h : Reach T Q c uaf I N g0 s g R) (hs : Rseq.Step T s t lab s') (ht : t < N) (hl : lab ≠ .user)
      (hi : ∀ f, lab = .invoke f → Q t f) (hst : Stores c I g g') (hm : s'.mem = view c g'.s.mem) :
      Reach T Q c uaf I N g0 s' g' (counted lab (s.th t).top R)
  | pool {s : Rseq.State wb} {g g' : Ghost} {R : Rseq.W wb} {t : Nat}
      (h : Reach T Q c uaf I N g0 s g R) (hr : (s.th t).run = true) (htop : (s.th t).top = none) (ht : t < N)
      (hp : PoolStep c uaf I g g') :
      Reach T Q c uaf I N g0 { s with mem := view c g'.s.mem } g' R

variable {c : Config} {uaf : Bool} {I : List Nat}

/-! ### Pool steps -/

theorem PoolStep.step {g g' : Ghost} (h : PoolStep c uaf I g g') : Mempool.Step c uaf g g' := by
  cases h with
  | mallocPtr fill env p s' henv h => exact .mallocPtr _ fill env p s' henv h
  | mallocNull fill env e s' henv h => exact .mallocNull _ fill env e s' henv h
  | free p s' hp hI h => exact .free _ p s' hp h
  | store p cpu o b hI hp hcpu ho => exact .store _ p cpu o b hp hcpu ho
  | ext m' h => exact .ext _ m' h

theorem PoolStep.hist {g g' : Ghost} (hg : Hist c uaf g) (h : PoolStep c uaf I g g') : Hist c uaf g' :=
  ⟨hg.valid, .step g g' hg.reach h.step, hg.mode⟩

theorem PoolStep.live {g g' : Ghost} (hI : ∀ p ∈ I, p ∈ g.live) (h : PoolStep c uaf I g g') :
    ∀ p ∈ I, p ∈ g'.live := by
  intro q hq
  have := hI q hq
  cases h with
  | mallocPtr => exact List.mem_cons_of_mem _ this
  | mallocNull => exact this
  | free p s' hp hn h => exact (List.mem_erase_of_ne fun e => hn (by rw [← e]; exact hq)).2 this
  | store => exact this
  | ext => exact this

/-- Every byte of a pool address is below the end of the address space. -/
theorem item_lt {g : Ghost} (hg : Hist c uaf g) {p k o : Nat} (hp : p ∈ g.live) (hk : k < c.ncpu)
    (ho : o < c.itemLen) : cpuAddr c p k + o < 2 ^ (8 * wb) := by
  obtain ⟨-, r, hr, -, -, h3, h4⟩ := Mempool.live_inside hg p hp
  obtain ⟨-, h6, -, h7⟩ := h4 k hk
  have := (hg.inv.ranges.each r hr).top
  omega

theorem in_region {g : Ghost} (hg : Hist c uaf g) {p k o : Nat} (hp : p ∈ g.live) (hk : k < c.ncpu)
    (ho : o < c.itemLen) : ∃ r ∈ g.s.pool.ranges, InRegion c r.base (cpuAddr c p k + o) := by
  obtain ⟨-, ⟨r, hr, h, -⟩, -⟩ := Mempool.addressing_injective hg p p (.inl hp) (.inl hp)
  exact ⟨r, hr, h k o hk ho⟩

/-- A store to a live item is seen at its own address only, in the whole address space. -/
theorem store_read {g : Ghost} (hg : Hist c uaf g) {p k o : Nat} (hp : p ∈ g.live) (hk : k < c.ncpu)
    (ho : o < c.itemLen) (b : Byte) (x : Nat) :
    (Mempool.store c (cpuAddr c p k + o) b g.s).mem.read c.pg x =
      if x = cpuAddr c p k + o then b else g.s.mem.read c.pg x := by
  obtain ⟨h1, h2⟩ := Mempool.store_isolated hg p k o hp hk ho b
  split
  · next e => rw [e]; exact h1
  · next e =>
    by_cases hx : ∃ r ∈ g.s.pool.ranges, InRegion c r.base x
    · obtain ⟨r, hr, hx⟩ := hx
      exact h2 r hr x hx e
    · refine Verif.Mem.read_write_frame hg.valid.pg_pos hg.inv.wf e ?_
      intro e'
      obtain ⟨r, hr, hin⟩ := in_region hg hp hk ho
      refine hg.inv.shape.outside x (fun r hr hx' => hx ⟨r, hr, hx'⟩) r hr ?_
      rw [e']; exact hin

/-- **C05 and C06 for the joint machine**: what happens to the pool does not touch the items in use. -/
theorem PoolStep.keeps {g g' : Ghost} (hg : Hist c uaf g) (hI : ∀ p ∈ I, p ∈ g.live) (h : PoolStep c uaf I g g')
    {k x : Nat} (hk : k < c.ncpu) (hx : InItem c I k x) : g'.s.mem.read c.pg x = g.s.mem.read c.pg x := by
  obtain ⟨q, hq, o, ho, rfl⟩ := hx
  have hl := hI q hq
  cases h with
  | mallocPtr fill env p s' henv h => exact Mempool.malloc_keeps_live hg env henv fill _ s' h q hl k o hk ho
  | mallocNull fill env e s' henv h => exact Mempool.malloc_keeps_live hg env henv fill _ s' h q hl k o hk ho
  | free p s' hp hn h =>
    obtain ⟨s1, e, h1⟩ := Mempool.free_keeps_live hg p hp
    rw [h] at e
    cases e
    exact h1 q hl (fun e => hn (by rw [← e]; exact hq)) k o hk ho
  | store p cpu o' b hn hp hcpu ho' =>
    have hne : cpuAddr c q k + o ≠ cpuAddr c p cpu + o' := by
      intro e
      obtain ⟨h1, -⟩ := Mempool.addressing_injective hg q p (.inl hl) (hp.elim .inl fun h => .inr h.2)
      obtain ⟨e, -⟩ := h1 k cpu o o' hk hcpu ho ho' e
      exact hn (by rw [← e]; exact hq)
    rcases hp with hp | ⟨hu, hp⟩
    · have := store_read hg hp hcpu ho' b (cpuAddr c q k + o)
      rw [if_neg hne] at this
      exact this
    · refine Verif.Mem.read_write_frame hg.valid.pg_pos hg.inv.wf hne ?_
      have hi := hg.inv
      have hn' := Mempool.ncpu_le_nCols c
      have hqp : q ≠ p := fun e => hn (by rw [← e]; exact hq)
      unfold cpuAddr at hne ⊢
      rcases hi.shape.slot (hi.slotL hl) (col := k) (by omega) ho with e | ⟨hcow, -, e⟩
      · rw [e]; exact hne
      · rw [e]
        exact Mempool.slot_disj hi.ranges (hi.slotL hl) (hi.slotF hp) hqp (Mempool.initCol_lt hcow) (by omega) ho ho'
  | ext m' h =>
    obtain ⟨r, hr, hin⟩ := in_region hg hl hk ho
    exact (h.inside r hr _ hin).2

/-! ### Stores of the helpers -/

theorem Stores.hist {g g' : Ghost} (hg : Hist c uaf g) (hI : ∀ p ∈ I, p ∈ g.live) (h : Stores c I g g') :
    Hist c uaf g' ∧ (∀ p ∈ I, p ∈ g'.live) ∧ g'.live = g.live ∧ g'.freed = g.freed := by
  induction h with
  | refl => exact ⟨hg, hI, rfl, rfl⟩
  | @tail g' h p cpu o b hp hcpu ho ih =>
    obtain ⟨h1, h2, h3, h4⟩ := ih
    exact ⟨⟨h1.valid, .step _ _ h1.reach (.store _ p cpu o b (.inl (h2 p hp)) hcpu ho), h1.mode⟩, h2, h3, h4⟩

theorem Stores.trans {g g' g'' : Ghost} (h : Stores c I g g') (h' : Stores c I g' g'') : Stores c I g g'' := by
  induction h' with
  | refl => exact h
  | tail h' p cpu o b hp hcpu ho ih => exact ih.tail p cpu o b hp hcpu ho

/-- Any new content can be given to the items: the stores to the listed bytes. -/
theorem Stores.fill {g : Ghost} (hg : Hist c uaf g) (hI : ∀ p ∈ I, p ∈ g.live) (w : Nat → Byte) :
    ∀ l : List (Nat × Nat × Nat), (∀ e ∈ l, e.1 ∈ I ∧ e.2.1 < c.ncpu ∧ e.2.2 < c.itemLen) →
    ∃ g', Stores c I g g' ∧ ∀ x, g'.s.mem.read c.pg x =
      if ∃ e ∈ l, x = cpuAddr c e.1 e.2.1 + e.2.2 then w x else g.s.mem.read c.pg x := by
  intro l
  induction l with
  | nil => intro _; exact ⟨g, .refl, fun x => by simp⟩
  | cons e l ih =>
    intro hl
    obtain ⟨g', h1, h2⟩ := ih fun e he => hl e (List.mem_cons_of_mem _ he)
    obtain ⟨k1, k2, k3⟩ := hl e List.mem_cons_self
    obtain ⟨i1, i2, -⟩ := h1.hist hg hI
    refine ⟨_, h1.tail e.1 e.2.1 e.2.2 (w (cpuAddr c e.1 e.2.1 + e.2.2)) k1 k2 k3, fun x => ?_⟩
    show (Mempool.store c _ _ g'.s).mem.read c.pg x = _
    rw [store_read i1 (i2 _ k1) k2 k3, h2 x]
    by_cases hx : x = cpuAddr c e.1 e.2.1 + e.2.2
    · rw [if_pos hx, if_pos ⟨e, List.mem_cons_self, hx⟩, hx]
    · rw [if_neg hx]
      have : (∃ e' ∈ l, x = cpuAddr c e'.1 e'.2.1 + e'.2.2) ↔
          ∃ e' ∈ e :: l, x = cpuAddr c e'.1 e'.2.1 + e'.2.2 := by
        constructor
        · rintro ⟨e', h, h'⟩; exact ⟨e', List.mem_cons_of_mem _ h, h'⟩
        · rintro ⟨e', h, h'⟩
          rcases List.mem_cons.1 h with rfl | h
          · exact absurd h' hx
          · exact ⟨e', h, h'⟩
      simp only [this]

/-- A memory that differs from the pool's only in the items is reached by stores to them. -/
theorem Stores.reach {g : Ghost} (hg : Hist c uaf g) (hI : ∀ p ∈ I, p ∈ g.live) (m : Rseq.Mem wb)
    (hm : ∀ a, m a ≠ view c g.s.mem a → ∃ k, k < c.ncpu ∧ InItem c I k a.toNat) :
    ∃ g', Stores c I g g' ∧ m = view c g'.s.mem := by
  let l : List (Nat × Nat × Nat) :=
    I.flatMap fun p => (List.range c.ncpu).flatMap fun k => (List.range c.itemLen).map fun o => (p, k, o)
  have hmem : ∀ e, e ∈ l ↔ e.1 ∈ I ∧ e.2.1 < c.ncpu ∧ e.2.2 < c.itemLen := by
    rintro ⟨p, k, o⟩
    simp only [l, List.mem_flatMap, List.mem_range, List.mem_map, Prod.mk.injEq]
    constructor
    · rintro ⟨p', h1, k', h2, o', h3, rfl, rfl, rfl⟩; exact ⟨h1, h2, h3⟩
    · rintro ⟨h1, h2, h3⟩; exact ⟨p, h1, k, h2, o, h3, rfl, rfl, rfl⟩
  obtain ⟨g', h1, h2⟩ := Stores.fill hg hI (fun x => m (BitVec.ofNat (8 * wb) x)) l fun e he => (hmem e).1 he
  refine ⟨g', h1, funext fun a => ?_⟩
  show m a = g'.s.mem.read c.pg a.toNat
  rw [h2]
  split
  · simp
  · next hn =>
    apply Classical.byContradiction
    intro hne
    obtain ⟨k, hk, p, hp, o, ho, e⟩ := hm a hne
    exact hn ⟨(p, k, o), (hmem _).2 ⟨hp, hk, ho⟩, e⟩

/-! ### The division of memory -/

/-- Items of one pool divide memory among the CPUs. -/
def itemAreas (fld : Rseq.Fld) (c : Config) (I : List Nat)
    (hd : ∀ i j x, i < c.ncpu → j < c.ncpu → InItem c I i x → InItem c I j x → i = j) : Rseq.Areas wb where
  cpu fl k a := fl = fld ∧ k.toNat < c.ncpu ∧ InItem c I k.toNat a.toNat
  priv _ _ := False
  ro _ := False
  cpu_cpu fl k fl' k' a h h' := ⟨h.1.trans h'.1.symm, BitVec.eq_of_toNat_eq (hd _ _ _ h.2.1 h'.2.1 h.2.2 h'.2.2)⟩
  cpu_priv _ _ _ _ _ h := h
  priv_priv _ _ _ h := h.elim
  ro_cpu _ _ _ h := h.elim
  ro_priv _ _ h := h.elim

theorem items_disjoint {g : Ghost} (hg : Hist c uaf g) (hI : ∀ p ∈ I, p ∈ g.live) :
    ∀ i j x, i < c.ncpu → j < c.ncpu → InItem c I i x → InItem c I j x → i = j := by
  rintro i j x hi hj ⟨p, hp, o, ho, e⟩ ⟨q, hq, o', ho', e'⟩
  obtain ⟨h1, -⟩ := Mempool.addressing_injective hg p q (.inl (hI p hp)) (.inl (hI q hq))
  exact (h1 i j o o' hi hj ho ho' (e.symm.trans e')).2.1

end Verif.Joint
