import Verif.RseqPool
import Verif.RseqSolo

/-!
C84: restartable sequences on items of a per-CPU pool.  The guarantees of the pool and those of the helpers hold
together on one memory: helpers and pool operations do not disturb each other, and a per-CPU counter obtained
from `rseq_mempool_percpu_zmalloc` counts exactly.
-/

namespace Verif.Joint

open Mempool (Config Ghost Hist cpuAddr InRegion)

variable [Abi]
variable {T : Nat → Rseq.Site wb} {Q : Nat → Rseq.Frame wb → Prop} {c : Config} {uaf : Bool} {I : List Nat}
  {N : Nat} {g0 : Ghost} {fld : Rseq.Fld}

/-- The call names a CPU the pool was made for and reads and writes nothing but the instances of the items `I`
for that CPU. -/
structure UsesItems (fld : Rseq.Fld) (c : Config) (I : List Nat) (be : Bool) (f : Rseq.Frame wb) : Prop where
  fld : f.fld = fld
  cpu : f.cpu.toNat < c.ncpu
  foot : ∀ m a, Rseq.opFoot be f.op m a → InItem c I f.cpu.toNat a.toNat

theorem UsesItems.fits {hd : ∀ i j x, i < c.ncpu → j < c.ncpu → InItem c I i x → InItem c I j x → i = j}
    {be : Bool} {t : Nat} {f : Rseq.Frame wb} (h : UsesItems fld c I be f) :
    Rseq.Fits (itemAreas fld c I hd) be t f :=
  ⟨fun m a ha => .inl ⟨h.fld, h.cpu, h.foot m a ha⟩, fun _ _ h => h, fun _ _ _ h => h⟩

theorem wb_ge : 4 ≤ wb := by rcases Abi.wb_eq with h | h <;> omega

/-- **C84, the machines fit together.**  In every joint execution the pool is in a state its own operations
reach (so C01-C19 hold), the items in use stay allocated, the helpers work on the memory of the pool, and their
execution is one in which nobody disturbs another thread's critical section (so C32-C36 hold). -/
theorem joint_sound (hg : Hist c uaf g0) (hI : ∀ p ∈ I, p ∈ g0.live)
    (hQ : ∀ t f, Q t f → UsesItems fld c I (T f.pid).prog.be f)
    {s : Rseq.State wb} {g : Ghost} {R : Rseq.W wb} (h : Reach T Q c uaf I N g0 s g R) :
    Hist c uaf g ∧ (∀ p ∈ I, p ∈ g.live) ∧ s.mem = view c g.s.mem ∧
    Rseq.OReach T (itemAreas fld c I (items_disjoint hg hI)) (view c g0.s.mem) s := by
  induction h with
  | init => exact ⟨hg, hI, rfl, .init⟩
  | helper h hs ht hl hi hst hm ih =>
    obtain ⟨i1, i2, -, i4⟩ := ih
    obtain ⟨j1, j2, -, -⟩ := hst.hist i1 i2
    exact ⟨j1, j2, hm, i4.step hs (fun f e => (hQ _ f (hi f e)).fits) fun e => absurd e hl⟩
  | @pool s g g' R t h hr htop ht hp ih =>
    obtain ⟨i1, i2, i3, i4⟩ := ih
    refine ⟨hp.hist i1, hp.live i2, rfl, i4.step (.user _ hr htop) (fun f e => by cases e) fun _ a ha => ?_⟩
    refine ⟨fun fl k hc => ha ?_, fun _ _ h => h, fun h => h⟩
    rw [i3]
    exact hp.keeps i1 i2 hc.2.1 hc.2.2

/-- **C84, what a helper can change.**  A step that is not one of the program's own stores changes memory only
inside the instances of the items in use for the CPU the running call names, and the thread is on that CPU: no other CPU's instance, no other
item, no free-list node, no init values, nothing outside the pool. -/
theorem joint_confined (hg : Hist c uaf g0) (hI : ∀ p ∈ I, p ∈ g0.live)
    (hQ : ∀ t f, Q t f → UsesItems fld c I (T f.pid).prog.be f)
    {s s' : Rseq.State wb} {g : Ghost} {R : Rseq.W wb} (h : Reach T Q c uaf I N g0 s g R) {t : Nat}
    {lab : Rseq.Lab wb} (hs : Rseq.Step T s t lab s') (hl : lab ≠ .user) (a : Rseq.W wb)
    (ha : s'.mem a ≠ s.mem a) :
    ∃ f, (s.th t).top = some f ∧ (s.th t).run = true ∧ (s.th t).kv fld = f.cpu ∧ f.cpu.toNat < c.ncpu ∧
      InItem c I f.cpu.toNat a.toNat := by
  have h4 := (joint_sound hg hI hQ h).2.2.2
  obtain ⟨p1, p2, -⟩ := h4.polite wb_ge
  have hInv := p1.inv wb_ge
  rcases Rseq.step_changes wb_ge hInv hs a ha with e | ⟨f, hf, hr, hz, hfo, -⟩
  · exact absurd e hl
  · rcases ((p2 t).1 f hf).foot _ a hfo with ⟨e1, e2, e3⟩ | hx | hx
    · refine ⟨f, hf, hr, ?_, e2, e3⟩
      rw [← e1]
      exact (Rseq.body_on wb_ge hInv hr hf hz).kv
    · exact hx.elim
    · exact hx.elim

/-- **C84, no execution is left out**: whatever step the helpers and the kernel can make on the memory of the
pool, the pool can follow. -/
theorem joint_total (hg : Hist c uaf g0) (hI : ∀ p ∈ I, p ∈ g0.live)
    (hQ : ∀ t f, Q t f → UsesItems fld c I (T f.pid).prog.be f)
    {s s' : Rseq.State wb} {g : Ghost} {R : Rseq.W wb} (h : Reach T Q c uaf I N g0 s g R) {t : Nat}
    {lab : Rseq.Lab wb} (hs : Rseq.Step T s t lab s') (hl : lab ≠ .user) (ht : t < N)
    (hi : ∀ f, lab = .invoke f → Q t f) : 
    ∃ g', g'.live = g.live ∧ Reach T Q c uaf I N g0 s' g' (counted lab (s.th t).top R) := by
  obtain ⟨i1, i2, i3, -⟩ := joint_sound hg hI hQ h
  obtain ⟨g', h1, h2⟩ := Stores.reach i1 i2 s'.mem fun a ha => by
    rw [← i3] at ha
    obtain ⟨f, -, -, -, h1, h2⟩ := joint_confined hg hI hQ h hs hl a ha
    exact ⟨_, h1, h2⟩
  exact ⟨g', (h1.hist i1 i2).2.2.1, .helper h hs ht hl hi h1 h2⟩

/-! ### Counters -/

/-- The address of the counter at offset `off` of item `p` for a CPU: `rseq_percpu_ptr(p, cpu)` plus the offset. -/
def ctr (c : Config) (p off : Nat) (k : BitVec 32) : Rseq.W wb := BitVec.ofNat (8 * wb) (cpuAddr c p k.toNat + off)

/-- The CPU numbers the pool was made for. -/
def cpus (c : Config) : List (BitVec 32) := (List.range c.ncpu).map (BitVec.ofNat 32)

/-- The calls of the program: increments, by any amount, of the counter of the CPU they name. -/
def Increments (fld : Rseq.Fld) (c : Config) (p off : Nat) (_ : Nat) (f : Rseq.Frame wb) : Prop :=
  f.fld = fld ∧ f.cpu.toNat < c.ncpu ∧ ∃ k, f.op = .addStore (ctr c p off f.cpu) k

theorem inWord_ctr {g : Ghost} (hg : Hist c uaf g) {p off : Nat} (hp : p ∈ g.live) (hoff : off + wb ≤ c.itemLen)
    {k : BitVec 32} (hk : k.toNat < c.ncpu) {a : Rseq.W wb} (ha : Rseq.InWord (ctr c p off k) a) :
    ∃ o, o < wb ∧ a.toNat = cpuAddr c p k.toNat + (off + o) := by
  have h4 := wb_ge
  have hx := item_lt hg hp hk (o := off + (wb - 1)) (by omega)
  have ha' : (a - ctr c p off k).toNat < wb := ha
  refine ⟨(a - ctr c p off k).toNat, ha', ?_⟩
  have e : a = (a - ctr c p off k) + ctr c p off k := (BitVec.sub_add_cancel _ _).symm
  generalize a - ctr c p off k = d at e ha'
  rw [e, BitVec.toNat_add, ctr, BitVec.toNat_ofNat, Nat.mod_eq_of_lt (a := cpuAddr c p k.toNat + off) (by omega),
    Nat.mod_eq_of_lt (by omega)]
  omega

theorem Increments.uses {g : Ghost} (hg : Hist c uaf g) {p off : Nat} (hp : p ∈ g.live)
    (hoff : off + wb ≤ c.itemLen) {t : Nat} {be : Bool} {f : Rseq.Frame wb} (h : Increments fld c p off t f) :
    UsesItems fld c [p] be f := by
  obtain ⟨h1, h2, k, h3⟩ := h
  refine ⟨h1, h2, fun m a ha => ?_⟩
  rw [h3] at ha
  obtain ⟨o, ho, e⟩ := inWord_ctr hg hp hoff h2 ha
  exact ⟨p, List.mem_singleton.2 rfl, off + o, by omega, e⟩

theorem mem_cpus (hn : c.ncpu ≤ 2 ^ 32) {k : BitVec 32} : k ∈ cpus c ↔ k.toNat < c.ncpu := by
  unfold cpus
  rw [List.mem_map]
  constructor
  · rintro ⟨i, hi, rfl⟩
    rw [BitVec.toNat_ofNat, Nat.mod_eq_of_lt (by have := List.mem_range.1 hi; omega)]
    exact List.mem_range.1 hi
  · intro h
    exact ⟨k.toNat, List.mem_range.2 h, by simp⟩

theorem nodup_cpus (hn : c.ncpu ≤ 2 ^ 32) : (cpus c).Nodup := by
  unfold cpus
  rw [List.nodup_iff_pairwise_ne, List.pairwise_map]
  refine List.Pairwise.imp_of_mem ?_ (List.nodup_iff_pairwise_ne.1 (List.nodup_range (n := c.ncpu)))
  intro i j hi hj hne e
  have := congrArg BitVec.toNat e
  simp only [BitVec.toNat_ofNat] at this
  rw [Nat.mod_eq_of_lt (by have := List.mem_range.1 hi; omega),
    Nat.mod_eq_of_lt (by have := List.mem_range.1 hj; omega)] at this
  exact hne this

theorem ctr_disjoint {g : Ghost} (hg : Hist c uaf g) {p off : Nat} (hp : p ∈ g.live) (hn : c.ncpu ≤ 2 ^ 32)
    (hoff : off + wb ≤ c.itemLen) : ∀ k ∈ cpus c, ∀ k' ∈ cpus c, ∀ a, Rseq.InWord (ctr c p off k) a →
      Rseq.InWord (ctr c p off k') a → k = k' := by
  intro k hk k' hk' a ha ha'
  have hk := (mem_cpus hn).1 hk
  have hk' := (mem_cpus hn).1 hk'
  obtain ⟨o, ho, e⟩ := inWord_ctr hg hp hoff hk ha
  obtain ⟨o', ho', e'⟩ := inWord_ctr hg hp hoff hk' ha'
  obtain ⟨h1, -⟩ := Mempool.addressing_injective hg p p (.inl hp) (.inl hp)
  exact BitVec.eq_of_toNat_eq (h1 _ _ _ _ hk hk' (by omega) (by omega) (e.symm.trans e')).2.1

theorem _root_.Verif.Rseq.CReach.cast {n : Nat} {T : Nat → Rseq.Site n} {ctr : BitVec 32 → Rseq.W n}
    {cpus : List (BitVec 32)} {m0 : Rseq.Mem n} {s : Rseq.State n} {R R' : Rseq.W n}
    (h : Rseq.CReach T fld ctr cpus N m0 s R) (e : R = R') : Rseq.CReach T fld ctr cpus N m0 s R' := e ▸ h

theorem reach_counters (hg : Hist c uaf g0) {p off : Nat} (hp : p ∈ g0.live) (hn : c.ncpu ≤ 2 ^ 32)
    (hoff : off + wb ≤ c.itemLen) {s : Rseq.State wb} {g : Ghost} {R : Rseq.W wb}
    (h : Reach T (Increments fld c p off) c uaf [p] N g0 s g R) :
    Rseq.CReach T fld (ctr c p off) (cpus c) N (view c g0.s.mem) s R := by
  have hI : ∀ q ∈ [p], q ∈ g0.live := fun q hq => by rw [List.mem_singleton.1 hq]; exact hp
  have hQ : ∀ t f, Increments fld c p off t f → UsesItems fld c [p] (T f.pid).prog.be f :=
    fun t f h => h.uses hg hp hoff
  induction h with
  | init => exact .init
  | helper h hs ht hl hi hst hm ih =>
    have := ih.step hs ht (fun f e => by
      obtain ⟨h1, h2, h3⟩ := hi f e
      exact ⟨h1, (mem_cpus hn).2 h2, h3⟩) fun e => absurd e hl
    refine this.cast ?_
    unfold counted
    split <;> split <;> first | rfl | simp_all
  | @pool s g g' R t h hr htop ht hps ih =>
    obtain ⟨i1, i2, i3, -⟩ := joint_sound hg hI hQ h
    refine ih.step (lab := .user) (.user _ hr htop) ht (fun f e => by cases e) fun _ k hk a ha => ?_
    have hk := (mem_cpus hn).1 hk
    obtain ⟨o, ho, e⟩ := inWord_ctr hg hp hoff hk ha
    show view c g'.s.mem a = s.mem a
    rw [i3]
    exact hps.keeps i1 i2 hk ⟨p, List.mem_singleton.2 rfl, off + o, by omega, e⟩

theorem ldw_zero {be : Bool} {m : Rseq.Mem wb} {a : Rseq.W wb} (h : ∀ x, Rseq.InWord a x → m x = 0#8) :
    Rseq.ldw be m a = 0#(8 * wb) := by
  rw [Rseq.ldw_agree (m' := fun _ => 0#8) h]
  have : ∀ k, Rseq.sumTo (fun i => (0#8).toNat * 256 ^ Rseq.pos be wb i) k = 0 := by
    intro k
    induction k with
    | zero => rfl
    | succ k ih => rw [Rseq.sumTo, ih]; simp
  rw [Rseq.ldw, this]

/-- **C84: a counter from the pool counts exactly.**  A thread gets `p` from `rseq_mempool_percpu_zmalloc`.  From
then on any number of threads, on any CPUs, preempted, migrated, interrupted by signals and aborted at any
moment, add to the word at offset `off` of the instance of `p` for the CPU they read, repeating calls that abort
as they like, while all of them allocate, free and write other items of the same pool.  Whenever no call is in
progress, the sum of the words over all CPUs is the sum of the amounts of the calls that returned 0. -/
theorem pool_counter_exact {be : Bool} (hbe : ∀ q, (T q).prog.be = be) {g : Ghost} (hg : Hist c uaf g)
    {env : Mempool.RangeEnv} (henv : Mempool.EnvOK c g.s.pool.ranges g.s.mem env) {p : Nat} {s0 : Mempool.State}
    (hz : Mempool.malloc c .zero env g.s = .ok (.ptr p, s0)) (hn : c.ncpu ≤ 2 ^ 32) {off : Nat}
    (hoff : off + wb ≤ c.itemLen) {s : Rseq.State wb} {g' : Ghost} {R : Rseq.W wb}
    (h : Reach T (Increments fld c p off) c uaf [p] N ⟨s0, p :: g.live, g.freed.erase p⟩ s g' R)
    (hq : ∀ t, t < N → (s.th t).top = none ∧ (s.th t).saved = []) :
    Rseq.lsum (fun k => Rseq.ldw be (view c g'.s.mem) (ctr c p off k)) (cpus c) = R := by
  have hg0 : Hist c uaf ⟨s0, p :: g.live, g.freed.erase p⟩ :=
    ⟨hg.valid, .step _ _ hg.reach (.mallocPtr g .zero env p s0 henv hz), hg.mode⟩
  have hp : p ∈ (⟨s0, p :: g.live, g.freed.erase p⟩ : Ghost).live := List.mem_cons_self
  have hI : ∀ q ∈ [p], q ∈ (⟨s0, p :: g.live, g.freed.erase p⟩ : Ghost).live :=
    fun q hq => by rw [List.mem_singleton.1 hq]; exact hp
  have hQ : ∀ t f, Increments fld c p off t f → UsesItems fld c [p] (T f.pid).prog.be f :=
    fun t f h => h.uses hg0 hp hoff
  have hm := (joint_sound hg0 hI hQ h).2.2.1
  have hfin := Rseq.counters_final wb_ge hbe (nodup_cpus hn) (ctr_disjoint hg0 hp hn hoff)
    (reach_counters hg0 hp hn hoff h) hq
  rw [hm] at hfin
  rw [hfin, Rseq.lsum_congr (fun _ => 0#(8 * wb)) _ (cpus c) ?_]
  · have : ∀ l : List (BitVec 32), Rseq.lsum (fun _ => 0#(8 * wb)) l = 0#(8 * wb) := by
      intro l
      induction l with
      | nil => rfl
      | cons a l ih => rw [Rseq.lsum, ih]; simp
    rw [this]; simp
  · intro k hk
    have hk := (mem_cpus hn).1 hk
    refine ldw_zero fun a ha => ?_
    obtain ⟨o, ho, e⟩ := inWord_ctr hg0 hp hoff hk ha
    show s0.mem.read c.pg a.toNat = 0#8
    rw [e]
    exact Mempool.zmalloc_zero hg env henv p s0 hz k.toNat (off + o) hk (by omega)

end Verif.Joint

namespace Verif.Joint

open Mempool (Config Ghost Hist cpuAddr exRobust)
attribute [local instance] le64

/-! ### Example -/

/-- `rseq_load_add_store__ptr` on x86-64. -/
def exCtrSite : Rseq.Site wb where
  arch := .x86_64
  kind := .addStore
  rel := false
  be := false
  al := Rseq.exAl
  csa := 0x8000#64
  prog := Rseq.x86_64_addStore Rseq.exAl false 0x8000#64
  ok := rfl

/-- A robust COW_INIT pool with two live items and a freed one.  A thread gets the freed one from zmalloc, starts
on CPU 1, registers, adds 5 to the second word of its instance of the item, and then frees another item.  The
hypotheses of the theorems hold with two CPUs, and the count is 5. -/
theorem ex_joint : ∃ (g : Ghost) (p : Nat) (s0 : Mempool.State) (s : Rseq.State wb) (g' : Ghost),
    Hist exRobust false g ∧ Mempool.malloc exRobust .zero { base := none } g.s = .ok (.ptr p, s0) ∧
    Reach (fun _ => exCtrSite) (Increments .cpuId exRobust p 8) exRobust false [p] 1
      ⟨s0, p :: g.live, g.freed.erase p⟩ s g' 5#64 ∧
    (∀ t, t < 1 → (s.th t).top = none ∧ (s.th t).saved = []) ∧ g.live.length = 2 ∧ g'.live.length = 2 ∧
    Rseq.lsum (fun k => Rseq.ldw false (view exRobust g'.s.mem) (ctr exRobust p 8 k)) (cpus exRobust) = 5#64 := by
  obtain ⟨g, p, hg, hlen, hf⟩ := Mempool.ex_hist (uaf := false) Mempool.exRobust_valid (fun h => by cases h)
    (.inr (by decide)) (by decide) (by decide)
  obtain ⟨s0, hz⟩ := Mempool.malloc_reuses_freed hg _ (Mempool.ex_env ..) .zero (by decide) p [] hf
  have hg0 : Hist exRobust false ⟨s0, p :: g.live, g.freed.erase p⟩ :=
    ⟨hg.valid, .step _ _ hg.reach (.mallocPtr g .zero _ p s0 (Mempool.ex_env ..) hz), hg.mode⟩
  have hp : p ∈ (⟨s0, p :: g.live, g.freed.erase p⟩ : Ghost).live := List.mem_cons_self
  have hI : ∀ q ∈ [p], q ∈ (⟨s0, p :: g.live, g.freed.erase p⟩ : Ghost).live :=
    fun q hq => by rw [List.mem_singleton.1 hq]; exact hp
  have hQ : ∀ t f, Increments .cpuId exRobust p 8 t f →
      UsesItems .cpuId exRobust [p] ((fun _ => exCtrSite : Nat → Rseq.Site wb) f.pid).prog.be f :=
    fun t f h => h.uses hg0 hp (by decide)
  generalize hG : (⟨s0, p :: g.live, g.freed.erase p⟩ : Ghost) = G at *
  have hGl : G.live.length = 3 := by rw [← hG]; simp [hlen]
  -- thread 0 starts on CPU 1 and registers
  have h0 : Reach (fun _ => exCtrSite) (Increments .cpuId exRobust p 8) exRobust false [p] 1 G _ _ _ := .init
  have h1 := h0.helper (Rseq.Step.resume (t := 0) 1#32 0#32 rfl (by intro u _ h; simp [Rseq.thread0] at h))
    (by decide) (by simp) (by intro f e; cases e) .refl rfl
  have h2 := h1.helper (Rseq.Step.register (t := 0) (by simp [Rseq.State.set, Rseq.upd])
    (by simp [Rseq.State.set, Rseq.upd, Rseq.fixTop, Rseq.thread0])
    (by simp [Rseq.State.set, Rseq.upd, Rseq.thread0]) (by simp [Rseq.State.set, Rseq.upd, Rseq.thread0]))
    (by decide) (by simp) (by intro f e; cases e) .refl rfl
  simp only [counted] at h2
  generalize hs2 : Rseq.State.set _ _ _ = s2 at h2
  have k1 : (s2.th 0).run = true := by rw [← hs2]; simp [Rseq.State.set, Rseq.upd]
  have k2 : (s2.th 0).top = none := by rw [← hs2]; simp [Rseq.State.set, Rseq.upd, Rseq.fixTop, Rseq.thread0]
  have k3 : (s2.th 0).reg = true := by rw [← hs2]; simp [Rseq.State.set, Rseq.upd]
  have k4 : (s2.th 0).fv .cpuId = 1#32 := by rw [← hs2]; simp [Rseq.State.set, Rseq.upd, Rseq.Thread.fv]
  have k5 : (s2.th 0).saved = [] := by rw [← hs2]; simp [Rseq.State.set, Rseq.upd, Rseq.thread0]
  -- the call
  obtain ⟨s3, cs, ⟨g3, hl3, h3⟩, e3, -⟩ := Rseq.alone_call (T := fun _ => exCtrSite)
    (P := fun s => ∃ g, g.live = G.live ∧
      Reach (fun _ => exCtrSite) (Increments .cpuId exRobust p 8) exRobust false [p] 1 G s g 0#64)
    (Q := fun s => ∃ g, g.live = G.live ∧
      Reach (fun _ => exCtrSite) (Increments .cpuId exRobust p 8) exRobust false [p] 1 G s g 5#64)
    wb_ge (t := 0) (s := s2) 0 .cpuId 1#32 (.addStore (ctr exRobust p 8 1#32) 5#64) rfl rfl trivial trivial
    k1 k2 k3 0 _ (by rw [if_pos k4]; rfl)
    (fun s' hs => by
      obtain ⟨g', hl, h'⟩ := joint_total hg0 hI hQ h2 hs (by simp) (by decide) (by
        intro f e
        cases e
        exact ⟨rfl, by show (1#32).toNat < 2; decide, 5#64, rfl⟩)
      exact ⟨g', hl, h'⟩)
    (fun s s' ⟨g1, hl1, h1⟩ hs => by
      obtain ⟨g', hl, h'⟩ := joint_total hg0 hI hQ h1 hs (by simp) (by decide) (by intro f e; cases e)
      exact ⟨g', hl.trans hl1, h'⟩)
    (fun s s' f ⟨g1, hl1, h1⟩ ht hpc hop _ _ _ hs => by
      obtain ⟨g', hl, h'⟩ := joint_total hg0 hI hQ h1 hs (by simp) (by decide) (by intro f e; cases e)
      rw [ht] at h'
      simp only [counted, hpc, if_pos, hop, Rseq.Op.count] at h'
      exact ⟨g', hl.trans hl1, h'⟩)
  -- another item is freed
  obtain ⟨i1, i2, -, -⟩ := joint_sound hg0 hI hQ h3
  obtain ⟨q, hq, hqp⟩ : ∃ q ∈ g3.live, q ≠ p := by
    rw [hl3, ← hG]
    obtain ⟨a, l, e⟩ : ∃ a l, g.live = a :: l := by
      cases h : g.live with
      | nil => rw [h] at hlen; cases hlen
      | cons a l => exact ⟨a, l, rfl⟩
    refine ⟨a, by simp [e], ?_⟩
    have := (Mempool.live_disjoint hg0).1
    rw [← hG] at this
    intro e'
    rw [e, e'] at this
    exact (List.nodup_cons.1 this).1 List.mem_cons_self
  obtain ⟨s4, hfree, -⟩ := Mempool.free_keeps_live i1 q hq
  have h4 := h3.pool (t := 0) (by rw [e3]; simp [Rseq.upd, k1]) (by rw [e3]; simp [Rseq.upd, k2]) (by decide)
    (.free g3 q s4 hq (by simp [hqp]) hfree)
  have hquiet : ∀ t, t < 1 → ((⟨view exRobust s4.mem, s3.th⟩ : Rseq.State wb).th t).top = none ∧
      ((⟨view exRobust s4.mem, s3.th⟩ : Rseq.State wb).th t).saved = [] := by
    intro t ht
    have : t = 0 := by omega
    subst this
    rw [show (⟨view exRobust s4.mem, s3.th⟩ : Rseq.State wb).th = s3.th from rfl, e3]
    simp [Rseq.upd, k2, k5]
  refine ⟨g, p, s0, _, ⟨s4, g3.live.erase q, q :: g3.freed⟩, hg, hz, ?_, hquiet, hlen, ?_, ?_⟩
  · rw [hG]; exact h4
  · show (g3.live.erase q).length = 2
    rw [List.length_erase_of_mem hq, hl3, hGl]
  · rw [← hG] at h4
    exact pool_counter_exact (T := fun _ => exCtrSite) (fun _ => rfl) hg (Mempool.ex_env ..) hz (by decide) (by decide) h4 hquiet

end Verif.Joint
