import Verif.MempoolCreateProps
import Verif.MempoolMultiProps
/-
C72: global pools (`rseq_mempool_attr_set_global`) used through the wrappers of include/rseq/mempool.h:178-209 and
259-260, "used directly without per-cpu indexing". The wrappers cast the pointer of the per-CPU functions; the caller's
address `p + o` is used as it is, there is no `rseq_percpu_ptr`.
-/
namespace Verif.Mempool
open Verif Verif.Mem

variable [Abi]

/-- `rseq_mempool_malloc` (178-181), `rseq_mempool_zmalloc` (191-194), `rseq_mempool_malloc_init` (204-208), according to
the fill. -/
def globalMalloc (c : Config) (fill : Fill) (env : RangeEnv) (s : State) : Outcome (Ret × State) := malloc c fill env s

/-- `rseq_mempool_free(p)` / `rseq_mempool_free(p, stride)` (259-260). -/
def globalFree (p : Nat) (stride : Option Nat) (w : World) : Outcome (Entry × State) :=
  wfree p (stride.getD 65536) w

/-- The byte at an address that a caller uses directly. -/
def direct (c : Config) (s : State) (a : Nat) : Byte := s.mem.read c.pg a

/-- A pool created as a global one. -/
structure GlobalPool (c : Config) (g : Ghost) : Prop where
  hist : Hist c false g
  made : ∃ attr len pg detected ca na env m s, (len : Word).toNat ≤ 2 ^ (8 * wb - 1) ∧
    ((attr : Option Attr).getD {}).type = .global ∧ create attr len pg detected ca na env m = .pool c s

theorem GlobalPool.cfg {c : Config} {g : Ghost} (h : GlobalPool c g) : c.global = true ∧ c.ncpu = 1 ∧ c.cow = false := by
  obtain ⟨attr, len, pg, detected, ca, na, env, m, s, hlen, ht, hc⟩ := h.made
  obtain ⟨k, _, _, _, hp, _⟩ := create_validates attr len hlen pg detected ca na env m
  obtain ⟨hcr, _, _⟩ := hp c s hc
  have hg := hcr.global.2 ht
  exact ⟨hg, (h.hist.valid.global_zero hg).2, (h.hist.valid.global_zero hg).1⟩

theorem global_len {c : Config} {g : Ghost} (h : GlobalPool c g) : c.stride ≤ rangeLen c := by
  rw [rangeLen_eq]
  have := ncpu_le_nCols c
  have h2 := Nat.mul_le_mul_left c.stride (show 1 ≤ c.nCols by have := h.cfg.2.1; omega)
  omega

theorem cpuAddr_zero (c : Config) (p : Nat) : cpuAddr c p 0 = p := by simp [cpuAddr]

/-- C72: the items are disjoint blocks of item size, aligned on it, and can be used directly: the pool has no other
instance of them, and no page of it is shared or copied on write. -/
theorem global_items {c : Config} {g : Ghost} (h : GlobalPool c g) :
    c.ncpu = 1 ∧ c.cow = false ∧ g.live.Nodup ∧
    (∀ p ∈ g.live, c.itemLen ∣ p ∧ ∃ r ∈ g.s.pool.ranges, r.init = none ∧ r.base + c.stride ≤ r.mmapAddr + r.mmapLen ∧
      r.base ≤ p ∧ p + c.itemLen ≤ r.base + c.stride) ∧
    ∀ p ∈ g.live, ∀ q ∈ g.live, p ≠ q → p + c.itemLen ≤ q ∨ q + c.itemLen ≤ p := by
  obtain ⟨hg, h1, hcow⟩ := h.cfg
  obtain ⟨hn, hd⟩ := live_disjoint h.hist
  refine ⟨h1, hcow, hn, fun p hp => ?_, fun p hp q hq hne => ?_⟩
  · obtain ⟨hal, r, hr, _, hinit, hm, hcpu⟩ := live_inside h.hist p hp
    obtain ⟨a, b, _, _⟩ := hcpu 0 (by omega)
    rw [cpuAddr_zero] at a b
    refine ⟨hal, r, hr, ?_, ?_, by omega, by simpa using b⟩
    · have := (h.hist.inv.ranges.each r hr).init_eq
      rw [this, if_neg (by simp [hcow])]
    · have hl := global_len h
      omega
  · have hpos : 0 < c.itemLen := by unfold Config.itemLen; exact Nat.two_pow_pos _
    rcases Nat.lt_or_ge p q with hlt | hge
    · left
      rcases Nat.lt_or_ge q (p + c.itemLen) with hx | hx
      · exact absurd (by rw [cpuAddr_zero, cpuAddr_zero]; omega)
          (hd p hp q hq 0 0 (by omega) (by omega) (by simp [hne]) (q - p) 0 (by omega) hpos)
      · exact hx
    · right
      rcases Nat.lt_or_ge p (q + c.itemLen) with hx | hx
      · exact absurd (by rw [cpuAddr_zero, cpuAddr_zero]; omega)
          (hd p hp q hq 0 0 (by omega) (by omega) (by simp [hne]) 0 (p - q) hpos (by omega))
      · exact hx

/-- C72: what a new item holds, and that the other items keep their content. -/
theorem global_malloc {c : Config} {g : Ghost} (h : GlobalPool c g) (env : RangeEnv)
    (henv : EnvOK c g.s.pool.ranges g.s.mem env) (fill : Fill) (p : Nat) (s' : State)
    (hm : globalMalloc c fill env g.s = .ok (.ptr p, s')) :
    GlobalPool c ⟨s', p :: g.live, g.freed.erase p⟩ ∧ p ∉ g.live ∧
    (fill = .zero → ∀ o, o < c.itemLen → direct c s' (p + o) = 0#8) ∧
    (∀ f len, fill = .init f len → len ≤ c.itemLen ∧ ∀ o, o < len → direct c s' (p + o) = f o) ∧
    ∀ q ∈ g.live, ∀ o, o < c.itemLen → direct c s' (q + o) = direct c g.s (q + o) := by
  obtain ⟨hg, h1, hcow⟩ := h.cfg
  have hm' : malloc c fill env g.s = .ok (.ptr p, s') := hm
  have hnew : GlobalPool c ⟨s', p :: g.live, g.freed.erase p⟩ :=
    ⟨⟨h.hist.valid, .step _ _ h.hist.reach (.mallocPtr g fill env p s' henv hm'), h.hist.mode⟩, h.made⟩
  refine ⟨hnew, (List.nodup_cons.1 (live_disjoint hnew.hist).1).1, ?_, ?_, ?_⟩
  · rintro rfl o ho
    have := zmalloc_zero h.hist env henv p s' hm' 0 o (by omega) ho
    rwa [cpuAddr_zero] at this
  · rintro f len rfl
    refine ⟨?_, fun o ho => ?_⟩
    · rcases malloc_spec h.hist.valid h.hist.inv henv (.init f len) with ⟨_, e⟩ | ⟨hl, _⟩
      · rw [e] at hm'; cases hm'
      · exact hl
    · have := malloc_init_content h.hist env henv f len p s' hm' 0 o (by omega) ho
      rwa [cpuAddr_zero] at this
  · intro q hq o ho
    have := malloc_keeps_live h.hist env henv fill _ s' hm' q hq 0 o (by omega) ho
    rwa [cpuAddr_zero] at this

/-- C72: a direct store is read back and changes no other byte of any item. -/
theorem global_store {c : Config} {g : Ghost} (h : GlobalPool c g) (p o : Nat) (hp : p ∈ g.live) (ho : o < c.itemLen)
    (b : Byte) :
    direct c (store c (p + o) b g.s) (p + o) = b ∧
    ∀ q ∈ g.live, ∀ o', o' < c.itemLen → (q, o') ≠ (p, o) → direct c (store c (p + o) b g.s) (q + o') = direct c g.s (q + o') := by
  obtain ⟨hg, h1, hcow⟩ := h.cfg
  obtain ⟨e1, e2⟩ := store_isolated h.hist p 0 o hp (by omega) ho b
  rw [cpuAddr_zero] at e1 e2
  refine ⟨e1, fun q hq o' ho' hne => ?_⟩
  obtain ⟨_, r, hr, _, hm, a, b'⟩ := (global_items h).2.2.2.1 q hq
  have hl := global_len h
  refine e2 r hr (q + o') ⟨by omega, by omega⟩ ?_
  by_cases hpq : q = p
  · subst hpq
    have : o' ≠ o := fun e => hne (by rw [e])
    omega
  · have := (global_items h).2.2.2.2 q hq p hp hpq
    omega

/-- C72: `rseq_mempool_free` finds the pool of a pointer obtained from any pool of the process with that stride, and
changes no other live item of any pool. -/
theorem global_free {pg : Nat} {w : World} (h : WReach pg w) (e : Entry) (he : e ∈ w.entries) (p : Nat) (hp : p ∈ e.live)
    (stride : Option Nat) (hs : e.c.stride = stride.getD 65536) :
    ∃ s', globalFree p stride w = .ok (e, s') ∧ free e.c p { pool := e.pool, mem := w.mem } = .ok s' ∧
      ∀ e2 ∈ w.entries, e2 ≠ e → ∀ q ∈ e2.live, ∀ cpu, cpu < e2.c.ncpu → ∀ o, o < e2.c.itemLen →
        s'.mem.read pg (cpuAddr e2.c q cpu + o) = w.mem.read pg (cpuAddr e2.c q cpu + o) := by
  unfold globalFree
  rw [← hs]
  exact free_finds_its_pool h e he p hp

end Verif.Mempool

namespace Verif.Mempool
open Verif Verif.Mem
attribute [local instance] le64

/-- The configuration of a global pool of 24-byte items (rounded to 32). -/
def exGlobal : Config :=
  { pg := 4096, order := 5, stride := 65536, ncpu := 1, cow := false, robust := false, poison := none
    maxRanges := 0, initSet := false, global := true }

theorem exGlobal_valid : Valid exGlobal :=
  ⟨by decide, by decide, ⟨16, by decide⟩, ⟨12, by decide⟩, by decide, by decide, fun h => (by cases h), fun _ => ⟨rfl, rfl⟩⟩

/-- A global pool with two live items and a freed one; the system grants or refuses memory. -/
theorem ex_global : ∃ g p, GlobalPool exGlobal g ∧ g.live.length = 2 ∧ g.freed = [p] ∧
    EnvOK exGlobal g.s.pool.ranges g.s.mem { base := none } ∧
    ∃ s', globalMalloc exGlobal .zero { base := none } g.s = .ok (.ptr p, s') := by
  obtain ⟨g, p, h, hl, hf⟩ := ex_hist exGlobal_valid (uaf := false) (fun h => by cases h) (Or.inl rfl) (by decide) (by decide)
  refine ⟨g, p, ⟨h, some { type := .global }, 24#64, 4096, 3, true, true, { base := some 1048576 },
    ⟨fun _ => 0#8, fun _ => none⟩, _, by decide, rfl, rfl⟩, hl, hf, ex_env _ _ _, ?_⟩
  exact malloc_reuses_freed h _ (ex_env _ _ _) .zero (Nat.zero_le _) p [] hf

end Verif.Mempool
