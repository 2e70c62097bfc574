import Verif.PoolSetLemmas
/-
C22, C23, C24, C56: pool sets.
-/
namespace Verif.PoolSet
open Verif Verif.Mem Verif.Mempool

variable [Abi]

/-- C22: a set allocation succeeds exactly when some pool of the set has large enough items and room. -/
theorem set_malloc_succeeds_iff {pg : Nat} {st : SState} (h : SReach pg st) {envs : Nat → RangeEnv} (henv : EnvsOK st envs)
    (zeroed : Bool) (init : Option (Nat → Byte)) (len : Word) :
    ((∃ o p t' m', setMalloc zeroed init len envs st.table st.mem = .ok (.ptr o p, t', m')) ↔
      ∃ o e, st.set o = some e ∧ Fits e len.toNat ∧ HasRoom e (envs o)) ∧
    ((¬ ∃ o e, st.set o = some e ∧ Fits e len.toNat ∧ HasRoom e (envs o)) →
      setMalloc zeroed init len envs st.table st.mem = .ok (.null .ENOMEM, st.table, st.mem)) := by
  have hi := sreach_inv h
  rcases setLoop_spec hi henv zeroed init len.toNat (8 * wb - minOrder len) (minOrder len) (Nat.le_refl _) with
    ⟨o, e, p, s', h1, h2, h3, h4, _, _, h5⟩ | ⟨h1, h2⟩
  · exact ⟨⟨fun _ => ⟨o, e, h2, h3, h4⟩, fun _ => ⟨_, _, _, _, h5⟩⟩, fun hn => absurd ⟨o, e, h2, h3, h4⟩ hn⟩
  · have hno : ¬ ∃ o e, st.set o = some e ∧ Fits e len.toNat ∧ HasRoom e (envs o) := by
      rintro ⟨o, e, a1, a2, a3⟩
      refine h1 o e ?_ a1 a2 a3
      rw [← (hi.order o e a1).1]
      exact minOrder_le (hi.hist a1).valid a2
    refine ⟨⟨?_, fun hh => absurd hh hno⟩, fun _ => h2⟩
    rintro ⟨o, p, t', m', h3⟩
    have h3 : setLoop zeroed init len.toNat envs (minOrder len) st.table st.mem = .ok (.ptr o p, t', m') := h3
    rw [h2] at h3
    cases h3

/-- C22, C23: on success the item is a fresh item of the pool with the smallest sufficient item length among those with
room, it has at least `len` bytes, and no other pool of the set changes. -/
theorem set_malloc_smallest {pg : Nat} {st : SState} (h : SReach pg st) {envs : Nat → RangeEnv} (henv : EnvsOK st envs)
    (zeroed : Bool) (init : Option (Nat → Byte)) (len : Word) (o p : Nat) (t' : Table) (m' : Mem)
    (hm : setMalloc zeroed init len envs st.table st.mem = .ok (.ptr o p, t', m')) :
    ∃ e pool', st.set o = some e ∧ e.c.itemLen = 2 ^ o ∧ len.toNat ≤ 2 ^ o ∧ HasRoom e (envs o) ∧
      (∀ o' e', st.set o' = some e' → len.toNat ≤ e'.c.itemLen → HasRoom e' (envs o') → e.c.itemLen ≤ e'.c.itemLen) ∧
      malloc e.c (fillOf zeroed init len.toNat) (envs o) { pool := e.pool, mem := st.mem } =
        .ok (.ptr p, { pool := pool', mem := m' }) ∧
      p ∉ e.live ∧ t' o = some (e.c, pool') ∧ ∀ o', o' ≠ o → t' o' = st.table o' := by
  have hi := sreach_inv h
  rcases setLoop_spec hi henv zeroed init len.toNat (8 * wb - minOrder len) (minOrder len) (Nat.le_refl _) with
    ⟨o2, e, p2, s', h1, h2, h3, h4, h5, h6, h7⟩ | ⟨h1, h2⟩
  · have hm : setLoop zeroed init len.toNat envs (minOrder len) st.table st.mem = .ok (.ptr o p, t', m') := hm
    rw [h7] at hm
    injection hm with hm
    have e1 : o2 = o ∧ p2 = p := by simpa using congrArg Prod.fst hm
    have e2 : (fun x => if x = o2 then some (e.c, s'.pool) else st.table x) = t' := congrArg (fun x => x.2.1) hm
    have e3 : s'.mem = m' := congrArg (fun x => x.2.2) hm
    obtain ⟨rfl, rfl⟩ := e1
    subst e2 e3
    have hord := hi.order o2 e h2
    have hlen : e.c.itemLen = 2 ^ o2 := by unfold Config.itemLen; rw [hord.1]
    have hreach := Reach.step _ _ (hi.hist h2).reach (Step.mallocPtr (e.ghost st.mem) _ (envs o2) p2 s' (henv o2 e h2).1 h6)
    have hinv := reach_inv (hi.hist h2).valid (hi.hist h2).mode hreach
    have hs' : s' = { pool := s'.pool, mem := s'.mem } := by
      have := hinv.mapped
      rw [← show s'.itemsMapped = true from this]
    refine ⟨e, s'.pool, h2, hlen, by rw [← hlen]; exact h3, h4, ?_, by rw [← hs']; exact h6, ?_, by simp, fun o' ho' => by simp [ho']⟩
    · intro o' e' a1 a2 a3
      have hord' := hi.order o' e' a1
      rw [hlen]
      unfold Config.itemLen
      rw [hord'.1]
      apply Nat.pow_le_pow_right (by omega)
      apply Classical.byContradiction
      intro hlt
      refine h5 o' e' ?_ (by omega) a1 a2 a3
      rw [← hord'.1]
      exact minOrder_le (hi.hist a1).valid a2
    · have hd := live_disjoint (g := ⟨s', p2 :: e.live, _⟩) ⟨(hi.hist h2).valid, hreach, (hi.hist h2).mode⟩
      exact (List.nodup_cons.1 hd.1).1
  · have hm : setLoop zeroed init len.toNat envs (minOrder len) st.table st.mem = .ok (.ptr o p, t', m') := hm
    rw [h2] at hm
    cases hm

/-- C23: adding a pool fails (EBUSY) exactly when the set holds a pool with the same item length; otherwise the pool is
entered and no other entry changes. -/
theorem add_pool_spec {pg : Nat} {st : SState} (h : SReach pg st) (c : Config) (pool : Pool) :
    (addPool st.table c pool = none ↔ ∃ o e, st.set o = some e ∧ e.c.itemLen = c.itemLen) ∧
    ∀ t', addPool st.table c pool = some t' →
      t' c.order = some (c, pool) ∧ ∀ o, o ≠ c.order → t' o = st.table o := by
  have hi := sreach_inv h
  have hinj : ∀ o e, st.set o = some e → (e.c.itemLen = c.itemLen ↔ o = c.order) := by
    intro o e he
    have := (hi.order o e he).1
    unfold Config.itemLen
    rw [this]
    exact ⟨fun hh => (Nat.pow_right_inj (by omega)).1 hh, fun hh => by rw [hh]⟩
  refine ⟨?_, ?_⟩
  · constructor
    · intro ha
      unfold addPool SState.table at ha
      cases hx : st.set c.order with
      | none => rw [hx] at ha; cases ha
      | some e => exact ⟨c.order, e, hx, (hinj _ e hx).2 rfl⟩
    · rintro ⟨o, e, he, hl⟩
      have ho := (hinj o e he).1 hl
      rw [ho] at he
      unfold addPool SState.table
      rw [he]
      rfl
  · intro t' ha
    unfold addPool at ha
    split at ha
    · cases ha
    · cases ha
      exact ⟨by simp, fun o ho => by simp [ho]⟩

/-- C23: at most one pool per item length. -/
theorem set_one_per_size {pg : Nat} {st : SState} (h : SReach pg st) (o1 o2 : Nat) (e1 e2 : Entry)
    (h1 : st.set o1 = some e1) (h2 : st.set o2 = some e2) (hl : e1.c.itemLen = e2.c.itemLen) : o1 = o2 := by
  have hi := sreach_inv h
  unfold Config.itemLen at hl
  rw [(hi.order o1 e1 h1).1, (hi.order o2 e2 h2).1] at hl
  exact (Nat.pow_right_inj (by omega)).1 hl

/-- C24, negative side (DESIGN F1): an item returned by rseq_mempool_set_percpu_malloc_init reads zero everywhere,
whatever the init bytes are. -/
theorem set_malloc_init_ignores_content {pg : Nat} {st : SState} (h : SReach pg st) {envs : Nat → RangeEnv}
    (henv : EnvsOK st envs) (f : Nat → Byte) (len : Word) (o p : Nat) (t' : Table) (m' : Mem)
    (hm : percpuMallocInit f len envs st.table st.mem = .ok (.ptr o p, t', m')) :
    ∃ e, st.set o = some e ∧ ∀ cpu, cpu < e.c.ncpu → ∀ i, i < e.c.itemLen → m'.read pg (cpuAddr e.c p cpu + i) = 0#8 := by
  obtain ⟨e, pool', h1, _, _, _, _, h2, _⟩ := set_malloc_smallest h henv true (some f) len o p t' m' hm
  have hi := sreach_inv h
  refine ⟨e, h1, fun cpu hcpu i hlt => ?_⟩
  have := zmalloc_zero (hi.hist h1) (envs o) (henv o e h1).1 p _ h2 cpu i hcpu hlt
  rw [(hi.w.each e (hi.mem h1)).1] at this
  exact this

/-- C24, partial: full statement: the first `len` bytes of the item equal the init bytes on every CPU. What is missing:
it holds only for all-zero init bytes. -/
theorem set_malloc_init_partial {pg : Nat} {st : SState} (h : SReach pg st) {envs : Nat → RangeEnv}
    (henv : EnvsOK st envs) (f : Nat → Byte) (len : Word) (o p : Nat) (t' : Table) (m' : Mem)
    (hm : percpuMallocInit f len envs st.table st.mem = .ok (.ptr o p, t', m')) :
    ∃ e, st.set o = some e ∧ len.toNat ≤ e.c.itemLen ∧
      ((∀ cpu, cpu < e.c.ncpu → ∀ i, i < len.toNat → m'.read pg (cpuAddr e.c p cpu + i) = f i) ↔
        ∀ i, i < len.toNat → f i = 0#8) := by
  obtain ⟨e, h1, hz⟩ := set_malloc_init_ignores_content h henv f len o p t' m' hm
  obtain ⟨e', pool', h1', hil, hl, _⟩ := set_malloc_smallest h henv true (some f) len o p t' m' hm
  rw [h1] at h1'
  cases h1'
  have hi := sreach_inv h
  refine ⟨e, h1, by omega, ?_, ?_⟩
  · intro hh i hlt
    have hc := (hi.hist h1).valid.ncpu_pos
    rw [← hh 0 (by omega) i hlt]
    exact hz 0 (by omega) i (by omega)
  · intro hh cpu hcpu i hlt
    rw [hh i hlt]
    exact hz cpu hcpu i (by omega)

/-- C24: the common routine itself initialises items; the wrapper's argument `zeroed = true` alone is to blame. With
`false` in its place the item holds the init bytes on every CPU. -/
theorem set_malloc_init_repaired {pg : Nat} {st : SState} (h : SReach pg st) {envs : Nat → RangeEnv}
    (henv : EnvsOK st envs) (f : Nat → Byte) (len : Word) (o p : Nat) (t' : Table) (m' : Mem)
    (hm : setMalloc false (some f) len envs st.table st.mem = .ok (.ptr o p, t', m')) :
    ∃ e, st.set o = some e ∧ len.toNat ≤ e.c.itemLen ∧
      ∀ cpu, cpu < e.c.ncpu → ∀ i, i < len.toNat → m'.read pg (cpuAddr e.c p cpu + i) = f i := by
  obtain ⟨e, pool', h1, hil, hl, _, _, h2, _⟩ := set_malloc_smallest h henv false (some f) len o p t' m' hm
  have hi := sreach_inv h
  refine ⟨e, h1, by omega, fun cpu hcpu i hlt => ?_⟩
  have := malloc_init_content (hi.hist h1) (envs o) (henv o e h1).1 f len.toNat p _ h2 cpu i hcpu hlt
  rw [(hi.w.each e (hi.mem h1)).1] at this
  exact this

/-- zmalloc from a set reads zero everywhere. -/
theorem set_zmalloc_zero {pg : Nat} {st : SState} (h : SReach pg st) {envs : Nat → RangeEnv}
    (henv : EnvsOK st envs) (len : Word) (o p : Nat) (t' : Table) (m' : Mem)
    (hm : percpuZmalloc len envs st.table st.mem = .ok (.ptr o p, t', m')) :
    ∃ e, st.set o = some e ∧ len.toNat ≤ e.c.itemLen ∧
      ∀ cpu, cpu < e.c.ncpu → ∀ i, i < e.c.itemLen → m'.read pg (cpuAddr e.c p cpu + i) = 0#8 := by
  obtain ⟨e, pool', h1, hil, hl, _, _, h2, _⟩ := set_malloc_smallest h henv true none len o p t' m' hm
  have hi := sreach_inv h
  refine ⟨e, h1, by omega, fun cpu hcpu i hlt => ?_⟩
  have := zmalloc_zero (hi.hist h1) (envs o) (henv o e h1).1 p _ h2 cpu i hcpu hlt
  rw [(hi.w.each e (hi.mem h1)).1] at this
  exact this

/-! ### C56: destroying a set -/

/-- The orders of a list at which the table holds a pool. -/
def present (t : Table) (l : List Nat) : List Nat := l.filter fun o => (t o).isSome

theorem destroyLoop_spec (res : Nat → Int) (l : List Nat) (hn : l.Nodup) : ∀ (t : Table) (done : List Nat),
    let pr := present t l
    let ok := pr.takeWhile fun o => res o == 0
    let rest := pr.dropWhile fun o => res o == 0
    destroyLoop res l t done =
      ((rest.head?.map res).getD 0, done ++ ok ++ rest.take 1, fun x => if x ∈ ok then none else t x) := by
  induction l with
  | nil => intro t done; simp [destroyLoop, present]
  | cons o l ih =>
    intro t done
    have hno : o ∉ l := (List.nodup_cons.1 hn).1
    have ih := ih (List.nodup_cons.1 hn).2
    simp only [destroyLoop, present, List.filter_cons]
    cases ht : t o with
    | none =>
      simp only [Option.isSome_none, Bool.false_eq_true, if_false]
      exact ih t done
    | some v =>
      by_cases hr : res o = 0
      · simp only [hr, ne_eq, not_true_eq_false, if_false, Option.isSome_some, if_true]
        have hp : present (fun x => if x = o then none else t x) l = present t l := by
          unfold present
          apply List.filter_congr
          intro x hx
          have : x ≠ o := fun h => hno (h ▸ hx)
          simp [this]
        have := ih (fun x => if x = o then none else t x) (done ++ [o])
        rw [hp] at this
        rw [this]
        simp only [present, hr, List.takeWhile_cons, List.dropWhile_cons, beq_self_eq_true, if_true, List.append_assoc,
          List.mem_cons, Prod.mk.injEq, true_and, List.cons_append,
          List.nil_append]
        funext x
        by_cases hx : x = o <;> simp [hx]
      · simp [hr]

omit [Abi] in
theorem takeWhile_all (f : Nat → Bool) (l : List Nat) (h : ∀ x ∈ l, f x = true) : l.takeWhile f = l := by
  induction l with
  | nil => rfl
  | cons a l ih =>
    rw [List.takeWhile_cons, if_pos (h a (by simp)), ih fun x hx => h x (by simp [hx])]

omit [Abi] in
theorem dropWhile_all (f : Nat → Bool) (l : List Nat) (h : ∀ x ∈ l, f x = true) : l.dropWhile f = [] := by
  induction l with
  | nil => rfl
  | cons a l ih =>
    rw [List.dropWhile_cons, if_pos (h a (by simp)), ih fun x hx => h x (by simp [hx])]

/-- C56: destroying a set calls rseq_mempool_destroy on each pool of the set at most once, in order of size, until the
first failure; the result is that failure (0 if there is none), and exactly the pools destroyed without failure leave
the set. -/
theorem set_destroy_spec (res : Nat → Int) (t : Table) (hmin : ∀ o, o < minEntry ∨ 8 * wb ≤ o → t o = none) :
    let pr := (List.range (8 * wb)).filter fun o => (t o).isSome
    let failing := pr.dropWhile fun o => res o == 0
    (setDestroy res t).1 = (failing.head?.map res).getD 0 ∧
    (setDestroy res t).2.1 = (pr.takeWhile fun o => res o == 0) ++ failing.take 1 ∧
    (∀ o, (setDestroy res t).2.2 o = if o ∈ pr.takeWhile (fun o => res o == 0) then none else t o) ∧
    ((∀ o, (t o).isSome → res o = 0) → setDestroy res t = (0, pr, fun _ => none)) := by
  have hp : present t ((List.range (8 * wb)).drop minEntry) = (List.range (8 * wb)).filter fun o => (t o).isSome := by
    unfold present
    conv => rhs; rw [← List.take_append_drop minEntry (List.range (8 * wb))]
    rw [List.filter_append]
    have : ((List.range (8 * wb)).take minEntry).filter (fun o => (t o).isSome) = [] := by
      rw [List.filter_eq_nil_iff]
      intro o ho
      rw [List.take_range] at ho
      have := List.mem_range.1 ho
      rw [hmin o (Or.inl (by omega))]
      simp
    rw [this, List.nil_append]
  have hs := destroyLoop_spec res ((List.range (8 * wb)).drop minEntry) (List.Nodup.sublist (List.drop_sublist _ _) List.nodup_range) t []
  dsimp only at hs ⊢
  rw [hp] at hs
  unfold setDestroy
  rw [hs]
  refine ⟨rfl, by simp, fun o => rfl, fun hall => ?_⟩
  have htw : ((List.range (8 * wb)).filter fun o => (t o).isSome).takeWhile (fun o => res o == 0) =
      (List.range (8 * wb)).filter fun o => (t o).isSome := by
    apply takeWhile_all
    intro o ho
    simpa using hall o (List.mem_filter.1 ho).2
  have hdw : ((List.range (8 * wb)).filter fun o => (t o).isSome).dropWhile (fun o => res o == 0) = [] := by
    apply dropWhile_all
    intro o ho
    simpa using hall o (List.mem_filter.1 ho).2
  rw [htw, hdw]
  simp only [List.head?_nil, Option.map_none, Option.getD_none, List.nil_append, List.take_nil, List.append_nil,
    Prod.mk.injEq, true_and]
  funext x
  split
  · rfl
  · rename_i hx
    by_cases hb : x < minEntry ∨ 8 * wb ≤ x
    · exact hmin x hb
    · cases ht : t x with
      | none => rfl
      | some v => exact absurd (List.mem_filter.2 ⟨List.mem_range.2 (by omega), by rw [ht]; rfl⟩) hx

end Verif.PoolSet

namespace Verif.PoolSet
open Verif Verif.Mem Verif.Mempool

attribute [local instance] le64

/-! ### Examples: a set holding an 8-byte pool and a 16-byte pool -/

theorem ex_set : ∃ st e1 e2, SReach 4096 st ∧ st.set 4 = some e1 ∧ st.set 3 = some e2 ∧ e1.c = exRobust ∧ e2.c = exZero ∧
    HasRoom e1 { base := none } ∧ HasRoom e2 { base := none } ∧ EnvsOK st fun _ => { base := none } := by
  obtain ⟨m, e1, e2, hw, hc1, hc2, hl1, hl2, hr1, hr2⟩ := ex_two
  have h0 := SReach.create _ hw
  have h1 := SReach.add _ [] [e2] e1 _ h0 rfl rfl
  have ho1 : e1.c.order = 4 := by rw [hc1]; rfl
  have ho2 : e2.c.order = 3 := by rw [hc2]; rfl
  have h2 := SReach.add _ [] [] e2 (fun o => if o = e2.c.order then some (e2.c, e2.pool) else
    (if o = e1.c.order then some e1 else none : Option Entry).map fun e => (e.c, e.pool)) h1 rfl (by
      unfold addPool SState.table
      dsimp only
      rw [ho1, ho2]
      simp)
  have hroom : ∀ (e : Entry), e.live = [] → e.pool.ranges ≠ [] → 0 < itemsPerRange e.c → HasRoom e { base := none } := by
    intro e a1 a2 a3
    refine Or.inr (Or.inl ?_)
    rw [a1]
    exact Nat.mul_pos (List.length_pos_iff.2 a2) a3
  exact ⟨_, e1, e2, h2, by simp [ho1, ho2], by simp [ho2], hc1, hc2, hroom _ hl1 hr1 (by rw [hc1]; decide),
    hroom _ hl2 hr2 (by rw [hc2]; decide), fun o e _ => ⟨ex_env .., fun _ hb => by cases hb⟩⟩

/-- C22, C23: 12 bytes come from the 16-byte pool, 5 bytes from the 8-byte pool, 17 bytes from nowhere, and a second pool
of either size is refused. -/
example : ∃ st envs, SReach 4096 st ∧ EnvsOK st envs ∧
    (∃ p t m, percpuMalloc 12#64 envs st.table st.mem = .ok (.ptr 4 p, t, m)) ∧
    (∃ p t m, percpuMalloc 5#64 envs st.table st.mem = .ok (.ptr 3 p, t, m)) ∧
    addPool st.table exRobust ⟨[], 0, 0⟩ = none := by
  obtain ⟨st, e1, e2, h, s1, s2, c1, c2, r1, r2, henv⟩ := ex_set
  have l1 : e1.c.itemLen = 16 := by rw [c1]; rfl
  have l2 : e2.c.itemLen = 8 := by rw [c2]; rfl
  refine ⟨st, _, h, henv, ?_, ?_, ?_⟩
  · obtain ⟨o, p, t', m', hm⟩ := (set_malloc_succeeds_iff h henv false none 12#64).1.2 ⟨4, e1, s1, by unfold Fits; rw [l1]; decide, r1⟩
    obtain ⟨e, _, a1, a2, a3, a4, a5, _⟩ := set_malloc_smallest h henv _ _ _ _ _ _ _ hm
    have h16 := a5 4 e1 s1 (by rw [l1]; decide) r1
    have h16' : 2 ^ o ≤ 2 ^ 4 := by rw [← a2]; omega
    have h12 : (12#64 : Word).toNat = 12 := rfl
    have ho : o ≤ 4 := (Nat.pow_le_pow_iff_right (by omega)).1 h16'
    have : o = 4 := by
      rcases Nat.lt_or_ge o 4 with hlt | hge
      · have : 2 ^ o ≤ 2 ^ 3 := Nat.pow_le_pow_right (by omega) (by omega)
        omega
      · omega
    subst this
    exact ⟨_, _, _, hm⟩
  · obtain ⟨o, p, t', m', hm⟩ := (set_malloc_succeeds_iff h henv false none 5#64).1.2 ⟨3, e2, s2, by unfold Fits; rw [l2]; decide, r2⟩
    obtain ⟨e, _, a1, a2, a3, a4, a5, _⟩ := set_malloc_smallest h henv _ _ _ _ _ _ _ hm
    have h16 := a5 3 e2 s2 (by rw [l2]; decide) r2
    have h16' : 2 ^ o ≤ 2 ^ 3 := by rw [← a2]; omega
    have h5 : (5#64 : Word).toNat = 5 := rfl
    have ho : o ≤ 3 := (Nat.pow_le_pow_iff_right (by omega)).1 h16'
    have : o = 3 := by
      rcases Nat.lt_or_ge o 3 with hlt | hge
      · have : 2 ^ o ≤ 2 ^ 2 := Nat.pow_le_pow_right (by omega) (by omega)
        omega
      · omega
    subst this
    exact ⟨_, _, _, hm⟩
  · exact (add_pool_spec h _ _).1.2 ⟨4, e1, s1, by rw [l1]; rfl⟩

/-- C24: a concrete malloc_init with non-zero content whose result does not carry it. -/
example : ∃ st envs o p t' m' e, SReach 4096 st ∧ percpuMallocInit (fun _ => 7#8) 12#64 envs st.table st.mem = .ok (.ptr o p, t', m') ∧
    st.set o = some e ∧ m'.read 4096 (cpuAddr e.c p 0) ≠ 7#8 := by
  obtain ⟨st, e1, e2, h, s1, s2, c1, c2, r1, r2, henv⟩ := ex_set
  have l1 : e1.c.itemLen = 16 := by rw [c1]; rfl
  obtain ⟨o, p, t', m', hm⟩ := (set_malloc_succeeds_iff h henv true (some fun _ => 7#8) 12#64).1.2
    ⟨4, e1, s1, by unfold Fits; rw [l1]; decide, r1⟩
  obtain ⟨e, a1, a2⟩ := set_malloc_init_ignores_content h henv _ _ _ _ _ _ hm
  have hv := ((sreach_inv h).hist a1).valid
  have := a2 0 (by have := hv.ncpu_pos; omega) 0 (by unfold Config.itemLen; exact Nat.two_pow_pos _)
  refine ⟨st, _, o, p, t', m', e, h, hm, a1, ?_⟩
  rw [Nat.add_zero] at this
  rw [this]
  decide

/-- C56: three pools, the second fails to be destroyed: the first is gone, the second and third stay. -/
example : (setDestroy (fun o => if o = 5 then -1 else 0)
    (fun o => if o = 3 ∨ o = 5 ∨ o = 9 then some (exZero, ⟨[], 0, 0⟩) else none)).1 = -1 ∧
    (setDestroy (fun o => if o = 5 then -1 else 0)
    (fun o => if o = 3 ∨ o = 5 ∨ o = 9 then some (exZero, ⟨[], 0, 0⟩) else none)).2.1 = [3, 5] := by
  decide

end Verif.PoolSet
