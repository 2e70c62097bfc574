import Verif.MempoolMulti
/-
C18: in a process with any number of pools, an item pointer leads back to exactly the pool and range it came from,
and the pools do not disturb each other.
-/
namespace Verif.Mempool
open Verif Verif.Mem

variable [Abi]

theorem pairwise_or {l : List Entry} (h : l.Pairwise Sep) {a b : Entry} (ha : a ∈ l) (hb : b ∈ l) : a = b ∨ Sep a b := by
  induction h with
  | nil => cases ha
  | cons h1 _ ih =>
    rcases List.mem_cons.1 ha with e1 | ha <;> rcases List.mem_cons.1 hb with e2 | hb
    · exact Or.inl (e1.trans e2.symm)
    · rw [e1]; exact Or.inr (h1 b hb)
    · rw [e2]; exact Or.inr (h1 a ha).symm
    · exact ih ha hb

/-- C18, first part: the properties of a single pool hold for each pool of the process, whatever the others do. -/
theorem every_pool_has_history {pg : Nat} {w : World} (h : WReach pg w) (e : Entry) (he : e ∈ w.entries) :
    Hist e.c false (e.ghost w.mem) :=
  ⟨((wreach_inv h).each e he).2.1, ((wreach_inv h).each e he).2.2, fun hh => by cases hh⟩

/-- C18: rounding an item pointer down to the stride gives the base of exactly one range of exactly one pool, the
range the item lies in. -/
theorem pointer_leads_to_range {pg : Nat} {w : World} (h : WReach pg w) (e : Entry) (he : e ∈ w.entries) (p : Nat)
    (hp : p ∈ e.live) :
    ∃ r ∈ e.pool.ranges, r.base = p - p % e.c.stride ∧ r.base ≤ p ∧ p + e.c.itemLen ≤ r.base + e.c.stride ∧
      ∀ e' ∈ w.entries, ∀ r' ∈ e'.pool.ranges, r'.base = p - p % e.c.stride → e' = e ∧ r' = r := by
  have hw := wreach_inv h
  have hi := hw.inv he
  obtain ⟨r, hr, k, hk, ep⟩ := hi.slotL hp
  have hR := hi.ranges.each r hr
  have hpos : 0 < e.c.itemLen := by unfold Config.itemLen; exact Nat.two_pow_pos _
  have hmod : p % e.c.stride = k * e.c.itemLen := by
    rw [ep, Nat.add_mod, Nat.mod_eq_zero_of_dvd hR.al, Nat.zero_add, Nat.mod_mod, Nat.mod_eq_of_lt (by omega)]
  have hbase : r.base = p - p % e.c.stride := by omega
  refine ⟨r, hr, hbase, by omega, by omega, ?_⟩
  intro e' he' r' hr' hb'
  rcases pairwise_or hw.sep he' he with e1 | hs
  · refine ⟨e1, ?_⟩
    subst e1
    have h1 := findRange_eq hi.ranges.nodup hr'
    have h2 := findRange_eq hi.ranges.nodup hr
    rw [show r'.base = r.base by omega, h2] at h1
    exact (Option.some.inj h1).symm
  · have hv' := (hw.each e' he').2.1
    have hv := (hw.each e he).2.1
    have := hs r' hr' r hr
    have h1 := hv.pg_pos
    have h2 := hv'.pg_pos
    unfold Apart2 at this
    omega

/-- C18: free with the pool's stride operates on the pool the pointer came from, and no byte of an item of any other
pool changes. -/
theorem free_finds_its_pool {pg : Nat} {w : World} (h : WReach pg w) (e : Entry) (he : e ∈ w.entries) (p : Nat)
    (hp : p ∈ e.live) :
    ∃ s', wfree p e.c.stride w = .ok (e, s') ∧ free e.c p { pool := e.pool, mem := w.mem } = .ok s' ∧
      ∀ e2 ∈ w.entries, e2 ≠ e → ∀ q ∈ e2.live, ∀ cpu, cpu < e2.c.ncpu → ∀ o, o < e2.c.itemLen →
        s'.mem.read pg (cpuAddr e2.c q cpu + o) = w.mem.read pg (cpuAddr e2.c q cpu + o) := by
  have hw := wreach_inv h
  have hi := hw.inv he
  obtain ⟨hpg, hv, _⟩ := hw.each e he
  obtain ⟨s', e1, _, hf, _⟩ := free_spec hv hi hp
  have e1 : free e.c p { pool := e.pool, mem := w.mem } = .ok s' := e1
  obtain ⟨r, hr, hb, _, _, huniq⟩ := pointer_leads_to_range h e he p hp
  refine ⟨s', ?_, e1, ?_⟩
  · have hown : owner w.entries (p - p % e.c.stride) = some e := by
      unfold owner
      cases hfd : w.entries.find? (fun e' => e'.pool.ranges.any fun r => r.base == p - p % e.c.stride) with
      | none =>
        rw [List.find?_eq_none] at hfd
        exact absurd (List.any_eq_true.2 ⟨r, hr, by simpa using hb⟩) (hfd e he)
      | some e' =>
        have h1 := List.find?_some hfd
        obtain ⟨r', hr', hb'⟩ := List.any_eq_true.1 h1
        rw [(huniq e' (List.mem_of_find?_eq_some hfd) r' hr' (by simpa using hb')).1]
    unfold wfree
    rw [hown]
    dsimp only
    rw [e1]
  · intro e2 he2 hne q hq cpu hcpu o ho
    have hl := frame_local hi.wf hi.shape hf fun x hx => itemBytes_region (hi.slotL hp) hx
    obtain ⟨hpg2, hv2, _⟩ := hw.each e2 he2
    have hsep : Sep e e2 := by
      rcases pairwise_or hw.sep he he2 with e3 | e3
      · exact absurd e3.symm hne
      · exact e3
    have hx := hl.ext hv hv2 (by rw [hpg, hpg2]) (hw.inv he2).shape hsep
    have hn := ncpu_le_nCols e2.c
    obtain ⟨r2, hr2, hin⟩ := itemBytes_region ((hw.inv he2).slotL hq) ⟨cpu, o, by omega, ho, rfl⟩
    have := (hx.inside r2 hr2 _ hin).2
    rw [hpg2] at this
    exact this

/-- C18: an allocation or store in one pool changes no byte of an item of any other pool. -/
theorem malloc_keeps_other_pools {pg : Nat} {w : World} (h : WReach pg w) (pre post : List Entry) (e : Entry)
    (hw : w.entries = pre ++ e :: post) (fill : Fill) (env : RangeEnv) (ret : Ret) (s' : State)
    (henv : EnvOK e.c e.pool.ranges w.mem env)
    (hfresh : ∀ base, env.base = some base → ∀ e2 ∈ pre ++ post, ∀ r ∈ e2.pool.ranges, Apart2 e.c base e2.c r.base)
    (hm : malloc e.c fill env { pool := e.pool, mem := w.mem } = .ok (ret, s')) :
    ∀ e2 ∈ pre ++ post, ∀ q ∈ e2.live, ∀ cpu, cpu < e2.c.ncpu → ∀ o, o < e2.c.itemLen →
      s'.mem.read pg (cpuAddr e2.c q cpu + o) = w.mem.read pg (cpuAddr e2.c q cpu + o) := by
  intro e2 he2 q hq cpu hcpu o ho
  have hi := wreach_inv h
  have he : e ∈ w.entries := by rw [hw]; exact List.mem_append_right _ List.mem_cons_self
  have hin2 : e2 ∈ w.entries := by
    rw [hw]; simp only [List.mem_append, List.mem_cons] at he2 ⊢; grind
  obtain ⟨hpg, hv, _⟩ := hi.each e he
  obtain ⟨hpg2, hv2, _⟩ := hi.each e2 hin2
  obtain ⟨hloc, hbases⟩ := malloc_local hv (hi.inv he) henv hm
  have hsep : Sep e e2 := by
    have hs := hi.sep
    rw [hw, List.pairwise_append, List.pairwise_cons] at hs
    rcases List.mem_append.1 he2 with h1 | h1
    · exact (hs.2.2 e2 h1 e List.mem_cons_self).symm
    · exact hs.2.1.1 e2 h1
  have hx := hloc.ext hv hv2 (by rw [hpg, hpg2]) (hi.inv hin2).shape (by
    intro r1 h1 r2 h2
    rcases hbases r1 h1 with ⟨r, hr, e1⟩ | hb
    · rw [← e1]; exact hsep r hr r2 h2
    · exact hfresh _ hb e2 he2 r2 h2)
  have hn := ncpu_le_nCols e2.c
  obtain ⟨r2, hr2, hin⟩ := itemBytes_region ((hi.inv hin2).slotL hq) ⟨cpu, o, by omega, ho, rfl⟩
  have := (hx.inside r2 hr2 _ hin).2
  rw [hpg2] at this
  exact this

/-! ### Example: two pools of different shapes, one live item each -/

theorem ex_create {c : Config} {m : Mem} {b : Nat} (hs : c.initSet = false) :
    ∃ r, (rangeCreate c ⟨[], 0, 0⟩ m { base := some b }).2 = some (r, mapRange c b m) ∧ r.base = b := by
  cases h : (rangeCreate c ⟨[], 0, 0⟩ m { base := some b }).2 with
  | none =>
    rcases rangeCreate_none_iff.1 h with ⟨h1, h2⟩ | h1 | h1 | h1 | h1
    · exact absurd (Nat.le_zero.1 h2) h1
    · cases h1
    · cases h1.2
    · cases h1.2
    · rw [hs] at h1; cases h1.1
  | some x =>
    obtain ⟨r, m'⟩ := x
    obtain ⟨h1, h2⟩ := rangeCreate_quiet h
    rw [h2]
    exact ⟨r, rfl, h1⟩

theorem ex_malloc {pg : Nat} {w : World} (h : WReach pg w) (e : Entry) (he : e ∈ w.entries) (hl : e.live = [])
    (hr : e.pool.ranges ≠ []) (hn : 0 < itemsPerRange e.c) :
    ∃ p s', malloc e.c (.zero) { base := none } { pool := e.pool, mem := w.mem } = .ok (.ptr p, s') := by
  have hh := every_pool_has_history h e he
  have henv := ex_env e.c e.pool.ranges w.mem
  have hlen : Fill.zero.len ≤ e.c.itemLen := Nat.zero_le _
  rcases malloc_spec hh.valid hh.inv henv .zero with ⟨h1, _⟩ | ⟨_, ⟨r, k, s1, F', _, e1, _⟩ | ⟨e1, _⟩ | ⟨_, h1, _⟩⟩
  · omega
  · exact ⟨_, _, e1⟩
  · have h2 := ((malloc_fails_iff hh _ henv .zero hlen).1.1 ⟨_, _, e1⟩).2.1
    have h3 : (e.ghost w.mem).live.length = 0 := by show e.live.length = 0; rw [hl]; rfl
    rw [h3] at h2
    have h4 : 0 < e.pool.ranges.length := List.length_pos_iff.2 hr
    have := Nat.mul_pos h4 hn
    have h5 : (e.ghost w.mem).s.pool.ranges.length = e.pool.ranges.length := rfl
    rw [h5] at h2
    omega
  · cases h1

end Verif.Mempool

namespace Verif.Mempool
open Verif Verif.Mem

attribute [local instance] le64

/-- A plain pool without callback. -/
def exZero : Config := { exPlain with initSet := false }

theorem exZero_valid : Valid exZero :=
  ⟨by decide, by decide, ⟨16, by decide⟩, ⟨12, by decide⟩, by decide, by decide, fun h => (by cases h), fun h => by cases h⟩

/-- A process with two pools of different configurations. -/
theorem ex_two : ∃ m e1 e2, WReach 4096 ⟨m, [e1, e2]⟩ ∧ e1.c = exRobust ∧ e2.c = exZero ∧ e1.live = [] ∧ e2.live = [] ∧
    e1.pool.ranges ≠ [] ∧ e2.pool.ranges ≠ [] := by
  let m0 : Mem := ⟨fun _ => 0#8, fun _ => none⟩
  have hwf : m0.WF := fun p q h => by cases h
  have hw0 : WReach 4096 ⟨m0, []⟩ := .init m0 hwf
  obtain ⟨r1, h1, hb1⟩ := ex_create (c := exZero) (m := m0) (b := 131072) rfl
  have hmr : mapRange exZero 131072 m0 = m0 := by
    have hc : exZero.cow = false := rfl
    simp [mapRange, hc, m0]
  have henv1 : EnvOK exZero [] m0 { base := some 131072 } := by
    refine ⟨?_, fun _ _ _ hh => by cases hh⟩
    rintro base e
    cases e
    exact ⟨by decide, by decide, by decide, fun r hr => (by cases hr), fun x hx => hx⟩
  have hw1 := WReach.step _ _ hw0 (.create _ exZero _ r1 _ exZero_valid rfl henv1 (fun b _ e he => by cases he) h1)
  rw [hmr] at hw1
  obtain ⟨r2, h2, hb2⟩ := ex_create (c := exRobust) (m := m0) (b := 1048576) rfl
  have henv2 : EnvOK exRobust [] m0 { base := some 1048576 } := by
    refine ⟨?_, fun _ _ _ hh => by cases hh⟩
    rintro base e
    cases e
    exact ⟨by decide, by decide, by decide, fun r hr => (by cases hr), fun x hx => hx⟩
  have hw2 := WReach.step _ _ hw1 (.create _ exRobust _ r2 _ exRobust_valid rfl henv2 (by
    intro b hb e he r hr
    cases hb
    simp only [List.mem_singleton] at he
    rw [he] at hr ⊢
    simp only [List.mem_singleton] at hr
    rw [hr]
    dsimp only
    rw [hb1]
    exact Or.inr (by decide)) h2)
  exact ⟨_, _, _, hw2, rfl, rfl, rfl, rfl, by simp, by simp⟩

theorem ex_two_live : ∃ w e1 e2, WReach 4096 w ∧ w.entries = [e1, e2] ∧ e1.c = exRobust ∧ e2.c = exZero ∧ e1.live ≠ [] ∧ e2.live ≠ [] := by
  obtain ⟨m, e1, e2, hw2, hc1, hc2, hl1, hl2, hr1, hr2⟩ := ex_two
  obtain ⟨p, s', hm⟩ := ex_malloc hw2 e1 (List.mem_cons_self) hl1 hr1 (by rw [hc1]; decide)
  have hw3 := WReach.step _ _ hw2 (.malloc _ [] _ _ (.zero) { base := none } _ s' rfl (ex_env ..) (fun _ hb => by cases hb) hm)
  have hmem : ∀ (a b : Entry), b ∈ [] ++ a :: [b] := fun a b => by simp
  obtain ⟨p2, s2, hm2⟩ := ex_malloc hw3 e2 (hmem _ _) hl2 hr2 (by rw [hc2]; decide)
  have hw4 := WReach.step _ _ hw3 (.malloc _ [_] [] _ (.zero) { base := none } _ s2 rfl (ex_env ..) (fun _ hb => by cases hb) hm2)
  exact ⟨_, _, _, hw4, rfl, hc1, hc2, by simp [Entry.afterMalloc], by simp [Entry.afterMalloc]⟩

end Verif.Mempool
