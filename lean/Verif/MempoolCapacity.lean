import Verif.MempoolDestroy
/-
Helper lemmas: when range creation fails, how many items a full pool holds, and that a pool can be
filled completely.
-/
namespace Verif.Mempool
open Verif Verif.Mem

variable [Abi]

/-! ### Callback log -/

theorem runCalls_none_iff {c : Config} {env : RangeEnv} {calls : List Call} {k : Nat} {m : Mem} :
    (runCalls c env calls k m).2 = none ↔ ∃ j, j < calls.length ∧ (env.cb (k + j)).1 = false := by
  induction calls generalizing k m with
  | nil => simp [runCalls]
  | cons x xs ih =>
    unfold runCalls
    dsimp only
    cases h : (env.cb k).1 with
    | true =>
      simp only [if_true]
      rw [ih]
      constructor
      · rintro ⟨j, hj, e⟩
        exact ⟨j + 1, by rw [List.length_cons]; omega, by rw [← e]; congr 2; omega⟩
      · rintro ⟨j, hj, e⟩
        cases j with
        | zero => rw [Nat.add_zero, h] at e; cases e
        | succ j => exact ⟨j, by rw [List.length_cons] at hj; omega, by rw [← e]; congr 2; omega⟩
    | false =>
      simp only [Bool.false_eq_true, if_false, true_iff]
      exact ⟨0, by simp, by simpa using h⟩

/-- The log: everything when all calls succeed, everything up to and including the first failure otherwise. -/
theorem runCalls_log {c : Config} {env : RangeEnv} {calls : List Call} {k : Nat} {m : Mem} :
    ((runCalls c env calls k m).2.isSome = true ∧ (runCalls c env calls k m).1 = calls ∧
      ∀ j, j < calls.length → (env.cb (k + j)).1 = true) ∨
    ((runCalls c env calls k m).2 = none ∧ ∃ j, j < calls.length ∧ (env.cb (k + j)).1 = false ∧
      (∀ i, i < j → (env.cb (k + i)).1 = true) ∧ (runCalls c env calls k m).1 = calls.take (j + 1)) := by
  induction calls generalizing k m with
  | nil => left; exact ⟨rfl, rfl, fun j hj => by cases hj⟩
  | cons x xs ih =>
    unfold runCalls
    dsimp only
    cases h : (env.cb k).1 with
    | true =>
      simp only [if_true]
      rcases ih (k := k + 1) (m := applyStores c.pg x.addr (env.cb k).2 m) with ⟨a, b, d⟩ | ⟨a, j, hj, b, d, e⟩
      · left
        refine ⟨a, by rw [b], ?_⟩
        intro j hj
        cases j with
        | zero => exact h
        | succ j =>
          have := d j (by rw [List.length_cons] at hj; omega)
          rw [← this]; congr 2; omega
      · right
        refine ⟨a, j + 1, by rw [List.length_cons]; omega, by rw [← b]; congr 2; omega, ?_, by rw [e]; rfl⟩
        intro i hi
        cases i with
        | zero => exact h
        | succ i =>
          have := d i (by omega)
          rw [← this]; congr 2; omega
    | false =>
      right
      simp only [Bool.false_eq_true, if_false]
      exact ⟨trivial, 0, by simp, by simpa using h, (fun i hi => by omega), by simp⟩

theorem initCalls_length (c : Config) (base : Nat) :
    (initCalls c base).length = if c.initSet then (if c.global then 1 else c.ncpu) else 0 := by
  unfold initCalls
  cases c.initSet <;> cases c.global <;> simp

/-! ### When a range cannot be added -/

theorem rangeCreate_none_iff {c : Config} {pool : Pool} {m : Mem} {env : RangeEnv} :
    (rangeCreate c pool m env).2 = none ↔
      (c.maxRanges ≠ 0 ∧ c.maxRanges ≤ pool.nrRanges) ∨ Refused c env := by
  unfold rangeCreate Refused
  by_cases hmax : c.maxRanges ≠ 0 ∧ pool.nrRanges ≥ c.maxRanges
  · rw [if_pos hmax]
    exact ⟨fun _ => Or.inl hmax, fun _ => rfl⟩
  rw [if_neg hmax]
  cases hb : env.base with
  | none => simp
  | some base =>
    dsimp only
    by_cases hs : (c.cow && !env.setupOk) = true
    · rw [if_pos hs]
      simp at hs
      exact ⟨fun _ => Or.inr (Or.inr (Or.inl hs)), fun _ => rfl⟩
    rw [if_neg hs]
    by_cases hbm : (c.robust && !env.bitmapOk) = true
    · rw [if_pos hbm]
      simp at hbm
      exact ⟨fun _ => Or.inr (Or.inr (Or.inr (Or.inl hbm))), fun _ => rfl⟩
    rw [if_neg hbm]
    have hrun := runCalls_none_iff (c := c) (env := env) (calls := initCalls c base) (k := 0) (m := mapRange c base m)
    rw [initCalls_length] at hrun
    have hcb : (∃ j, j < (if c.initSet then (if c.global then 1 else c.ncpu) else 0) ∧ (env.cb (0 + j)).1 = false) ↔
        (c.initSet = true ∧ ∃ k, k < (if c.global then 1 else c.ncpu) ∧ (env.cb k).1 = false) := by
      cases c.initSet <;> simp
    rw [hcb] at hrun
    generalize hres : runCalls c env (initCalls c base) 0 (mapRange c base m) = res at *
    obtain ⟨log, o⟩ := res
    cases o with
    | none =>
      exact ⟨fun _ => Or.inr (Or.inr (Or.inr (Or.inr (hrun.1 rfl)))), fun _ => rfl⟩
    | some m1 =>
      dsimp only
      constructor
      · intro h; cases h
      · rintro (h | h | h | h | h)
        · exact absurd h hmax
        · cases h
        · simp [h.1, h.2] at hs
        · simp [h.1, h.2] at hbm
        · have := hrun.2 h; cases this

/-! ### Counting -/

/-- A pool without freed items and without room holds exactly its capacity. -/
theorem noRoom_count {c : Config} (hv : Valid c) {uaf : Bool} {s : State} {L : List Nat} (h : Inv0 c uaf s L [])
    (hn : NoRoom c s.pool.ranges) : L.length = s.pool.ranges.length * itemsPerRange c := by
  have hc := count_used hv h
  rw [List.length_nil, Nat.add_zero] at hc
  rw [hc]
  have : ∀ l : List Range, NoRoom c l → (l.map fun r => r.nextUnused / c.itemLen).sum = l.length * itemsPerRange c := by
    intro l
    induction l with
    | nil => intro _; simp
    | cons r l ih =>
      intro hl
      rw [List.map_cons, List.sum_cons, ih (fun x hx => hl x (List.mem_cons_of_mem _ hx)), hl r List.mem_cons_self,
        List.length_cons, Nat.add_mul, Nat.one_mul]
      unfold itemsPerRange
      omega
  exact this _ hn

/-- Live and freed items never exceed the capacity of the mapped ranges. -/
theorem count_le {c : Config} (hv : Valid c) {uaf : Bool} {s : State} {L F : List Nat} (h : Inv0 c uaf s L F) :
    L.length + F.length ≤ s.pool.ranges.length * itemsPerRange c := by
  rw [count_used hv h]
  have : ∀ l : List Range, (∀ r ∈ l, r.nextUnused ≤ c.stride) →
      (l.map fun r => r.nextUnused / c.itemLen).sum ≤ l.length * itemsPerRange c := by
    intro l
    induction l with
    | nil => intro _; simp
    | cons r l ih =>
      intro hl
      have h1 := ih (fun x hx => hl x (List.mem_cons_of_mem _ hx))
      have h2 : r.nextUnused / c.itemLen ≤ itemsPerRange c := Nat.div_le_div_right (hl r List.mem_cons_self)
      rw [List.map_cons, List.sum_cons, List.length_cons, Nat.add_mul, Nat.one_mul]
      omega
  exact this _ fun r hr => (h.ranges.each r hr).nu

/-! ### Filling a pool -/

/-- An address for the `i`-th range. -/
def nthBase (c : Config) (i : Nat) : Nat := 2 * c.stride + i * (rangeLen c + 2 * c.stride)

/-- The pool's ranges are at the addresses above and nothing else is mapped. -/
structure Tidy (c : Config) (s : State) : Prop where
  bases : ∀ r ∈ s.pool.ranges, ∃ i, i < s.pool.ranges.length ∧ r.base = nthBase c i
  plain : ∀ x, (∀ r ∈ s.pool.ranges, ¬ InRegion c r.base x) → s.mem.resolve c.pg x = x

theorem takeSlot_shape {c : Config} {s s' : State} {r : Range} {off addr : Nat} {ch : Choice}
    (h : takeSlot c s r off addr = .ok (ch, s')) :
    s'.mem = s.mem ∧ s'.pool.ranges.map (·.base) = s.pool.ranges.map (·.base) := by
  unfold takeSlot at h
  split at h
  · cases h
  · cases h
    exact ⟨rfl, map_base_putRange _ _⟩

theorem lockedAlloc_shape {c : Config} {env : RangeEnv} {s s' : State} {r : Range} {off addr : Nat}
    (h : lockedAlloc c env s = .ok (.item r off addr, s')) :
    (s'.mem = s.mem ∧ s'.pool.ranges.map (·.base) = s.pool.ranges.map (·.base)) ∨
    (∃ r1 m1, (rangeCreate c s.pool s.mem env).2 = some (r1, m1) ∧ s'.mem = m1 ∧
      s'.pool.ranges.map (·.base) = r1.base :: s.pool.ranges.map (·.base)) := by
  unfold lockedAlloc at h
  dsimp only at h
  split at h
  · split at h
    · cases h
    · split at h
      · cases h
      · left
        have := takeSlot_shape h
        exact ⟨this.1, this.2⟩
  · split at h
    · left
      have := takeSlot_shape h
      exact ⟨this.1, this.2.trans (map_base_putRange _ _)⟩
    · split at h
      · cases h
      · rename_i r1 m1 hrc
        right
        have := takeSlot_shape h
        exact ⟨r1, m1, hrc, this.1, this.2⟩

theorem runCalls_quiet {c : Config} {env : RangeEnv} (hcb : env.cb = fun _ => (true, [])) {calls : List Call} {k : Nat} {m : Mem} :
    (runCalls c env calls k m).2 = some m := by
  induction calls generalizing k m with
  | nil => rfl
  | cons x xs ih =>
    unfold runCalls
    rw [hcb]
    simp only [if_true]
    exact ih

/-- With a granting system the new range is the plain mapping. -/
theorem rangeCreate_quiet {c : Config} {pool : Pool} {m : Mem} {base : Nat} {r : Range} {m' : Mem}
    (h : (rangeCreate c pool m { base := some base }).2 = some (r, m')) : r.base = base ∧ m' = mapRange c base m := by
  unfold rangeCreate at h
  split at h
  · cases h
  dsimp only at h
  split at h
  · cases h
  split at h
  · cases h
  have hq := runCalls_quiet (c := c) (env := { base := some base }) rfl (calls := initCalls c base) (k := 0) (m := mapRange c base m)
  split at h
  · rename_i hh; cases h
  · rename_i log m1 hrun
    rw [hrun] at hq
    cases hq
    cases h
    exact ⟨rfl, rfl⟩

theorem nthBase_apart {c : Config} (hv : Valid c) {i j : Nat} (h : i < j) :
    nthBase c i + rangeLen c + 2 * c.pg ≤ nthBase c j := by
  have h1 := Nat.mul_le_mul_right (rangeLen c + 2 * c.stride) (show i + 1 ≤ j from h)
  have := hv.pg_le
  rw [Nat.add_mul, Nat.one_mul] at h1
  unfold nthBase
  omega

theorem nthBase_dvd {c : Config} (i : Nat) : c.stride ∣ nthBase c i := by
  unfold nthBase
  rw [rangeLen_eq]
  refine Nat.dvd_add (Nat.dvd_mul_left _ _) (Nat.dvd_trans ?_ (Nat.dvd_mul_left _ _))
  exact Nat.dvd_add (Nat.dvd_mul_right _ _) (Nat.dvd_mul_left _ _)

theorem nthBase_top {c : Config} {i n : Nat} (h : i < n) : nthBase c i + rangeLen c ≤ nthBase c n := by
  have h1 := Nat.mul_le_mul_right (rangeLen c + 2 * c.stride) (show i + 1 ≤ n from h)
  rw [Nat.add_mul, Nat.one_mul] at h1
  unfold nthBase
  omega

/-- The system can grant the next range of a tidy pool. -/
theorem Tidy.env {c : Config} (hv : Valid c) {s : State} (ht : Tidy c s) (hsh : Shape c s.pool.ranges s.mem) {n : Nat} (hn : s.pool.ranges.length < n)
    (hsp : nthBase c n ≤ 2 ^ (8 * wb)) :
    EnvOK c s.pool.ranges s.mem { base := some (nthBase c s.pool.ranges.length) } := by
  refine ⟨?_, fun k o b hob => by cases hob⟩
  rintro base e
  cases e
  have hpg := hv.pg_le
  have htop := nthBase_top (c := c) hn
  refine ⟨nthBase_dvd _, by unfold nthBase; omega, by omega, ?_, ?_⟩
  · intro r hr
    obtain ⟨i, hi, e⟩ := ht.bases r hr
    right
    rw [e]
    exact nthBase_apart hv hi
  · intro x hx
    by_cases hin : ∃ r ∈ s.pool.ranges, InRegion c r.base x
    · obtain ⟨r, hr, hin⟩ := hin
      have := hsh.region hv hr hin
      obtain ⟨i, hi, e⟩ := ht.bases r hr
      have hap := nthBase_apart hv hi
      unfold InRegion at *
      rw [e] at this
      omega
    · rw [ht.plain x (fun r hr h => hin ⟨r, hr, h⟩)]
      exact hx

theorem mem_of_map_base {l l' : List Range} (h : l'.map (·.base) = l.map (·.base)) {r : Range} (hr : r ∈ l') :
    ∃ r' ∈ l, r'.base = r.base := by
  have : r.base ∈ l'.map (·.base) := List.mem_map.2 ⟨r, hr, rfl⟩
  rw [h, List.mem_map] at this
  exact this

/-- Any number of items up to the capacity of `n` ranges can be live at once. -/
theorem fill_reach {c : Config} (hv : Valid c) (uaf : Bool) {n : Nat} (hn : 1 ≤ n) (hmax : c.maxRanges = 0 ∨ n ≤ c.maxRanges)
    (hsp : nthBase c n ≤ 2 ^ (8 * wb)) (k : Nat) (hk : k ≤ n * itemsPerRange c) :
    ∃ g, Reach c uaf g ∧ g.live.length = k ∧ g.freed = [] ∧ Tidy c g.s ∧ g.s.pool.ranges.length ≤ n ∧
      Inv c uaf g.s g.live g.freed := by
  induction k with
  | zero =>
    let m0 : Mem := ⟨fun _ => 0#8, fun _ => none⟩
    have hwf : m0.WF := fun p q h => by cases h
    have hres : ∀ x, m0.resolve c.pg x = x := fun x => rfl
    have henv : EnvOK c [] m0 { base := some (nthBase c 0) } := by
      refine ⟨?_, fun k o b hob => by cases hob⟩
      rintro base e
      cases e
      have hpg := hv.pg_le
      have htop := nthBase_top (c := c) (i := 0) hn
      exact ⟨nthBase_dvd _, by unfold nthBase; omega, by omega, (fun r hr => by cases hr), fun x hx => hx⟩
    cases hrc : (rangeCreate c ⟨[], 0, 0⟩ m0 { base := some (nthBase c 0) }).2 with
    | none =>
      rw [rangeCreate_none_iff] at hrc
      rcases hrc with ⟨h1, h2⟩ | h | ⟨_, h⟩ | ⟨_, h⟩ | ⟨_, j, _, h⟩
      · simp at h2; exact absurd h2 h1
      all_goals cases h
    | some rm =>
      obtain ⟨r, m⟩ := rm
      obtain ⟨hb, hm⟩ := rangeCreate_quiet hrc
      refine ⟨_, Reach.create m0 _ r m hwf henv hrc, rfl, rfl, ⟨?_, ?_⟩, by simpa using hn, create_inv hv hwf henv hrc⟩
      · intro r' hr'
        rw [List.mem_singleton] at hr'
        subst hr'
        exact ⟨0, Nat.one_pos, hb⟩
      · intro x hx
        have hx := hx r List.mem_cons_self
        show m.resolve c.pg x = x
        rw [hb] at hx
        rw [hm, mapRange_resolve_out hv (nthBase_dvd _) hx]
        exact hres x
  | succ k ih =>
    obtain ⟨g, hg, hlen, hfr, ht, hrn, hinv⟩ := ih (by omega)
    -- an environment granting a range while fewer than `n` exist
    let env : RangeEnv := { base := if g.s.pool.ranges.length < n then some (nthBase c g.s.pool.ranges.length) else none }
    have henv : EnvOK c g.s.pool.ranges g.s.mem env := by
      by_cases hlt : g.s.pool.ranges.length < n
      · have : env = { base := some (nthBase c g.s.pool.ranges.length) } := by
          show RangeEnv.mk _ _ _ _ = _
          rw [if_pos hlt]
        rw [this]
        exact ht.env hv hinv.shape hlt hsp
      · refine ⟨?_, fun k o b hob => by cases hob⟩
        intro base e
        have : env.base = none := if_neg hlt
        rw [this] at e; cases e
    have hinv0 := hinv
    rw [hfr] at hinv
    rcases malloc_spec hv hinv henv (.plain 0) with ⟨h, _⟩ | ⟨_, ⟨r, k', s1, F', hla, e, hinv1, hi, _, _, _, _, hF⟩ | ⟨e, _, hnr, hrc⟩ | ⟨e, _, _, _, _, _, _, hF, _⟩⟩
    · exact absurd h (by simp [Fill.len])
    · have hstep := Step.mallocPtr (uaf := uaf) g (.plain 0) env _ _ henv e
      have hF' : F' = [] := by
        rcases hF with ⟨h, _⟩ | ⟨_, h⟩
        · cases h
        · exact h
      rw [hF'] at hi
      have hfe : ∀ q, List.erase g.freed q = [] := fun q => by rw [hfr]; rfl
      refine ⟨_, Reach.step g _ hg hstep, by rw [List.length_cons, hlen], hfe _, ?_, ?_, by dsimp only; rw [hfe]; exact hi⟩
      · show Tidy c s1
        rcases lockedAlloc_shape hla with ⟨e1, e2⟩ | ⟨r1, m1, hrc, e1, e2⟩
        · have hl : s1.pool.ranges.length = g.s.pool.ranges.length := by
            have := congrArg List.length e2
            simpa using this
          refine ⟨fun r hr => ?_, fun x hx => ?_⟩
          · obtain ⟨r', hr', hb⟩ := mem_of_map_base e2 hr
            obtain ⟨i, hi, hbb⟩ := ht.bases r' hr'
            exact ⟨i, by omega, by rw [← hb, hbb]⟩
          · rw [e1]
            apply ht.plain
            intro r hr hin
            obtain ⟨r', hr', hb⟩ := mem_of_map_base e2.symm hr
            exact hx r' hr' (by rw [hb]; exact hin)
        · have hl : s1.pool.ranges.length = g.s.pool.ranges.length + 1 := by
            have := congrArg List.length e2
            simpa using this
          have hlt : g.s.pool.ranges.length < n := by
            apply Classical.byContradiction
            intro hge
            have hb : env.base = none := if_neg hge
            have := (rangeCreate_none_iff (c := c) (pool := g.s.pool) (m := g.s.mem) (env := env)).2 (Or.inr (Or.inl hb))
            rw [this] at hrc; cases hrc
          have henv' : env = { base := some (nthBase c g.s.pool.ranges.length) } := by
            show RangeEnv.mk _ _ _ _ = _
            rw [if_pos hlt]
          rw [henv'] at hrc
          obtain ⟨hb, hm⟩ := rangeCreate_quiet hrc
          have hmem : ∀ r ∈ s1.pool.ranges, r.base = nthBase c g.s.pool.ranges.length ∨ ∃ r' ∈ g.s.pool.ranges, r'.base = r.base := by
            intro r hr
            have : r.base ∈ s1.pool.ranges.map (·.base) := List.mem_map.2 ⟨r, hr, rfl⟩
            rw [e2, List.mem_cons, hb, List.mem_map] at this
            exact this
          refine ⟨fun r hr => ?_, fun x hx => ?_⟩
          · rcases hmem r hr with h | ⟨r', hr', h⟩
            · exact ⟨_, by omega, h⟩
            · obtain ⟨i, hi, hbb⟩ := ht.bases r' hr'
              exact ⟨i, by omega, by rw [← h, hbb]⟩
          · rw [e1, hm, mapRange_resolve_out hv (nthBase_dvd _)]
            · apply ht.plain
              intro r hr hin
              have : r.base ∈ s1.pool.ranges.map (·.base) := by
                rw [e2]; exact List.mem_cons_of_mem _ (List.mem_map.2 ⟨r, hr, rfl⟩)
              obtain ⟨r', hr', hb'⟩ := List.mem_map.1 this
              exact hx r' hr' (by rw [hb']; exact hin)
            · have : r1.base ∈ s1.pool.ranges.map (·.base) := by rw [e2]; exact List.mem_cons_self
              obtain ⟨r', hr', hb'⟩ := List.mem_map.1 this
              have := hx r' hr'
              rw [hb', hb] at this
              exact this
      · show s1.pool.ranges.length ≤ n
        rcases lockedAlloc_shape hla with ⟨e1, e2⟩ | ⟨r1, m1, hrc, e1, e2⟩
        · have := congrArg List.length e2
          simp at this
          omega
        · have := congrArg List.length e2
          simp at this
          have hlt : g.s.pool.ranges.length < n := by
            apply Classical.byContradiction
            intro hge
            have hb : env.base = none := if_neg hge
            have := (rangeCreate_none_iff (c := c) (pool := g.s.pool) (m := g.s.mem) (env := env)).2 (Or.inr (Or.inl hb))
            rw [this] at hrc; cases hrc
          omega
    · exfalso
      have hcnt := noRoom_count hv hinv.toInv0 hnr
      have hlt : g.s.pool.ranges.length < n := by
        apply Classical.byContradiction
        intro hge
        have := Nat.mul_le_mul_right (itemsPerRange c) (show n ≤ g.s.pool.ranges.length by omega)
        omega
      rw [rangeCreate_none_iff, hinv.nr] at hrc
      rcases hrc with ⟨h1, h2⟩ | h | ⟨_, h⟩ | ⟨_, h⟩ | ⟨_, j, _, h⟩
      · omega
      · have : env.base = some (nthBase c g.s.pool.ranges.length) := if_pos hlt
        rw [this] at h; cases h
      all_goals cases h
    · cases hF

/-! ### Facts about destroy and poisoning -/

theorem resolve_writeWord_other {pg : Nat} {m : Mem} {a x : Nat} {w : Word} (h : ∀ j, j < wb → x / pg ≠ (a + j) / pg) :
    (m.writeWord pg a w).resolve pg x = m.resolve pg x := by
  have : ∀ n, n ≤ wb → (m.writeBlock pg a (wordByte w) n).resolve pg x = m.resolve pg x := by
    intro n
    induction n with
    | zero => intro _; rfl
    | succ n ih =>
      intro hn
      unfold writeBlock
      rw [resolve_write, if_neg (h n (by omega)), ih (by omega)]
  exact this wb (Nat.le_refl _)

theorem ranges_ne_nil {c : Config} (hv : Valid c) {uaf : Bool} (hrc : uaf = true → c.robust = true ∨ c.cow = true)
    {g : Ghost} (hg : Reach c uaf g) : g.s.pool.ranges ≠ [] := by
  induction hg with
  | create => simp
  | step g g' hg hs ih =>
    have hi := reach_inv hv hrc hg
    cases hs with
    | mallocPtr fill env p s' henv hm =>
      rcases malloc_spec hv hi henv fill with ⟨_, e⟩ | ⟨_, ⟨r, k, s1, F', _, e, _, _, hr, _⟩ | ⟨e, _⟩ | ⟨e, _⟩⟩
      · rw [e] at hm; cases hm
      · rw [e] at hm
        cases hm
        exact fun hh => by dsimp only at hh; rw [hh] at hr; cases hr
      · rw [e] at hm; cases hm
      · rw [e] at hm; cases hm
    | mallocNull fill env e' s' henv hm =>
      rcases malloc_spec hv hi henv fill with ⟨_, e⟩ | ⟨_, ⟨r, k, s1, F', _, e, _, _, hr, _⟩ | ⟨e, _⟩ | ⟨e, _⟩⟩
      · rw [e] at hm; cases hm; exact ih
      · rw [e] at hm; cases hm
      · rw [e] at hm; cases hm; exact ih
      · rw [e] at hm; cases hm
    | free p s' hp hm =>
      obtain ⟨s'', e, _, _, hb, _⟩ := free_spec hv hi hp
      rw [e] at hm
      cases hm
      intro hh
      dsimp only at hh
      rw [hh] at hb
      exact ih (List.map_eq_nil_iff.1 hb.symm)
    | store => exact ih
    | ext => exact ih

theorem leaked_of_live {c : Config} (hv : Valid c) {uaf : Bool} {s : State} {L F : List Nat} (hi : Inv c uaf s L F)
    (hrob : c.robust = true) {p : Nat} (hp : p ∈ L) : ∃ r ∈ s.pool.ranges, leaked c r = true := by
  obtain ⟨r, hr, k, hk, e⟩ := (hi.used p).2 (Or.inl hp)
  have hR := hi.ranges.each r hr
  have hbm := hR.bm
  rw [hrob] at hbm
  obtain ⟨bm, hbm⟩ := Option.isSome_iff_exists.1 hbm
  have hbit : bitTest bm k = true := (hi.bits r hr bm hbm k).2 ⟨hk, by rw [← e]; exact hp⟩
  refine ⟨r, hr, ?_⟩
  unfold leaked
  rw [hbm]
  dsimp only
  rw [decide_eq_true_eq]
  intro h0
  have hnu := hR.nu
  have hlt : k < c.stride >>> c.order := by
    rw [Nat.shiftRight_eq_div_pow]
    exact (lt_div_iff hv hv.item_dvd).2 (by omega)
  have hd := Nat.div_add_mod (c.stride >>> c.order + 8 * wb - 1) (8 * wb)
  have hm := mod_bits (c.stride >>> c.order + 8 * wb - 1)
  have := totalLeaks_eq_zero_iff.1 h0 k (by unfold bitmapCount; omega)
  rw [this] at hbit
  cases hbit

theorem destroyLoop_leak {c : Config} {acc : Bool} {l : List Range} (h : ∃ r ∈ l, leaked c r = true) (k : Nat)
    (done : List (Nat × Nat)) : destroyLoop c acc (fun _ => true) l k done = .aborted .leak := by
  induction l generalizing k done with
  | nil => obtain ⟨r, hr, _⟩ := h; cases hr
  | cons a l ih =>
    obtain ⟨r, hr, hl⟩ := h
    unfold destroyLoop
    cases ha : leaked c a with
    | true => simp
    | false =>
      simp only [Bool.false_eq_true, if_false, if_true]
      apply ih
      rw [List.mem_cons] at hr
      rcases hr with e1 | hr
      · rw [e1, ha] at hl; cases hl
      · exact ⟨r, hr, hl⟩

theorem destroyLoop_prefix {c : Config} {acc : Bool} {ok : Nat → Bool} {l : List Range}
    (hl : ∀ r ∈ l, leaked c r = false) (k : Nat) (done : List (Nat × Nat)) :
    ∃ j left, j ≤ l.length ∧ (∀ i, i < j → ok (k + i) = true) ∧ (j < l.length → ok (k + j) = false) ∧
      left.length = l.length - j ∧
      destroyLoop c acc ok l k done =
        .ok ⟨0, done ++ (l.map (rangeUnmapArgs c acc)).take j, left, decide (j = l.length)⟩ := by
  induction l generalizing k done with
  | nil => exact ⟨0, [], Nat.le_refl _, (fun i hi => by omega), (fun h => by cases h), rfl, by simp [destroyLoop]⟩
  | cons r l ih =>
    unfold destroyLoop
    rw [hl r List.mem_cons_self]
    simp only [Bool.false_eq_true, if_false]
    cases hok : ok k with
    | true =>
      simp only [if_true]
      obtain ⟨j, left, h1, h2, h3, h4, e⟩ := ih (fun x hx => hl x (List.mem_cons_of_mem _ hx)) (k + 1)
        (done ++ [rangeUnmapArgs c acc r])
      refine ⟨j + 1, left, by rw [List.length_cons]; omega, ?_, ?_, by rw [List.length_cons]; omega, ?_⟩
      · intro i hi
        cases i with
        | zero => exact hok
        | succ i => have := h2 i (by omega); rw [← this]; congr 1; omega
      · intro hlt
        rw [List.length_cons] at hlt
        have := h3 (by omega); rw [← this]; congr 1; omega
      · rw [e]
        simp
    | false =>
      simp only [Bool.false_eq_true, if_false]
      exact ⟨0, _, Nat.zero_le _, (fun i hi => by omega), (fun _ => hok), (by simp : ({ r with bitmap := none } :: l).length = _), by simp⟩

end Verif.Mempool
