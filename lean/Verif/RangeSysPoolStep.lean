import Verif.RangeSysPoolInv
/-
The invariant of `Verif.RangeSys.PReach` holds in every history (helper).
-/
namespace Verif.RangeSys
open Verif Verif.Mempool

variable [Abi]

/-- The invariant of a process. -/
structure PInv (pg : Nat) (P : Proc) : Prop where
  world : WReach pg P.w
  sys : LInv pg (shapeL P.w.entries) P.s P.rest P.restFds P.restHeap
  mem : MemOK pg P.s P.w.mem

theorem PInv.ranges {pg : Nat} {P : Proc} (h : PInv pg P) {e : Entry} (he : e ∈ P.w.entries) :
    e.c.pg = pg ∧ Valid e.c ∧ Inv e.c false { pool := e.pool, mem := P.w.mem } e.live e.freed := by
  have hw := wreach_inv h.world
  obtain ⟨h1, h2, _⟩ := hw.each e he
  exact ⟨h1, h2, hw.inv he⟩

theorem shapeL_mem {es : List Entry} {e : Entry} (he : e ∈ es) : (e.c, e.pool.ranges.map (·.base)) ∈ shapeL es :=
  List.mem_map.2 ⟨e, he, rfl⟩

theorem PInv.pool_iff {pg : Nat} {P : Proc} (h : PInv pg P) (p : Nat) : P.Pool pg p ↔ InL pg (shapeL P.w.entries) p := by
  constructor
  · rintro ⟨e, he, r, hr, hp⟩
    obtain ⟨e1, hv, hi⟩ := h.ranges he
    have hri := hi.ranges.each r hr
    rw [hri.maddr, hri.mlen, e1] at hp
    exact ⟨_, shapeL_mem he, r.base, List.mem_map.2 ⟨r, hr, rfl⟩, hp⟩
  · rintro ⟨x, hx, b, hb, hp⟩
    obtain ⟨e, he, rfl⟩ := List.mem_map.1 hx
    obtain ⟨r, hr, rfl⟩ := List.mem_map.1 hb
    obtain ⟨e1, hv, hi⟩ := h.ranges he
    have hri := hi.ranges.each r hr
    refine ⟨e, he, r, hr, ?_⟩
    rw [hri.maddr, hri.mlen, e1]
    exact hp

/-- Two page-aligned blocks, one of mapped and one of unmapped pages. -/
theorem apart2_of_pages {c1 c2 : Config} {pg b1 b2 : Nat} {s : Sys} (e1 : c1.pg = pg) (e2 : c2.pg = pg) (hpg : 0 < pg)
    (d1 : pg ∣ b1) (d2 : pg ∣ b2) (h1 : 2 * pg ≤ b1) (h2 : 2 * pg ≤ b2)
    (hn : ∀ p, InPages pg (b1 - 2 * pg) (2 * pg + rangeLen c1) p → s.page p = none)
    (hm : ∀ p, InPages pg (b2 - 2 * pg) (2 * pg + rangeLen c2) p → s.page p ≠ none) : Apart2 c1 b1 c2 b2 := by
  obtain ⟨a, ha⟩ := d1
  obtain ⟨b, hb⟩ := d2
  have ea : (a - 2) * pg = b1 - 2 * pg := by rw [Nat.sub_mul, Nat.mul_comm a, ← ha]
  have eb : (b - 2) * pg = b2 - 2 * pg := by rw [Nat.sub_mul, Nat.mul_comm b, ← hb]
  unfold Apart2
  rw [e1, e2]
  rcases Nat.lt_or_ge b2 (b1 + rangeLen c1 + 2 * pg) with h3 | h3
  · rcases Nat.lt_or_ge b1 (b2 + rangeLen c2 + 2 * pg) with h4 | h4
    · exfalso
      rcases Nat.le_total b1 b2 with h5 | h5
      · exact hm (b - 2) ⟨by omega, by omega⟩ (hn (b - 2) ⟨by omega, by omega⟩)
      · exact hm (a - 2) ⟨by omega, by omega⟩ (hn (a - 2) ⟨by omega, by omega⟩)
    · exact Or.inr h4
  · exact Or.inl h3

/-- What the allocator proofs assume of the environment follows from the system model. -/
theorem PInv.env {pg : Nat} {P : Proc} (h : PInv pg P) {c : Config} (hpg : c.pg = pg) {env : SysEnv}
    {stores : Nat → List (Nat × Byte)} (hok : SysOK c env P.s) (hcb : ∀ k o b, (o, b) ∈ stores k → o < c.stride)
    {l : List Range} (hl : ∀ r ∈ l, ∃ e ∈ P.w.entries, e.c = c ∧ r ∈ e.pool.ranges) :
    EnvOK c l P.w.mem (absEnv c env P.s stores) ∧
    ∀ base, (absEnv c env P.s stores).base = some base → ∀ e ∈ P.w.entries, ∀ r ∈ e.pool.ranges, Apart2 c base e.c r.base := by
  have hmap : ∀ e ∈ P.w.entries, ∀ r ∈ e.pool.ranges, ∀ p, InPages pg (r.base - 2 * pg) (2 * pg + rangeLen e.c) p → P.s.page p ≠ none :=
    fun e he r hr p hp => h.sys.mapped ⟨_, shapeL_mem he, r.base, List.mem_map.2 ⟨r, hr, rfl⟩, hp⟩
  obtain ⟨h1, h2⟩ := absEnv_ok (l := l) (m := P.w.mem) (stores := stores) hok (by rw [hpg]; exact h.mem) hcb (by
    intro r hr
    obtain ⟨e, he, rfl, hr'⟩ := hl r hr
    obtain ⟨_, hv, hi⟩ := h.ranges he
    have hri := hi.ranges.each r hr'
    refine ⟨hri, ?_⟩
    rw [hri.maddr, hri.mlen, hpg]
    exact hmap e he r hr')
  refine ⟨h1, fun base hb e he r hr => ?_⟩
  obtain ⟨k1, k2, k3⟩ := h2 base hb
  obtain ⟨e1, hv, hi⟩ := h.ranges he
  have hri := hi.ranges.each r hr
  rw [hpg] at k1 k2 k3
  have hd : pg ∣ r.base := by rw [← e1]; exact Nat.dvd_trans hv.pg_dvd hri.al
  have hp := hri.pos
  rw [e1] at hp
  exact apart2_of_pages hpg e1 (by rw [← e1]; exact hv.pg_pos) k2 hd k1 hp k3 (hmap e he r hr)

theorem bitmapsL_app (a b : List (Config × List Nat)) : bitmapsL (a ++ b) = bitmapsL a + bitmapsL b := by
  unfold bitmapsL
  rw [List.map_append, List.sum_append]

theorem bitmapsL_cons (x : Config × List Nat) (b : List (Config × List Nat)) :
    bitmapsL (x :: b) = (if x.1.robust then x.2.length else 0) + bitmapsL b := by
  unfold bitmapsL
  rw [List.map_cons, List.sum_cons]

theorem shapeL_app (a b : List Entry) : shapeL (a ++ b) = shapeL a ++ shapeL b := List.map_append
theorem shapeL_cons (e : Entry) (b : List Entry) : shapeL (e :: b) = (e.c, e.pool.ranges.map (·.base)) :: shapeL b := rfl

omit [Abi] in
theorem foldl_munmap_nat (pg : Nat) (us : List (Nat × Nat)) (s : Sys) :
    Same s (us.foldl (fun s u => s.munmap pg u.1 u.2) s) ∧
    ∀ p, ((∃ u ∈ us, InPages pg u.1 u.2 p) → (us.foldl (fun s u => s.munmap pg u.1 u.2) s).page p = none) ∧
      ((¬ ∃ u ∈ us, InPages pg u.1 u.2 p) → (us.foldl (fun s u => s.munmap pg u.1 u.2) s).page p = s.page p) := by
  induction us generalizing s with
  | nil => exact ⟨Same.refl s, fun p => ⟨fun ⟨u, hu, _⟩ => (by cases hu), fun _ => rfl⟩⟩
  | cons u us ih =>
    obtain ⟨h1, h2⟩ := ih (s.munmap pg u.1 u.2)
    refine ⟨(setPages_same s _ _ _ _).trans h1, fun p => ⟨fun hp => ?_, fun hp => ?_⟩⟩
    · rw [List.foldl_cons]
      by_cases ht : ∃ v ∈ us, InPages pg v.1 v.2 p
      · exact (h2 p).1 ht
      · rw [(h2 p).2 ht]
        obtain ⟨v, hv, hp⟩ := hp
        rcases List.mem_cons.1 hv with rfl | hv
        · unfold Sys.munmap Sys.setPages
          simp only []
          rw [if_pos hp]
        · exact absurd ⟨v, hv, hp⟩ ht
    · rw [List.foldl_cons, (h2 p).2 (fun ⟨v, hv, hq⟩ => hp ⟨v, List.mem_cons_of_mem _ hv, hq⟩)]
      unfold Sys.munmap Sys.setPages
      simp only []
      rw [if_neg (fun hq => hp ⟨u, List.mem_cons_self, hq⟩)]

/-- Adding a range keeps the system invariant. -/
theorem PInv.addRange {pg : Nat} {P : Proc} (h : PInv pg P) {c : Config} (hpg : c.pg = pg) {env : SysEnv} {nr : Nat}
    (hok : SysOK c env P.s) {base header ma ml : Word} {s' : Sys} (hs : rangeCreateSys c nr env P.s = .range base header ma ml s')
    {L' : List (Config × List Nat)}
    (hold : ∀ x ∈ shapeL P.w.entries, ∃ y ∈ L', y.1 = x.1 ∧ ∀ b ∈ x.2, b ∈ y.2) (hnewin : ∃ y ∈ L', y.1 = c ∧ base.toNat ∈ y.2)
    (hnew : ∀ y ∈ L', ∀ b ∈ y.2, (∃ x ∈ shapeL P.w.entries, x.1 = y.1 ∧ b ∈ x.2) ∨ (y.1 = c ∧ b = base.toNat))
    (hsum : bitmapsL L' = bitmapsL (shapeL P.w.entries) + if c.robust then 1 else 0) {m' : Mem}
    (hf : Mem.Frame c.pg (InRegion c base.toNat) (mapRange c base.toNat P.w.mem) m') :
    LInv pg L' s' P.rest P.restFds P.restHeap ∧ MemOK pg s' m' := by
  rcases rangeCreateSys_cases (nr := nr) hok with ⟨t, h1, _⟩ | ⟨h1, _⟩ |
    ⟨b, hd, ma', ml', t, h1, g1, g2, g3, g4, g5, g6, g7, g8, g9, g10, g11, g12, g13, g14⟩
  · rw [hs] at h1; cases h1
  · rw [hs] at h1; cases h1
  · rw [hs] at h1
    cases h1
    have hv := hok.valid
    have hh : header.toNat = base.toNat - 2 * c.pg := by omega
    rw [hh] at g8 g9
    have hm' : MemOK c.pg s' m' := memOK_create hv (by rw [hpg]; exact h.mem) g1 (by omega) g8 g9 hf
    rw [hpg] at g8 g9 hm'
    refine ⟨h.sys.add hold hnewin hnew hsum (by rw [← hpg]; exact hv.pg_pos) ?_ (by omega) g8 g9 g10 g11 (fun hc => (g12 hc).1) g13, hm'⟩
    rw [← hpg]
    exact Nat.dvd_trans hv.pg_dvd g1

theorem pstep_inv {pg : Nat} {P P' : Proc} (ih : PInv pg P) (hs : PStep pg P P') : PInv pg P' := by
  cases hs with
  | create c env stores base header ma ml s' r m' hpg hok hun hcb hsys h =>
    obtain ⟨henv, hfresh⟩ := ih.env hpg hok hcb (l := []) (fun r hr => by cases hr)
    have hout := absEnv_outcome (stores := stores) (pool := ⟨[], 0, 0⟩) P.w.mem hok
    simp only [] at hout
    rw [hsys] at hout
    simp only [] at hout
    obtain ⟨hb, r', m2, hrc, hbase, _⟩ := hout
    rw [h] at hrc
    cases hrc
    have hf := rangeCreate_mem hok.valid hcb h
    rw [hbase] at hf
    obtain ⟨l1, l2⟩ := ih.addRange hpg hok hsys (L' := shapeL (⟨c, ⟨[r], 0, 1⟩, [], []⟩ :: P.w.entries))
      (fun x hx => ⟨x, List.mem_cons_of_mem _ hx, rfl, fun _ h => h⟩)
      ⟨(c, [r.base]), List.mem_cons_self, rfl, by rw [hbase]; exact List.mem_singleton.2 rfl⟩
      (by
        intro y hy b hb
        rcases List.mem_cons.1 hy with rfl | hy
        · right
          refine ⟨rfl, ?_⟩
          rw [← hbase]
          exact List.mem_singleton.1 hb
        · exact Or.inl ⟨y, hy, rfl, hb⟩)
      (by rw [shapeL_cons, bitmapsL_cons]; show (if c.robust = true then 1 else 0) + _ = _; omega) hf
    exact ⟨WReach.step _ _ ih.world (WStep.create P.w c _ r m' hok.valid hpg henv hfresh h), l1, l2⟩
  | createNull c env s' hpg hok hun hsys =>
    rcases rangeCreateSys_cases (nr := 0) hok with ⟨t, h1, h2, h3, h4, h5, h6, h7⟩ | ⟨h1, _⟩ | ⟨_, _, _, _, _, h1, _⟩
    · rw [hsys] at h1
      cases h1
      exact ⟨ih.world, ih.sys.keep (h2 hun) h3 h4 h5, ih.mem.mono h7⟩
    · rw [hsys] at h1; cases h1
    · rw [hsys] at h1; cases h1
  | malloc pre post e fill env stores ret t s' hw hok hun hcb hsys h =>
    have he : e ∈ P.w.entries := by rw [hw]; exact List.mem_append_right _ List.mem_cons_self
    obtain ⟨hpg, hv, hi⟩ := ih.ranges he
    obtain ⟨henv, hfresh⟩ := ih.env hpg hok hcb (l := e.pool.ranges) (fun r hr => ⟨e, he, rfl, hr⟩)
    have hworld : WReach pg ⟨t.mem, pre ++ e.afterMalloc t.pool ret :: post⟩ :=
      WReach.step _ _ ih.world (WStep.malloc P.w pre post e fill _ ret t hw henv
        (fun base hb e2 he2 r hr => hfresh base hb e2 (by rw [hw]; simp only [List.mem_append, List.mem_cons] at he2 ⊢; grind) r hr) h)
    -- same pages, same bases
    have same : ∀ (l : List Nat), l = t.pool.ranges.map (·.base) → l = e.pool.ranges.map (·.base) →
        shapeL (pre ++ e.afterMalloc t.pool ret :: post) = shapeL P.w.entries := by
      intro l h1 h2
      rw [hw, shapeL_app, shapeL_app, shapeL_cons, shapeL_cons]
      have : (e.afterMalloc t.pool ret).c = e.c ∧ (e.afterMalloc t.pool ret).pool = t.pool := by cases ret <;> exact ⟨rfl, rfl⟩
      rw [this.1, this.2, ← h1, ← h2]
    -- the allocation ran under the lock, then filled the item
    have hfill : fill.len ≤ e.c.itemLen → ∃ ch s1, lockedAlloc e.c (absEnv e.c env P.s stores) { pool := e.pool, mem := P.w.mem } = .ok (ch, s1) ∧
        t.pool = s1.pool ∧ (∃ W, Mem.Frame e.c.pg W s1.mem t.mem) := by
      intro hlen
      rcases malloc_spec hv hi henv fill with ⟨hl, e1⟩ | ⟨_, ⟨r, k, s1, F', hla, e1, _, _, _, hf, _⟩ | ⟨e1, _⟩ | ⟨e1, _⟩⟩
      · omega
      · rw [e1] at h
        cases h
        exact ⟨_, s1, hla, rfl, _, hf⟩
      · unfold malloc at h
        rw [if_neg (by omega)] at h
        cases hla : lockedAlloc e.c (absEnv e.c env P.s stores) { pool := e.pool, mem := P.w.mem } with
        | ub => rw [hla] at h; cases h
        | aborted a => rw [hla] at h; cases h
        | ok x =>
          rw [hla] at h
          obtain ⟨ch, s1⟩ := x
          cases ch with
          | null er => cases h; exact ⟨_, _, rfl, rfl, fun _ => False, Mem.Frame.refl⟩
          | item r off addr =>
            unfold malloc at e1
            rw [if_neg (by omega), hla] at e1
            cases e1
      · rw [e1] at h; cases h
    by_cases hcond : fill.len ≤ e.c.itemLen ∧ needsRange e.c e.pool = true
    · -- a new range is needed
      obtain ⟨ch, s1, hla, hpool, W, hf⟩ := hfill hcond.1
      unfold sysAfter at hsys
      rw [if_pos hcond] at hsys
      have hout := absEnv_outcome (stores := stores) (pool := e.pool) P.w.mem hok
      rcases lockedAlloc_branch.2 hcond.2 ch s1 hla with ⟨hnone, hs1⟩ | ⟨r1, m1, hrc, hm1, hbases⟩
      · -- refused
        have hnone : (rangeCreate e.c e.pool P.w.mem (absEnv e.c env P.s stores)).2 = none := hnone
        cases hr : rangeCreateSys e.c e.pool.nrRanges env P.s with
        | killed => rw [hr] at hsys; cases hsys
        | range base header ma ml s2 =>
          rw [hr] at hout
          obtain ⟨_, r, m', hsome, _⟩ := hout
          rw [hnone] at hsome; cases hsome
        | null s2 =>
          rw [hr] at hsys
          cases hsys
          rcases rangeCreateSys_cases (nr := e.pool.nrRanges) hok with ⟨t', h1, h2, h3, h4, h5, h6, h7⟩ | ⟨h1, _⟩ | ⟨_, _, _, _, _, h1, _⟩
          · rw [hr] at h1
            cases h1
            refine ⟨hworld, ?_, ?_⟩
            · show LInv pg (shapeL (pre ++ e.afterMalloc t.pool ret :: post)) _ _ _ _
              rw [same _ rfl (by rw [hpool, hs1])]
              exact ih.sys.keep (h2 hun) h3 h4 h5
            · rw [hpg, hs1] at hf
              exact (ih.mem.frame hf).mono h7
          · rw [hr] at h1; cases h1
          · rw [hr] at h1; cases h1
      · have hrc : (rangeCreate e.c e.pool P.w.mem (absEnv e.c env P.s stores)).2 = some (r1, m1) := hrc
        cases hr : rangeCreateSys e.c e.pool.nrRanges env P.s with
        | killed => rw [hr] at hsys; cases hsys
        | null s2 =>
          rw [hr] at hout
          have hout : (rangeCreate e.c e.pool P.w.mem (absEnv e.c env P.s stores)).2 = none := hout
          rw [hrc] at hout; cases hout
        | range base header ma ml s2 =>
          rw [hr] at hsys hout
          cases hsys
          obtain ⟨_, r, m', hsome, hbase, _⟩ := hout
          rw [hrc] at hsome
          cases hsome
          have hfc := rangeCreate_mem hv hcb hrc
          rw [hbase] at hfc
          have hac : (e.afterMalloc t.pool ret).c = e.c ∧ (e.afterMalloc t.pool ret).pool = t.pool := by cases ret <;> exact ⟨rfl, rfl⟩
          have hshape : shapeL (pre ++ e.afterMalloc t.pool ret :: post) =
              shapeL pre ++ (e.c, base.toNat :: e.pool.ranges.map (·.base)) :: shapeL post := by
            rw [shapeL_app, shapeL_cons, hac.1, hac.2, hpool, hbases, hbase]
          obtain ⟨l1, l2⟩ := ih.addRange hpg hok hr (L' := shapeL (pre ++ e.afterMalloc t.pool ret :: post)) (m' := m1)
            (by
              intro x hx
              rw [hw, shapeL_app, shapeL_cons, List.mem_append, List.mem_cons] at hx
              rw [hshape]
              rcases hx with hx | rfl | hx
              · exact ⟨x, List.mem_append_left _ hx, rfl, fun _ h => h⟩
              · exact ⟨_, List.mem_append_right _ List.mem_cons_self, rfl, fun b hb => List.mem_cons_of_mem _ hb⟩
              · exact ⟨x, List.mem_append_right _ (List.mem_cons_of_mem _ hx), rfl, fun _ h => h⟩)
            (by
              rw [hshape]
              exact ⟨_, List.mem_append_right _ List.mem_cons_self, rfl, List.mem_cons_self⟩)
            (by
              intro y hy b hb
              rw [hshape, List.mem_append, List.mem_cons] at hy
              rw [hw, shapeL_app, shapeL_cons]
              rcases hy with hy | rfl | hy
              · exact Or.inl ⟨y, List.mem_append_left _ hy, rfl, hb⟩
              · rcases List.mem_cons.1 hb with hb | hb
                · exact Or.inr ⟨rfl, hb⟩
                · exact Or.inl ⟨_, List.mem_append_right _ List.mem_cons_self, rfl, hb⟩
              · exact Or.inl ⟨y, List.mem_append_right _ (List.mem_cons_of_mem _ hy), rfl, hb⟩)
            (by
              rw [hshape, hw, shapeL_app, shapeL_cons, bitmapsL_app, bitmapsL_app, bitmapsL_cons, bitmapsL_cons]
              simp only [List.length_cons]
              split <;> omega) hfc
          refine ⟨hworld, l1, ?_⟩
          rw [hpg, hm1] at hf
          exact l2.frame hf
    · -- no new range
      unfold sysAfter at hsys
      rw [if_neg hcond] at hsys
      cases hsys
      by_cases hlen : fill.len ≤ e.c.itemLen
      · obtain ⟨ch, s1, hla, hpool, W, hf⟩ := hfill hlen
        have hn : needsRange e.c e.pool = false := by
          cases hh : needsRange e.c e.pool
          · rfl
          · exact absurd ⟨hlen, hh⟩ hcond
        obtain ⟨b1, b2⟩ := lockedAlloc_branch.1 hn ch s1 hla
        refine ⟨hworld, ?_, ?_⟩
        · show LInv pg (shapeL (pre ++ e.afterMalloc t.pool ret :: post)) P.s _ _ _
          rw [same _ rfl (by rw [hpool]; exact b2)]
          exact ih.sys
        · rw [hpg, b1] at hf
          exact ih.mem.frame hf
      · unfold malloc at h
        rw [if_pos (by omega)] at h
        cases h
        refine ⟨hworld, ?_, ih.mem⟩
        show LInv pg (shapeL (pre ++ e.afterMalloc e.pool _ :: post)) P.s _ _ _
        rw [same _ rfl rfl]
        exact ih.sys
  | free pre post e p t hw hp h =>
    have he : e ∈ P.w.entries := by rw [hw]; exact List.mem_append_right _ List.mem_cons_self
    obtain ⟨hpg, hv, hi⟩ := ih.ranges he
    obtain ⟨t', e1, hi', hf, hb, _⟩ := free_spec hv hi hp
    rw [e1] at h
    injection h with h
    subst h
    refine ⟨WReach.step _ _ ih.world (WStep.free P.w pre post e p t' hw hp e1), ?_, ?_⟩
    · show LInv pg (shapeL (pre ++ _ :: post)) P.s _ _ _
      rw [shapeL_app, shapeL_cons]
      have := ih.sys
      rw [hw, shapeL_app, shapeL_cons] at this
      rw [show (e.c, t'.pool.ranges.map (·.base)) = (e.c, e.pool.ranges.map (·.base)) from by rw [hb]]
      exact this
    · rw [hpg] at hf
      exact ih.mem.frame hf
  | store e p cpu o b he hp hcpu ho =>
    obtain ⟨hpg, hv, hi⟩ := ih.ranges he
    exact ⟨WReach.step _ _ ih.world (WStep.store P.w e p cpu o b he hp hcpu ho), ih.sys,
      ih.mem.frame (Mem.Frame.write (by rw [← hpg]; exact hv.pg_pos))⟩
  | destroy pre post e res hw h =>
    have he : e ∈ P.w.entries := by rw [hw]; exact List.mem_append_right _ List.mem_cons_self
    obtain ⟨hpg, hv, hi⟩ := ih.ranges he
    have hppos : 0 < pg := by rw [← hpg]; exact hv.pg_pos
    have hun : res.unmapped = e.pool.ranges.map fun r => (r.base - 2 * pg, 2 * pg + rangeLen e.c) := by
      rw [← hpg]; exact destroy_unmapped (fun r hr => hi.ranges.each r hr) h
    have hin : ∀ p, (∃ u ∈ res.unmapped, InPages pg u.1 u.2 p) ↔ InL pg [(e.c, e.pool.ranges.map (·.base))] p := by
      intro p
      rw [hun]
      constructor
      · rintro ⟨u, hu, hp⟩
        obtain ⟨r, hr, rfl⟩ := List.mem_map.1 hu
        exact ⟨_, List.mem_singleton.2 rfl, r.base, List.mem_map.2 ⟨r, hr, rfl⟩, hp⟩
      · rintro ⟨x, hx, b, hb, hp⟩
        rw [List.mem_singleton] at hx
        subst hx
        obtain ⟨r, hr, rfl⟩ := List.mem_map.1 hb
        exact ⟨_, List.mem_map.2 ⟨r, hr, rfl⟩, hp⟩
    obtain ⟨fs, fp⟩ := foldl_munmap_nat pg res.unmapped P.s
    -- blocks of different pools are disjoint
    have hsep : ∀ e2 ∈ pre ++ post, Sep e e2 := by
      have hwi := (wreach_inv ih.world).sep
      rw [hw, List.pairwise_append] at hwi
      obtain ⟨_, h2, h3⟩ := hwi
      rw [List.pairwise_cons] at h2
      intro e2 he2
      rcases List.mem_append.1 he2 with he2 | he2
      · exact (h3 e2 he2 e List.mem_cons_self).symm
      · exact h2.1 e2 he2
    have hsub : ∀ e2 ∈ pre ++ post, e2 ∈ P.w.entries := by
      intro e2 he2
      rw [hw]
      simp only [List.mem_append, List.mem_cons] at he2 ⊢
      grind
    have hdisj : ∀ p, InL pg [(e.c, e.pool.ranges.map (·.base))] p → ¬ InL pg (shapeL (pre ++ post)) p := by
      rintro p ⟨x, hx, b, hb, hp⟩ ⟨y, hy, b', hb', hp'⟩
      rw [List.mem_singleton] at hx
      subst hx
      obtain ⟨r, hr, rfl⟩ := List.mem_map.1 hb
      obtain ⟨e2, he2, rfl⟩ := List.mem_map.1 hy
      obtain ⟨r2, hr2, rfl⟩ := List.mem_map.1 hb'
      have hap := hsep e2 he2 r hr r2 hr2
      obtain ⟨hpg2, hv2, hi2⟩ := ih.ranges (hsub e2 he2)
      have b1 := (hi.ranges.each r hr).pos
      have b2 := (hi2.ranges.each r2 hr2).pos
      unfold Apart2 at hap
      rw [hpg, hpg2] at hap
      rw [hpg] at b1
      rw [hpg2] at b2
      have := hp.1
      have : p * pg < r.base - 2 * pg + (2 * pg + rangeLen e.c) := hp.2
      have := hp'.1
      have : p * pg < r2.base - 2 * pg + (2 * pg + rangeLen e2.c) := hp'.2
      omega
    -- memory after unmapping
    have hsrc : ∀ x, (unmapMem pg res.unmapped P.w.mem).resolve pg x =
        if (∃ u ∈ res.unmapped, InPages pg u.1 u.2 (x / pg)) then x else P.w.mem.resolve pg x := by
      intro x
      unfold unmapMem Mem.resolve
      simp only []
      by_cases hx : ∃ u ∈ res.unmapped, InPages pg u.1 u.2 (x / pg)
      · rw [if_pos hx, if_pos]
        rw [List.any_eq_true]
        obtain ⟨u, hu, hp⟩ := hx
        exact ⟨u, hu, decide_eq_true hp⟩
      · rw [if_neg hx, if_neg]
        rw [List.any_eq_true]
        rintro ⟨u, hu, hp⟩
        exact hx ⟨u, hu, of_decide_eq_true hp⟩
    have hnotIn : ∀ x, (¬ ∃ u ∈ res.unmapped, InPages pg u.1 u.2 (x / pg)) → ∀ r ∈ e.pool.ranges, ¬ InRegion e.c r.base x := by
      intro x hx r hr hreg
      have hri := hi.ranges.each r hr
      have hd : pg ∣ r.base := by rw [← hpg]; exact Nat.dvd_trans hv.pg_dvd hri.al
      have hd2 : pg ∣ r.base + rangeLen e.c := Nat.dvd_add hd (by rw [← hpg]; exact hv.pg_dvd_rangeLen)
      have h1 := (le_page_iff hppos hd).2 hreg.1
      have h2 := (page_lt_iff hppos hd2).2 hreg.2
      have h3 := hri.pos
      rw [hpg] at h3
      refine hx ((hin _).2 ⟨_, List.mem_singleton.2 rfl, r.base, List.mem_map.2 ⟨r, hr, rfl⟩, ?_, ?_⟩)
      · omega
      · show x / pg * pg < r.base - 2 * pg + (2 * pg + rangeLen e.c)
        omega
    have hwf : (unmapMem pg res.unmapped P.w.mem).WF := by
      intro p q hpq
      unfold unmapMem at hpq ⊢
      simp only [] at hpq ⊢
      split at hpq
      · cases hpq
      · split
        · rfl
        · exact (wreach_inv ih.world).wf p q hpq
    have hext : ∀ e2 ∈ pre ++ post, ExtOK e2.c e2.pool.ranges P.w.mem (unmapMem pg res.unmapped P.w.mem) := by
      intro e2 he2
      obtain ⟨hpg2, hv2, hi2⟩ := ih.ranges (hsub e2 he2)
      have hkeep : ∀ r ∈ e2.pool.ranges, ∀ x, InRegion e2.c r.base x → ¬ ∃ u ∈ res.unmapped, InPages pg u.1 u.2 (x / pg) := by
        intro r hr x hx hu
        refine hdisj _ ((hin _).1 hu) ⟨_, shapeL_mem he2, r.base, List.mem_map.2 ⟨r, hr, rfl⟩, ?_, ?_⟩
        · have hri := hi2.ranges.each r hr
          have hd : pg ∣ r.base := by rw [← hpg2]; exact Nat.dvd_trans hv2.pg_dvd hri.al
          have := (le_page_iff hppos hd).2 hx.1
          omega
        · have hri := hi2.ranges.each r hr
          have hd : pg ∣ r.base := by rw [← hpg2]; exact Nat.dvd_trans hv2.pg_dvd hri.al
          have hd2 : pg ∣ r.base + rangeLen e2.c := Nat.dvd_add hd (by rw [← hpg2]; exact hv2.pg_dvd_rangeLen)
          have := (page_lt_iff hppos hd2).2 hx.2
          have h3 := hri.pos
          rw [hpg2] at h3
          show x / pg * pg < r.base - 2 * pg + (2 * pg + rangeLen e2.c)
          omega
      refine ⟨hwf, fun r hr x hx => ?_, fun x hx r hr => ?_⟩
      · rw [hpg2]
        have e3 := hsrc x
        rw [if_neg (hkeep r hr x hx)] at e3
        refine ⟨Or.inl e3, ?_⟩
        unfold Mem.read
        rw [e3]
        rfl
      · rw [hpg2, hsrc x]
        split
        · exact hx r hr
        · have := hi2.shape.outside x hx r hr
          rw [hpg2] at this
          exact this
    refine ⟨WReach.step _ _ (WReach.step _ _ ih.world (WStep.destroy P.w pre post e hw))
      (WStep.ext ⟨P.w.mem, pre ++ post⟩ (unmapMem pg res.unmapped P.w.mem) hwf hext), ?_, ?_⟩
    · have hl := ih.sys
      rw [hw, shapeL_app, shapeL_cons] at hl
      rw [shapeL_app] at hdisj
      show LInv pg (shapeL (pre ++ post)) _ _ _ _
      rw [shapeL_app]
      refine hl.remove hdisj (fun p => ⟨fun hp => (fp p).1 ((hin p).2 hp), fun hp => (fp p).2 fun hh => hp ((hin p).1 hh)⟩)
        fs.fds ?_ fs.objs
      show _ - _ = _ - _
      simp only [List.length_map]
    · intro x
      show (unmapMem pg res.unmapped P.w.mem).resolve pg x = x ∨ _
      rw [hsrc x]
      by_cases hx : ∃ u ∈ res.unmapped, InPages pg u.1 u.2 (x / pg)
      · rw [if_pos hx]; exact Or.inl rfl
      · rw [if_neg hx]
        rcases ih.mem x with e4 | ⟨A, B, o, f, h1, h2, h3, h4⟩
        · exact Or.inl e4
        · right
          refine ⟨A, B, o, f, ((fp _).2 hx).trans h1, ((fp _).2 ?_).trans h2, h3, h4⟩
          -- the source page is not in the destroyed pool
          intro hq
          obtain ⟨x', hx', b, hb, hp⟩ := (hin _).1 hq
          rw [List.mem_singleton] at hx'
          subst hx'
          obtain ⟨r, hr, rfl⟩ := List.mem_map.1 hb
          obtain ⟨obj, k1, _⟩ := ih.sys.obj
          have hpage := k1 _ (shapeL_mem he) r.base (List.mem_map.2 ⟨r, hr, rfl⟩) _ hp
          rw [h2] at hpage
          injection hpage with hpage
          have hri := hi.ranges.each r hr
          have hd : pg ∣ r.base := by rw [← hpg]; exact Nat.dvd_trans hv.pg_dvd hri.al
          have hd2 : pg ∣ r.base + rangeLen e.c := Nat.dvd_add hd (by rw [← hpg]; exact hv.pg_dvd_rangeLen)
          have h5 := hri.pos
          rw [hpg] at h5
          have hp1 := hp.1
          have hp2 : P.w.mem.resolve pg x / pg * pg < r.base - 2 * pg + (2 * pg + rangeLen e.c) := hp.2
          by_cases hhead : P.w.mem.resolve pg x / pg * pg < r.base
          · -- a header page is anonymous
            rw [hpage] at h4
            unfold wantedPage at h4
            simp only [hpg] at h4
            split at h4
            · cases h4
            · rw [if_pos (Or.inl (by omega))] at h4
              cases h4
          · have hno : ¬ InRegion e.c r.base (P.w.mem.resolve pg x) := by
              have := hi.shape.outside x (hnotIn x hx) r hr
              rw [hpg] at this
              exact this
            generalize P.w.mem.resolve pg x = z at *
            exact hno ⟨(le_page_iff hppos hd).1 (by omega), (page_lt_iff hppos hd2).1 (by omega)⟩
  | ext s' m' rest' fds' heap' hpool hrest hhole hfds hheap hobjs hwf hmem h =>
    have hiff := ih.pool_iff
    obtain ⟨obj, k1, k2, k3⟩ := ih.sys.obj
    refine ⟨WReach.step _ _ ih.world (WStep.ext P.w m' hwf h), ⟨?_, ?_, hfds, ?_, obj, ?_, ?_, k3⟩, hmem⟩
    · intro p hp
      exact hrest p fun hh => hp ((hiff p).1 hh)
    · intro p hp
      exact hhole p ((hiff p).2 hp)
    · have := ih.sys.heap
      show s'.heap = heap' + bitmapsL (shapeL P.w.entries)
      omega
    · intro x hx b hb p hp
      show s'.page p = _
      rw [hpool p ((hiff p).2 ⟨x, hx, b, hb, hp⟩)]
      exact k1 x hx b hb p hp
    · intro x hx hc b hb
      exact Nat.lt_of_lt_of_le (k2 x hx hc b hb) hobjs

theorem preach_inv {pg : Nat} {P : Proc} (h : PReach pg P) : PInv pg P := by
  induction h with
  | init s m hwf hmem =>
    refine ⟨WReach.init m hwf, ⟨fun _ _ => rfl, ?_, rfl, rfl, fun _ => 0, ?_, ?_, ?_⟩, hmem⟩
    · rintro p ⟨x, hx, _⟩; cases hx
    · intro x hx; cases hx
    · intro x hx; cases hx
    · intro x hx; cases hx
  | step P P' _ hs ih => exact pstep_inv ih hs

end Verif.RangeSys
