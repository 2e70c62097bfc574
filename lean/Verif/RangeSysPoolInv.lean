import Verif.RangeSysPool
/-
Invariant of `Verif.RangeSys.PReach` (helper lemmas).
-/
namespace Verif.RangeSys
open Verif Verif.Mempool

variable [Abi]

/-- Page `p` belongs to one of the blocks of `L` (pools as configuration and range bases). -/
def InL (pg : Nat) (L : List (Config × List Nat)) (p : Nat) : Prop :=
  ∃ x ∈ L, ∃ b ∈ x.2, InPages pg (b - 2 * pg) (2 * pg + rangeLen x.1) p

/-- Number of bitmaps. -/
def bitmapsL (L : List (Config × List Nat)) : Nat := (L.map fun x => if x.1.robust then x.2.length else 0).sum

/-- The system's view of a process whose pools are `L`. -/
structure LInv (pg : Nat) (L : List (Config × List Nat)) (s : Sys) (rest : Nat → Option Page) (fds : List (Nat × Nat)) (heap : Nat) :
    Prop where
  out : ∀ p, ¬ InL pg L p → s.page p = rest p
  hole : ∀ p, InL pg L p → rest p = none
  fds : s.fds = fds
  heap : s.heap = heap + bitmapsL L
  obj : ∃ obj : Nat → Nat,
    (∀ x ∈ L, ∀ b ∈ x.2, ∀ p, InPages pg (b - 2 * pg) (2 * pg + rangeLen x.1) p →
      s.page p = some (wantedPage x.1 (b - 2 * pg) (obj b) p)) ∧
    (∀ x ∈ L, x.1.cow = true → ∀ b ∈ x.2, obj b < s.objs) ∧
    (∀ x ∈ L, ∀ y ∈ L, x.1.cow = true → y.1.cow = true → ∀ b ∈ x.2, ∀ b' ∈ y.2, b ≠ b' → obj b ≠ obj b')

theorem LInv.mapped {pg : Nat} {L : List (Config × List Nat)} {s : Sys} {rest fds heap} (h : LInv pg L s rest fds heap)
    {p : Nat} (hp : InL pg L p) : s.page p ≠ none := by
  obtain ⟨x, hx, b, hb, hp⟩ := hp
  obtain ⟨obj, h1, _⟩ := h.obj
  rw [h1 x hx b hb p hp]
  exact fun h => (by cases h)

/-- A system change that keeps all mapped pages and everything else. -/
theorem LInv.keep {pg : Nat} {L : List (Config × List Nat)} {s s' : Sys} {rest fds heap} (h : LInv pg L s rest fds heap)
    (h1 : s'.page = s.page) (h2 : s'.fds = s.fds) (h3 : s'.heap = s.heap) (h4 : s.objs ≤ s'.objs) : LInv pg L s' rest fds heap := by
  obtain ⟨obj, k1, k2, k3⟩ := h.obj
  exact ⟨fun p hp => by rw [h1]; exact h.out p hp, h.hole, h2.trans h.fds, h3.trans h.heap,
    obj, fun x hx b hb p hp => by rw [h1]; exact k1 x hx b hb p hp, fun x hx hc b hb => Nat.lt_of_lt_of_le (k2 x hx hc b hb) h4, k3⟩

/-- A new range at base `B` of a pool with configuration `c`. -/
theorem LInv.add {pg : Nat} {L L' : List (Config × List Nat)} {s s' : Sys} {rest fds heap} (h : LInv pg L s rest fds heap)
    {c : Config} {B : Nat}
    (hold : ∀ x ∈ L, ∃ y ∈ L', y.1 = x.1 ∧ ∀ b ∈ x.2, b ∈ y.2) (hnewin : ∃ y ∈ L', y.1 = c ∧ B ∈ y.2)
    (hnew : ∀ y ∈ L', ∀ b ∈ y.2, (∃ x ∈ L, x.1 = y.1 ∧ b ∈ x.2) ∨ (y.1 = c ∧ b = B))
    (hsum : bitmapsL L' = bitmapsL L + if c.robust then 1 else 0)
    (hcpg : 0 < pg) (hBpg : pg ∣ B) (hB2 : 2 * pg ≤ B)
    (hblock : ∀ p, InPages pg (B - 2 * pg) (2 * pg + rangeLen c) p → s.page p = none ∧ s'.page p = some (wantedPage c (B - 2 * pg) s.objs p))
    (hother : ∀ p, ¬ InPages pg (B - 2 * pg) (2 * pg + rangeLen c) p → s'.page p = s.page p)
    (hfds : s'.fds = s.fds) (hheap : s'.heap = s.heap + if c.robust then 1 else 0)
    (hobjs : c.cow = true → s'.objs = s.objs + 1) (hle : s.objs ≤ s'.objs) : LInv pg L' s' rest fds heap := by
  obtain ⟨obj, k1, k2, k3⟩ := h.obj
  have inL : ∀ p, InL pg L' p ↔ InL pg L p ∨ InPages pg (B - 2 * pg) (2 * pg + rangeLen c) p := by
    intro p
    constructor
    · rintro ⟨y, hy, b, hb, hp⟩
      rcases hnew y hy b hb with ⟨x, hx, e, hb'⟩ | ⟨e1, e2⟩
      · exact Or.inl ⟨x, hx, b, hb', by rw [e]; exact hp⟩
      · rw [e1, e2] at hp; exact Or.inr hp
    · rintro (⟨x, hx, b, hb, hp⟩ | hp)
      · obtain ⟨y, hy, e, hsub⟩ := hold x hx
        exact ⟨y, hy, b, hsub b hb, by rw [e]; exact hp⟩
      · obtain ⟨y, hy, e, hb⟩ := hnewin
        exact ⟨y, hy, B, hb, by rw [e]; exact hp⟩
  -- the base is new
  have hBnew : ∀ x ∈ L, B ∉ x.2 := by
    intro x hx hb
    obtain ⟨q, hq⟩ := hBpg
    have e : (q - 2) * pg = B - 2 * pg := by rw [Nat.sub_mul, Nat.mul_comm q, ← hq]
    have i1 : InPages pg (B - 2 * pg) (2 * pg + rangeLen x.1) (q - 2) := ⟨by omega, by omega⟩
    have i2 : InPages pg (B - 2 * pg) (2 * pg + rangeLen c) (q - 2) := ⟨by omega, by omega⟩
    exact h.mapped ⟨x, hx, B, hb, i1⟩ (hblock _ i2).1
  refine ⟨?_, ?_, hfds.trans h.fds, by rw [hheap, h.heap, hsum]; omega, fun b => if b = B then s.objs else obj b, ?_, ?_, ?_⟩
  · intro p hp
    rw [inL, not_or] at hp
    rw [hother p hp.2, h.out p hp.1]
  · intro p hp
    by_cases hin : InL pg L p
    · exact h.hole p hin
    · rcases (inL p).1 hp with h1 | h1
      · exact absurd h1 hin
      · rw [← h.out p hin]; exact (hblock p h1).1
  · intro y hy b hb p hp
    simp only []
    rcases hnew y hy b hb with ⟨x, hx, e, hb'⟩ | ⟨e1, e2⟩
    · rw [if_neg (fun e => hBnew x hx (by rw [← e]; exact hb'))]
      have hp' : InPages pg (b - 2 * pg) (2 * pg + rangeLen x.1) p := by rw [e]; exact hp
      rw [hother p, k1 x hx b hb' p hp', e]
      intro hq
      exact h.mapped ⟨x, hx, b, hb', hp'⟩ (hblock p hq).1
    · rw [e1, e2] at hp ⊢
      rw [if_pos rfl]
      exact (hblock p hp).2
  · intro y hy hc b hb
    simp only []
    rcases hnew y hy b hb with ⟨x, hx, e, hb'⟩ | ⟨e1, e2⟩
    · rw [if_neg (fun e => hBnew x hx (by rw [← e]; exact hb'))]
      exact Nat.lt_of_lt_of_le (k2 x hx (by rw [e]; exact hc) b hb') hle
    · rw [if_pos e2, hobjs (by rw [← e1]; exact hc)]
      exact Nat.lt_succ_self _
  · intro y hy z hz hcy hcz b hb b' hb' hne
    simp only []
    rcases hnew y hy b hb with ⟨x, hx, e, hxb⟩ | ⟨e1, e2⟩
    · rcases hnew z hz b' hb' with ⟨x', hx', e', hxb'⟩ | ⟨e1', e2'⟩
      · rw [if_neg (fun e => hBnew x hx (by rw [← e]; exact hxb)), if_neg (fun e => hBnew x' hx' (by rw [← e]; exact hxb'))]
        exact k3 x hx x' hx' (by rw [e]; exact hcy) (by rw [e']; exact hcz) b hxb b' hxb' hne
      · rw [if_neg (fun e => hBnew x hx (by rw [← e]; exact hxb)), if_pos e2']
        exact Nat.ne_of_lt (k2 x hx (by rw [e]; exact hcy) b hxb)
    · rcases hnew z hz b' hb' with ⟨x', hx', e', hxb'⟩ | ⟨e1', e2'⟩
      · rw [if_pos e2, if_neg (fun e => hBnew x' hx' (by rw [← e]; exact hxb'))]
        exact fun h => Nat.ne_of_lt (k2 x' hx' (by rw [e']; exact hcz) b' hxb') h.symm
      · exact absurd (e2.trans e2'.symm) hne

/-- Pool `x` disappears with all its blocks. -/
theorem LInv.remove {pg : Nat} {pre post : List (Config × List Nat)} {x : Config × List Nat} {s s' : Sys} {rest fds heap}
    (h : LInv pg (pre ++ x :: post) s rest fds heap)
    (hdisj : ∀ p, InL pg [x] p → ¬ InL pg (pre ++ post) p)
    (hpage : ∀ p, (InL pg [x] p → s'.page p = none) ∧ (¬ InL pg [x] p → s'.page p = s.page p))
    (hfds : s'.fds = s.fds) (hheap : s'.heap = s.heap - if x.1.robust then x.2.length else 0) (hobjs : s'.objs = s.objs) :
    LInv pg (pre ++ post) s' rest fds heap := by
  obtain ⟨obj, k1, k2, k3⟩ := h.obj
  have sub : ∀ y ∈ pre ++ post, y ∈ pre ++ x :: post := by
    intro y hy
    rw [List.mem_append] at hy ⊢
    rcases hy with hy | hy
    · exact Or.inl hy
    · exact Or.inr (List.mem_cons_of_mem _ hy)
  have inL : ∀ p, InL pg (pre ++ x :: post) p ↔ InL pg (pre ++ post) p ∨ InL pg [x] p := by
    intro p
    constructor
    · rintro ⟨y, hy, b, hb, hp⟩
      rw [List.mem_append, List.mem_cons] at hy
      rcases hy with hy | rfl | hy
      · exact Or.inl ⟨y, List.mem_append_left _ hy, b, hb, hp⟩
      · exact Or.inr ⟨y, List.mem_singleton.2 rfl, b, hb, hp⟩
      · exact Or.inl ⟨y, List.mem_append_right _ hy, b, hb, hp⟩
    · rintro (⟨y, hy, b, hb, hp⟩ | ⟨y, hy, b, hb, hp⟩)
      · exact ⟨y, sub y hy, b, hb, hp⟩
      · rw [List.mem_singleton] at hy
        exact ⟨y, by rw [hy]; exact List.mem_append_right _ List.mem_cons_self, b, hb, hp⟩
  have hb : bitmapsL (pre ++ x :: post) = bitmapsL (pre ++ post) + if x.1.robust then x.2.length else 0 := by
    unfold bitmapsL
    rw [List.map_append, List.map_append, List.map_cons, List.sum_append, List.sum_append, List.sum_cons]
    omega
  refine ⟨?_, fun p hp => h.hole p ((inL p).2 (Or.inl hp)), hfds.trans h.fds, ?_, obj, ?_, ?_, ?_⟩
  · intro p hp
    by_cases hx : InL pg [x] p
    · rw [(hpage p).1 hx, h.hole p ((inL p).2 (Or.inr hx))]
    · rw [(hpage p).2 hx]
      refine h.out p fun hh => ?_
      rcases (inL p).1 hh with h1 | h1
      · exact hp h1
      · exact hx h1
  · rw [hheap, h.heap, hb]; omega
  · intro y hy b hb p hp
    rw [(hpage p).2 (fun hx => hdisj p hx ⟨y, hy, b, hb, hp⟩)]
    exact k1 y (sub y hy) b hb p hp
  · intro y hy hc b hb
    rw [hobjs]
    exact k2 y (sub y hy) hc b hb
  · intro y hy z hz
    exact k3 y (sub y hy) z (sub z hz)

/-! ### The allocator's side -/

/-- Pools as configuration and bases. -/
def shapeL (es : List Entry) : List (Config × List Nat) := es.map fun e => (e.c, e.pool.ranges.map (·.base))

theorem rangeCreate_mem {c : Config} (hv : Valid c) {pool : Pool} {m : Mem} {env : RangeEnv} {r : Range} {m' : Mem}
    (hcb : ∀ k o b, (o, b) ∈ (env.cb k).2 → o < c.stride) (h : (rangeCreate c pool m env).2 = some (r, m')) :
    Mem.Frame c.pg (InRegion c r.base) (mapRange c r.base m) m' := by
  unfold rangeCreate at h
  split at h
  · cases h
  cases hb : env.base with
  | none => rw [hb] at h; cases h
  | some base =>
    rw [hb] at h
    dsimp only at h
    split at h
    · cases h
    split at h
    · cases h
    cases hrun : runCalls c env (initCalls c base) 0 (mapRange c base m) with
    | mk log res =>
      rw [hrun] at h
      cases res with
      | none => cases h
      | some m1 =>
        cases h
        exact runCalls_frame hv hcb (initCalls_addr hv) hrun

/-- The new range's copy-on-write pages are what the page tables say. -/
theorem memOK_create {c : Config} (hv : Valid c) {s s' : Sys} {m m' : Mem} {B : Nat}
    (hm : MemOK c.pg s m) (hal : c.stride ∣ B) (hB2 : 2 * c.pg ≤ B)
    (hblock : ∀ p, InPages c.pg (B - 2 * c.pg) (2 * c.pg + rangeLen c) p →
      s.page p = none ∧ s'.page p = some (wantedPage c (B - 2 * c.pg) s.objs p))
    (hother : ∀ p, ¬ InPages c.pg (B - 2 * c.pg) (2 * c.pg + rangeLen c) p → s'.page p = s.page p)
    (hf : Mem.Frame c.pg (InRegion c B) (mapRange c B m) m') : MemOK c.pg s' m' := by
  have hpg := hv.pg_pos
  have hst := hv.stride_pos
  have hBp : c.pg ∣ B := Nat.dvd_trans hv.pg_dvd hal
  refine MemOK.frame ?_ hf
  intro x
  by_cases hin : InRegion c B x
  · by_cases hc : c.cow = true ∧ x < B + c.stride * c.ncpu
    · right
      have hlen : c.stride * c.ncpu + c.stride ≤ rangeLen c := by
        unfold rangeLen
        simp only [hc.1, if_true]
        split <;> omega
      have hsrc := mapRange_src_in hv hal (m := m) (x := x)
      rw [if_pos hin, if_pos hc] at hsrc
      have hx1 := (le_page_iff hpg hBp).2 hin.1
      have hx2 := (page_lt_iff hpg (Nat.dvd_add hBp (Nat.dvd_trans hv.pg_dvd (Nat.dvd_mul_right c.stride c.ncpu)))).2 hc.2
      generalize hp : x / c.pg = p at *
      have hyd : c.pg ∣ (p * c.pg - B) % c.stride :=
        (Nat.dvd_mod_iff hv.pg_dvd).2 (Nat.dvd_sub (Nat.dvd_mul_left _ _) hBp)
      have hqd : c.pg ∣ B + c.stride * c.ncpu + (p * c.pg - B) % c.stride :=
        Nat.dvd_add (Nat.dvd_add hBp (Nat.dvd_trans hv.pg_dvd (Nat.dvd_mul_right _ _))) hyd
      have hylt : (p * c.pg - B) % c.stride < c.stride := Nat.mod_lt _ hst
      generalize hq : (B + c.stride * c.ncpu + (p * c.pg - B) % c.stride) / c.pg = q at *
      have eq : q * c.pg = B + c.stride * c.ncpu + (p * c.pg - B) % c.stride := by rw [← hq, Nat.div_mul_cancel hqd]
      have hres : (mapRange c B m).resolve c.pg x / c.pg = q := by
        unfold Mem.resolve
        rw [hp, hsrc]
        simp only []
        rw [Nat.mul_comm, Nat.mul_add_div hpg, Nat.div_eq_of_lt (Nat.mod_lt _ hpg), Nat.add_zero]
      have hmul : c.stride * (c.ncpu + 1) = c.stride * c.ncpu + c.stride := Nat.mul_succ _ _
      refine ⟨_, wantedPage c (B - 2 * c.pg) s.objs q, s.objs, (p * c.pg - B) % c.stride,
        (hblock p ⟨by omega, by omega⟩).2, ?_, ?_, ?_⟩
      · rw [hres]
        exact (hblock q ⟨by omega, by omega⟩).2
      · unfold wantedPage
        simp only []
        rw [if_neg (by omega), if_neg (by rintro (h | h); · omega
                                          · rw [hc.1] at h; cases h), if_pos (by omega),
          show p * c.pg - (B - 2 * c.pg) - 2 * c.pg = p * c.pg - B by omega]
      · unfold wantedPage
        simp only []
        rw [if_neg (by omega), if_neg (by rintro (h | h); · omega
                                          · rw [hc.1] at h; cases h), if_neg (by omega), if_pos (by omega)]
        show Back.file _ _ _ = _
        rw [show q * c.pg - (B - 2 * c.pg) - 2 * c.pg - c.stride * c.ncpu = (p * c.pg - B) % c.stride by omega]
    · left
      have hsrc := mapRange_src_in hv hal (m := m) (x := x)
      rw [if_pos hin, if_neg hc] at hsrc
      unfold Mem.resolve
      rw [hsrc]
  · rw [mapRange_resolve_out hv hal hin]
    exact hm.mono (fun p hp => hother p fun hq => hp (hblock p hq).1) x

/-- Which branch `__rseq_percpu_malloc` takes. -/
theorem lockedAlloc_branch {c : Config} {env : RangeEnv} {s : State} :
    (needsRange c s.pool = false → ∀ ch s', lockedAlloc c env s = .ok (ch, s') →
      s'.mem = s.mem ∧ s'.pool.ranges.map (·.base) = s.pool.ranges.map (·.base)) ∧
    (needsRange c s.pool = true → ∀ ch s', lockedAlloc c env s = .ok (ch, s') →
      ((rangeCreate c s.pool s.mem env).2 = none ∧ s' = s) ∨
      ∃ r1 m1, (rangeCreate c s.pool s.mem env).2 = some (r1, m1) ∧ s'.mem = m1 ∧
        s'.pool.ranges.map (·.base) = r1.base :: s.pool.ranges.map (·.base)) := by
  constructor
  · intro hn ch s' h
    unfold lockedAlloc at h
    dsimp only at h
    split at h
    · split at h
      · cases h
      · split at h
        · cases h
        · have := takeSlot_shape h
          exact ⟨this.1, this.2⟩
    · rename_i hh
      have hh : s.pool.head = 0 := Classical.not_not.1 hh
      split at h
      · have := takeSlot_shape h
        exact ⟨this.1, this.2.trans (map_base_putRange _ _)⟩
      · rename_i hroom
        exfalso
        unfold needsRange at hn
        rw [hh] at hn
        cases hr : s.pool.ranges with
        | nil => rw [hr] at hn; simp at hn
        | cons r l =>
          rw [hr] at hn hroom
          simp only [beq_self_eq_true, Bool.true_and, decide_eq_false_iff_not] at hn
          simp only [if_neg hn] at hroom
          cases hroom
  · intro hn ch s' h
    unfold needsRange at hn
    rw [Bool.and_eq_true, beq_iff_eq] at hn
    unfold lockedAlloc at h
    dsimp only at h
    rw [if_neg (fun hh => hh hn.1)] at h
    have hroom : (match s.pool.ranges with
      | [] => none
      | r :: _ => if r.nextUnused + c.itemLen > c.stride then none else some r) = none := by
      cases hr : s.pool.ranges with
      | nil => rfl
      | cons r l =>
        have := hn.2
        rw [hr] at this
        simp only [decide_eq_true_eq] at this
        simp only []
        rw [if_pos this]
    split at h
    · rename_i r hr
      cases hr.symm.trans hroom
    · split at h
      · rename_i hrc
        cases h
        exact Or.inl ⟨hrc, rfl⟩
      · rename_i r1 m1 hrc
        right
        have := takeSlot_shape h
        exact ⟨r1, m1, hrc, this.1, this.2⟩

theorem destroyLoop_unmapped {c : Config} {acc : Bool} {l : List Range} {k : Nat} {done : List (Nat × Nat)} {res : DestroyResult}
    (h : destroyLoop c acc (fun _ => true) l k done = .ok res) : res.unmapped = done ++ l.map (rangeUnmapArgs c acc) := by
  induction l generalizing k done with
  | nil =>
    unfold destroyLoop at h
    cases h
    simp
  | cons r l ih =>
    unfold destroyLoop at h
    split at h
    · cases h
    · rw [if_pos rfl] at h
      rw [ih h, List.map_cons, List.append_assoc]
      rfl

theorem destroy_unmapped {c : Config} {s : State} {res : DestroyResult} (hi : ∀ r ∈ s.pool.ranges, RangeInv c r)
    (h : destroy c (fun _ => true) s = .ok res) :
    res.unmapped = s.pool.ranges.map fun r => (r.base - 2 * c.pg, 2 * c.pg + rangeLen c) := by
  have hacc : mappingsAccessible c s.pool = true := by
    unfold mappingsAccessible
    cases hc : c.cow with
    | false => rfl
    | true =>
      cases hr : s.pool.ranges with
      | nil => rfl
      | cons r l =>
        have := (hi r (by rw [hr]; exact List.mem_cons_self)).can hc
        simp [this]
  have hmap : s.pool.ranges.map (rangeUnmapArgs c true) = s.pool.ranges.map fun r => (r.base - 2 * c.pg, 2 * c.pg + rangeLen c) := by
    refine List.map_congr_left fun r hr => ?_
    unfold rangeUnmapArgs
    rw [if_pos rfl, (hi r hr).maddr, (hi r hr).mlen]
  unfold destroy at h
  rw [hacc] at h
  dsimp only at h
  rw [← hmap]
  split at h
  · split at h
    · cases h
    · split at h
      · cases h
      · cases h
      · split at h
        · rw [destroyLoop_unmapped h, List.nil_append]
        · cases h
  · rw [destroyLoop_unmapped h, List.nil_append]

end Verif.RangeSys
