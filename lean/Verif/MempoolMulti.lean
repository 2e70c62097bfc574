import Verif.MempoolProps
/-
Several pools in one process: the specification (World, WStep, WReach) comes first, then helper lemmas; the property
theorems (C18) are in `Verif.MempoolMultiProps`.
-/
namespace Verif.Mempool
open Verif Verif.Mem

variable [Abi]

/-- One pool of the process with what its users know. -/
structure Entry where
  c : Config
  pool : Pool
  live : List Nat
  freed : List Nat

/-- All pools of a process and its memory. -/
structure World where
  mem : Mem
  entries : List Entry

/-- The pool alone. -/
def Entry.ghost (e : Entry) (m : Mem) : Ghost := ⟨{ pool := e.pool, mem := m }, e.live, e.freed⟩

/-- Ranges (headers included) of possibly different pools do not overlap. -/
def Apart2 (c1 : Config) (b1 : Nat) (c2 : Config) (b2 : Nat) : Prop :=
  b1 + rangeLen c1 + 2 * c2.pg ≤ b2 ∨ b2 + rangeLen c2 + 2 * c1.pg ≤ b1

/-- What a caller knows after an allocation. -/
def Entry.afterMalloc (e : Entry) (pool : Pool) : Ret → Entry
  | .ptr p => { e with pool := pool, live := p :: e.live, freed := e.freed.erase p }
  | .null _ => { e with pool := pool }

/-- The range whose header is found at `base`, among all pools: `(struct rseq_mempool_range *) (base - RANGE_HEADER_OFFSET)`
of librseq_mempool_percpu_free (1167), and the pool it belongs to (`range->pool`, 1168). -/
def owner (entries : List Entry) (base : Nat) : Option Entry :=
  entries.find? fun e => e.pool.ranges.any fun r => r.base == base

/-- `librseq_mempool_percpu_free(ptr, stride)` (1163-1187) in a process with any number of pools. -/
def wfree (ptr stride : Nat) (w : World) : Outcome (Entry × State) :=
  match owner w.entries (ptr - ptr % stride) with
  | none => .ub
  | some e => match free e.c ptr { pool := e.pool, mem := w.mem } with
    | .ok s => .ok (e, s)
    | .aborted r => .aborted r
    | .ub => .ub

/-- One event of the process. `pg` is the page size of the system. -/
inductive WStep (pg : Nat) : World → World → Prop where
  | create (w : World) (c : Config) (env : RangeEnv) (r : Range) (m' : Mem) (hv : Valid c) (hpg : c.pg = pg)
      (henv : EnvOK c [] w.mem env)
      (hfresh : ∀ base, env.base = some base → ∀ e ∈ w.entries, ∀ r ∈ e.pool.ranges, Apart2 c base e.c r.base)
      (h : (rangeCreate c ⟨[], 0, 0⟩ w.mem env).2 = some (r, m')) :
      WStep pg w ⟨m', ⟨c, ⟨[r], 0, 1⟩, [], []⟩ :: w.entries⟩
  | malloc (w : World) (pre post : List Entry) (e : Entry) (fill : Fill) (env : RangeEnv) (ret : Ret) (s' : State)
      (hw : w.entries = pre ++ e :: post) (henv : EnvOK e.c e.pool.ranges w.mem env)
      (hfresh : ∀ base, env.base = some base → ∀ e2 ∈ pre ++ post, ∀ r ∈ e2.pool.ranges, Apart2 e.c base e2.c r.base)
      (h : malloc e.c fill env { pool := e.pool, mem := w.mem } = .ok (ret, s')) :
      WStep pg w ⟨s'.mem, pre ++ e.afterMalloc s'.pool ret :: post⟩
  | free (w : World) (pre post : List Entry) (e : Entry) (p : Nat) (s' : State)
      (hw : w.entries = pre ++ e :: post) (hp : p ∈ e.live)
      (h : free e.c p { pool := e.pool, mem := w.mem } = .ok s') :
      WStep pg w ⟨s'.mem, pre ++ { e with pool := s'.pool, live := e.live.erase p, freed := p :: e.freed } :: post⟩
  | store (w : World) (e : Entry) (p cpu o : Nat) (b : Byte) (he : e ∈ w.entries) (hp : p ∈ e.live)
      (hcpu : cpu < e.c.ncpu) (ho : o < e.c.itemLen) :
      WStep pg w ⟨w.mem.write pg (cpuAddr e.c p cpu + o) b, w.entries⟩
  | destroy (w : World) (pre post : List Entry) (e : Entry) (hw : w.entries = pre ++ e :: post) :
      WStep pg w ⟨w.mem, pre ++ post⟩
  | ext (w : World) (m' : Mem) (hwf : m'.WF) (h : ∀ e ∈ w.entries, ExtOK e.c e.pool.ranges w.mem m') : WStep pg w ⟨m', w.entries⟩

/-- Histories of a process, from one without pools. -/
inductive WReach (pg : Nat) : World → Prop where
  | init (m : Mem) (hwf : m.WF) : WReach pg ⟨m, []⟩
  | step (w w' : World) (h : WReach pg w) (hs : WStep pg w w') : WReach pg w'

/-! ### Helper lemmas -/

/-- Pools do not overlap. -/
def Sep (e1 e2 : Entry) : Prop :=
  ∀ r1 ∈ e1.pool.ranges, ∀ r2 ∈ e2.pool.ranges, Apart2 e1.c r1.base e2.c r2.base

theorem Sep.symm {e1 e2 : Entry} (h : Sep e1 e2) : Sep e2 e1 := by
  intro r1 h1 r2 h2
  have := h r2 h2 r1 h1
  unfold Apart2 at *
  omega

/-- Everything the pool with configuration `c` and ranges `l` did to memory happened inside its regions. -/
structure Local (c : Config) (l : List Range) (m m' : Mem) : Prop where
  wf : m'.WF
  shape : Shape c l m'
  res : ∀ x, (∀ r ∈ l, ¬ InRegion c r.base x) → m'.resolve c.pg x = m.resolve c.pg x ∨ m'.resolve c.pg x = x
  rd : ∀ x, (∀ r ∈ l, ¬ InRegion c r.base x) → (∀ r ∈ l, ¬ InRegion c r.base (m.resolve c.pg x)) →
    m'.read c.pg x = m.read c.pg x

theorem Apart2.not_both {c1 c2 : Config} {b1 b2 x : Nat} (h : Apart2 c1 b1 c2 b2) (h1 : InRegion c1 b1 x)
    (h2 : InRegion c2 b2 x) : False := by
  unfold Apart2 InRegion at *; omega

/-- A local change of one pool is external to another. -/
theorem Local.ext {c : Config} (hv : Valid c) {l : List Range} {m m' : Mem} (h : Local c l m m') {e : Entry}
    (hve : Valid e.c) (hpg : e.c.pg = c.pg) (hsh : Shape e.c e.pool.ranges m)
    (hsep : ∀ r1 ∈ l, ∀ r2 ∈ e.pool.ranges, Apart2 c r1.base e.c r2.base) : ExtOK e.c e.pool.ranges m m' := by
  refine ⟨h.wf, ?_, ?_⟩
  · intro r2 hr2 x hx
    rw [hpg]
    have hout : ∀ r ∈ l, ¬ InRegion c r.base x := fun r hr hin => (hsep r hr r2 hr2).not_both hin hx
    have hres := hsh.region hve hr2 hx
    rw [hpg] at hres
    exact ⟨h.res x hout, h.rd x hout fun r hr hin => (hsep r hr r2 hr2).not_both hin hres⟩
  · intro x hx r2 hr2
    rw [hpg]
    by_cases hin : ∃ r ∈ l, InRegion c r.base x
    · obtain ⟨r, hr, hin⟩ := hin
      exact fun hh => (hsep r hr r2 hr2).not_both (h.shape.region hv hr hin) hh
    · rcases h.res x (fun r hr hh => hin ⟨r, hr, hh⟩) with e1 | e1
      · rw [e1]
        have := hsh.outside x hx r2 hr2
        rw [hpg] at this
        exact this
      · rw [e1]; exact hx r2 hr2

theorem frame_local {c : Config} {l : List Range} {m m' : Mem} (hwf : m.WF) (hsh : Shape c l m) {W : Nat → Prop}
    (hf : Frame c.pg W m m') (hW : ∀ x, W x → ∃ r ∈ l, InRegion c r.base x) : Local c l m m' :=
  ⟨hf.wf hwf, hsh.frame hf, fun x _ => hf.res x,
    fun x hx hr => hf.rd hwf x (fun hw => by obtain ⟨r, h1, h2⟩ := hW x hw; exact hx r h1 h2)
      (fun hw => by obtain ⟨r, h1, h2⟩ := hW _ hw; exact hr r h1 h2)⟩

theorem itemBytes_region {c : Config} {l : List Range} {p : Nat} (hp : Slot c l p) {x : Nat} (hx : ItemBytes c p x) :
    ∃ r ∈ l, InRegion c r.base x := by
  obtain ⟨col, o, hc, ho, rfl⟩ := hx
  obtain ⟨r, hr, k, hk, rfl⟩ := hp
  refine ⟨r, hr, ?_⟩
  rw [show r.base + k * c.itemLen + c.stride * col + o = r.base + c.stride * col + (k * c.itemLen + o) by omega]
  exact col_in hc (by omega)

/-- Range creation only touches the new region. -/
theorem rangeCreate_outside {c : Config} (hv : Valid c) {pool : Pool} {m : Mem} {env : RangeEnv} {r : Range} {m' : Mem}
    (hwf : m.WF) (henv : EnvOK c pool.ranges m env) (h : (rangeCreate c pool m env).2 = some (r, m')) :
    env.base = some r.base ∧
    (∀ x, ¬ InRegion c r.base x → m'.resolve c.pg x = m.resolve c.pg x ∨ m'.resolve c.pg x = x) ∧
    (∀ x, ¬ InRegion c r.base x → ¬ InRegion c r.base (m.resolve c.pg x) → m'.read c.pg x = m.read c.pg x) := by
  unfold rangeCreate at h
  split at h
  · cases h
  cases hb : env.base with
  | none => rw [hb] at h; cases h
  | some base =>
    rw [hb] at h
    dsimp only at h
    split at h
    · cases h
    split at h
    · cases h
    cases hrun : runCalls c env (initCalls c base) 0 (mapRange c base m) with
    | mk log res =>
      rw [hrun] at h
      cases res with
      | none => cases h
      | some m1 =>
        cases h
        obtain ⟨hal, hpos, htop, hap, hfresh⟩ := henv.fresh base hb
        have hf : Frame c.pg (InRegion c base) (mapRange c base m) m' :=
          runCalls_frame hv henv.cb (initCalls_addr hv) hrun
        have hwf0 := mapRange_wf hv hal hwf hfresh
        refine ⟨rfl, ?_, ?_⟩
        · intro x hx
          rcases hf.res x with e | e
          · left; rw [e, mapRange_resolve_out hv hal hx]
          · exact Or.inr e
        · intro x hx hr
          rw [hf.rd hwf0 x hx (by rw [mapRange_resolve_out hv hal hx]; exact hr), mapRange_read_out hv hal hx hr]

/-- malloc only touches the regions of its pool; new regions come from the environment. -/
theorem malloc_local {c : Config} (hv : Valid c) {uaf : Bool} {s : State} {L F : List Nat} (hi : Inv c uaf s L F)
    {fill : Fill} {env : RangeEnv} (henv : EnvOK c s.pool.ranges s.mem env) {ret : Ret} {s' : State}
    (h : malloc c fill env s = .ok (ret, s')) :
    Local c s'.pool.ranges s.mem s'.mem ∧
    ∀ r' ∈ s'.pool.ranges, (∃ r ∈ s.pool.ranges, r.base = r'.base) ∨ env.base = some r'.base := by
  have hself : Local c s.pool.ranges s.mem s.mem := ⟨hi.wf, hi.shape, fun _ _ => Or.inl rfl, fun _ _ _ => rfl⟩
  rcases malloc_spec hv hi henv fill with ⟨_, e⟩ | ⟨_, ⟨r, k, s1, F', hla, e, hi1, _, hr, hf, _, _, _⟩ | ⟨e, _⟩ | ⟨e, _⟩⟩
  · rw [e] at h; cases h; exact ⟨hself, fun r hr => Or.inl ⟨r, hr, rfl⟩⟩
  · rw [e] at h
    cases h
    have hloc2 : Local c s1.pool.ranges s1.mem (fillItem c r (k * c.itemLen) fill s1.mem) :=
      frame_local hi1.wf hi1.shape hf fun x hx => itemBytes_region (hi1.slotL List.mem_cons_self) hx
    rcases lockedAlloc_shape hla with ⟨e1, e2⟩ | ⟨r1, m1, hrc, e1, e2⟩
    · rw [e1] at hloc2 ⊢
      exact ⟨hloc2, fun r' hr' => Or.inl (mem_of_map_base e2 hr')⟩
    · obtain ⟨hb, ho1, ho2⟩ := rangeCreate_outside hv hi.wf henv hrc
      have hmemr : ∃ r' ∈ s1.pool.ranges, r'.base = r1.base := by
        have : r1.base ∈ s1.pool.ranges.map (·.base) := by rw [e2]; exact List.mem_cons_self
        exact List.mem_map.1 this
      obtain ⟨r', hr', hb'⟩ := hmemr
      refine ⟨⟨hloc2.wf, hloc2.shape, fun x hx => ?_, fun x hx hres => ?_⟩, fun q hq => ?_⟩
      · have hx1 : ¬ InRegion c r1.base x := by rw [← hb']; exact hx r' hr'
        rcases hloc2.res x hx with e3 | e3
        · show (fillItem c r (k * c.itemLen) fill s1.mem).resolve c.pg x = _ ∨ _
          rw [e3, e1]; exact ho1 x hx1
        · exact Or.inr e3
      · have hx1 : ¬ InRegion c r1.base x := by rw [← hb']; exact hx r' hr'
        have hres1 : ¬ InRegion c r1.base (s.mem.resolve c.pg x) := by rw [← hb']; exact hres r' hr'
        show (fillItem c r (k * c.itemLen) fill s1.mem).read c.pg x = _
        rw [hloc2.rd x hx ?_, e1]
        · exact ho2 x hx1 hres1
        · rw [e1]
          rcases ho1 x hx1 with e3 | e3
          · rw [e3]; exact hres
          · rw [e3]; exact hx
      · have : q.base ∈ s1.pool.ranges.map (·.base) := List.mem_map.2 ⟨q, hq, rfl⟩
        rw [e2, List.mem_cons, List.mem_map] at this
        rcases this with h1 | h1
        · right; rw [h1]; exact hb
        · exact Or.inl h1
  · rw [e] at h; cases h; exact ⟨hself, fun r hr => Or.inl ⟨r, hr, rfl⟩⟩
  · rw [e] at h; cases h

/-- The invariant of a process. -/
structure WInv (pg : Nat) (w : World) : Prop where
  wf : w.mem.WF
  each : ∀ e ∈ w.entries, e.c.pg = pg ∧ Valid e.c ∧ Reach e.c false (e.ghost w.mem)
  sep : w.entries.Pairwise Sep

theorem WInv.inv {pg : Nat} {w : World} (h : WInv pg w) {e : Entry} (he : e ∈ w.entries) :
    Inv e.c false (e.ghost w.mem).s e.live e.freed :=
  reach_inv (h.each e he).2.1 (fun hh => by cases hh) (h.each e he).2.2

/-- Replacing one pool by its successor after a local operation. -/
theorem WInv.update {pg : Nat} {w : World} (h : WInv pg w) {pre post : List Entry} {e e' : Entry}
    (hw : w.entries = pre ++ e :: post) {m' : Mem} (hc : e'.c = e.c)
    (hloc : Local e.c e'.pool.ranges w.mem m')
    (hbases : ∀ r' ∈ e'.pool.ranges, (∃ r ∈ e.pool.ranges, r.base = r'.base) ∨
      ∀ e2 ∈ pre ++ post, ∀ r ∈ e2.pool.ranges, Apart2 e.c r'.base e2.c r.base)
    (hreach : Reach e.c false (e'.ghost m')) : WInv pg ⟨m', pre ++ e' :: post⟩ := by
  have hmem : ∀ e2, e2 ∈ pre ++ e :: post ↔ e2 = e ∨ e2 ∈ pre ++ post := by
    intro e2; simp only [List.mem_append, List.mem_cons]; grind
  have he : e ∈ w.entries := by rw [hw, hmem]; exact Or.inl rfl
  obtain ⟨hpg, hv, _⟩ := h.each e he
  have hsep0 := h.sep
  rw [hw, List.pairwise_append, List.pairwise_cons] at hsep0
  obtain ⟨hpre, ⟨hpost1, hpost⟩, hcross⟩ := hsep0
  -- the updated pool is separate from all others
  have hsep : ∀ e2 ∈ pre ++ post, Sep e' e2 := by
    intro e2 he2 r1 hr1 r2 hr2
    have hold : Sep e e2 := by
      rcases List.mem_append.1 he2 with h2 | h2
      · exact (hcross e2 h2 e List.mem_cons_self).symm
      · exact hpost1 e2 h2
    rw [hc]
    rcases hbases r1 hr1 with ⟨r, hr, hb⟩ | hnew
    · rw [← hb]; exact hold r hr r2 hr2
    · exact hnew e2 he2 r2 hr2
  refine ⟨hloc.wf, ?_, ?_⟩
  · intro e2 he2
    have he2 : e2 = e' ∨ e2 ∈ pre ++ post := by
      simp only [List.mem_append, List.mem_cons] at he2 ⊢; grind
    rcases he2 with e1 | he2
    · rw [e1, hc]; exact ⟨hpg, hv, hreach⟩
    · have hin : e2 ∈ w.entries := by rw [hw, hmem]; exact Or.inr he2
      obtain ⟨hpg2, hv2, hr2⟩ := h.each e2 hin
      refine ⟨hpg2, hv2, ?_⟩
      have hx := hloc.ext hv hv2 (by rw [hpg, hpg2]) (h.inv hin).shape
        (fun r1 h1 r2 h2 => by have := hsep e2 he2 r1 h1 r2 h2; rwa [hc] at this)
      exact Reach.step _ _ hr2 (Step.ext (e2.ghost w.mem) m' hx)
  · rw [List.pairwise_append, List.pairwise_cons]
    refine ⟨hpre, ⟨fun e2 h2 => hsep e2 (List.mem_append_right _ h2), hpost⟩, ?_⟩
    intro a ha b hb
    rcases List.mem_cons.1 hb with e1 | hb
    · rw [e1]; exact (hsep a (List.mem_append_left _ ha)).symm
    · exact hcross a ha b (List.mem_cons_of_mem _ hb)

theorem wstep_inv {pg : Nat} {w w' : World} (ih : WInv pg w) (hs : WStep pg w w') : WInv pg w' := by
  cases hs with
  | create c env r m' hv hpg henv hfresh h =>
    obtain ⟨hb, ho1, ho2⟩ := rangeCreate_outside hv ih.wf henv h
    have hsh0 : Shape c [] w.mem := ⟨fun r hr => (by cases hr), fun x _ r hr => (by cases hr)⟩
    obtain ⟨hn, _⟩ := rangeCreate_spec hv (pool := ⟨[], 0, 0⟩) ih.wf hsh0 henv h
    have hloc : Local c [r] w.mem m' :=
      ⟨hn.wf, hn.shape, fun x hx => ho1 x (hx r List.mem_cons_self),
        fun x hx hr => ho2 x (hx r List.mem_cons_self) (hr r List.mem_cons_self)⟩
    have hsep : ∀ e ∈ w.entries, ∀ r1 ∈ [r], ∀ r2 ∈ e.pool.ranges, Apart2 c r1.base e.c r2.base := by
      intro e he r1 hr1 r2 hr2
      rw [List.mem_singleton] at hr1
      rw [hr1]
      exact hfresh r.base hb e he r2 hr2
    refine ⟨hn.wf, ?_, ?_⟩
    · intro e he
      rcases List.mem_cons.1 he with e1 | he
      · rw [e1]; exact ⟨hpg, hv, Reach.create w.mem env r m' ih.wf henv h⟩
      · obtain ⟨hpg2, hv2, hr2⟩ := ih.each e he
        exact ⟨hpg2, hv2, Reach.step _ _ hr2 (Step.ext (e.ghost w.mem) m'
          (hloc.ext hv hv2 (by rw [hpg, hpg2]) (ih.inv he).shape (hsep e he)))⟩
    · rw [List.pairwise_cons]
      exact ⟨fun e he => hsep e he, ih.sep⟩
  | malloc pre post e fill env ret s' hw henv hfresh h =>
    have he : e ∈ w.entries := by rw [hw]; exact List.mem_append_right _ List.mem_cons_self
    obtain ⟨hpg, hv, hr⟩ := ih.each e he
    obtain ⟨hloc, hbases⟩ := malloc_local hv (ih.inv he) henv h
    have hmapped : s'.itemsMapped = true := by
      cases ret with
      | ptr p => exact (reach_inv hv (fun hh => by cases hh) (Reach.step _ _ hr (Step.mallocPtr (e.ghost w.mem) fill env p s' henv h))).mapped
      | null er => exact (reach_inv hv (fun hh => by cases hh) (Reach.step _ _ hr (Step.mallocNull (e.ghost w.mem) fill env er s' henv h))).mapped
    have hs' : s' = { pool := s'.pool, mem := s'.mem } := by rw [← hmapped]
    refine ih.update hw (e' := e.afterMalloc s'.pool ret) (by cases ret <;> rfl) ?_ ?_ ?_
    · cases ret <;> exact hloc
    · intro r' hr'
      have hr' : r' ∈ s'.pool.ranges := by cases ret <;> exact hr'
      rcases hbases r' hr' with h1 | h1
      · exact Or.inl h1
      · exact Or.inr (hfresh _ h1)
    · cases ret with
      | ptr p =>
        have := Reach.step _ _ hr (Step.mallocPtr (e.ghost w.mem) fill env p s' henv h)
        rw [hs'] at this
        exact this
      | null er =>
        have := Reach.step _ _ hr (Step.mallocNull (e.ghost w.mem) fill env er s' henv h)
        rw [hs'] at this
        exact this
  | free pre post e p s' hw hp h =>
    have he : e ∈ w.entries := by rw [hw]; exact List.mem_append_right _ List.mem_cons_self
    obtain ⟨hpg, hv, hr⟩ := ih.each e he
    have hi := ih.inv he
    obtain ⟨s'', e1, hi', hf, hb, _⟩ := free_spec hv hi hp
    have e1' : Verif.Mempool.free e.c p { pool := e.pool, mem := w.mem } = .ok s'' := e1
    rw [e1'] at h
    injection h with h
    rw [← h]
    have hreach := Reach.step _ _ hr (Step.free (e.ghost w.mem) p s'' hp e1)
    have hs' : s'' = { pool := s''.pool, mem := s''.mem } := by rw [← hi'.mapped]
    refine ih.update hw (e' := { e with pool := s''.pool, live := e.live.erase p, freed := p :: e.freed }) rfl ?_ ?_ ?_
    · have hl := frame_local hi.wf hi.shape hf fun x hx => itemBytes_region (hi.slotL hp) hx
      refine ⟨hl.wf, hi'.shape, fun x hx => hl.res x ?_, fun x hx hres => hl.rd x ?_ ?_⟩
      all_goals
        intro r hr
        obtain ⟨r', hr', hb'⟩ := mem_of_map_base hb.symm hr
        rw [← hb']
        first | exact hx r' hr' | exact hres r' hr'
    · intro r' hr'
      exact Or.inl (mem_of_map_base hb hr')
    · rw [hs'] at hreach
      exact hreach
  | store e p cpu o b he hp hcpu ho =>
    obtain ⟨pre, post, hw⟩ := List.append_of_mem he
    obtain ⟨hpg, hv, hr⟩ := ih.each e he
    have hi := ih.inv he
    have hst := Reach.step _ _ hr (Step.store (e.ghost w.mem) p cpu o b (Or.inl hp) hcpu ho)
    have hf : Frame e.c.pg (fun x => x = cpuAddr e.c p cpu + o) w.mem (w.mem.write pg (cpuAddr e.c p cpu + o) b) := by
      rw [hpg]; exact Frame.write (by rw [← hpg]; exact hv.pg_pos)
    have := ih.update hw (e' := e) (m' := w.mem.write pg (cpuAddr e.c p cpu + o) b) rfl
      (frame_local hi.wf hi.shape hf (by
        rintro x rfl
        have := ncpu_le_nCols e.c
        exact itemBytes_region (hi.slotL hp) ⟨cpu, o, by omega, ho, rfl⟩))
      (fun r' hr' => Or.inl ⟨r', hr', rfl⟩) (by rw [← hpg]; exact hst)
    rw [← hw] at this
    exact this
  | destroy pre post e hw =>
    have hsub : ∀ e2, e2 ∈ pre ++ post → e2 ∈ w.entries := by
      intro e2 h2; rw [hw]; simp only [List.mem_append, List.mem_cons] at h2 ⊢; grind
    refine ⟨ih.wf, fun e2 h2 => ih.each e2 (hsub e2 h2), ?_⟩
    have := ih.sep
    rw [hw] at this
    exact this.sublist ((List.sublist_cons_self e post).append_left pre)
  | ext m' hwf h =>
    refine ⟨hwf, ?_, ih.sep⟩
    · intro e he
      obtain ⟨hpg2, hv2, hr2⟩ := ih.each e he
      exact ⟨hpg2, hv2, Reach.step _ _ hr2 (Step.ext (e.ghost w.mem) m' (h e he))⟩

theorem wreach_inv {pg : Nat} {w : World} (h : WReach pg w) : WInv pg w := by
  induction h with
  | init m hwf => exact ⟨hwf, (fun e he => by cases he), List.Pairwise.nil⟩
  | step w w' _ hs ih => exact wstep_inv ih hs

end Verif.Mempool
