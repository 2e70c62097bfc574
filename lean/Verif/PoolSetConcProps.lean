import Verif.PoolSetConcLemmas
/-
Property theorems about concurrent use of a pool set (C78, C79).
-/
namespace Verif.PoolSet
open Verif Verif.Mem Verif.Mempool

variable [Abi]

/-- C78: whatever the interleaving, no thread crashes or aborts, and an allocation either returns an item or fails with
ENOMEM. -/
theorem conc_set_safe {pg : Nat} {σ : Nat → CSt} {ℓ : Nat → Lbl} {n : Nat} (h : Exec pg σ ℓ n) (k : Nat) (hk : k ≤ n) (t : Nat) :
    (σ k).thr t ≠ .crashed ∧ ∀ c er, (σ k).thr t = .done c (.null er) → er = .ENOMEM := by
  have ht := (exec_inv h k hk).thr t
  refine ⟨fun hc => ?_, fun c er hd => ?_⟩
  · rw [hc] at ht; exact ht
  · rw [hd] at ht; exact ht

/-- C78: at every moment, items in use are disjoint: two items of any pools of the process, on any CPUs, share no byte
unless they are the same item of the same pool on the same CPU. -/
theorem conc_set_disjoint {pg : Nat} {σ : Nat → CSt} {ℓ : Nat → Lbl} {n : Nat} (h : Exec pg σ ℓ n) (k : Nat) (hk : k ≤ n)
    (e1 e2 : Entry) (h1 : e1 ∈ (σ k).st.all) (h2 : e2 ∈ (σ k).st.all) (p q : Nat) (hp : p ∈ e1.live) (hq : q ∈ e2.live)
    (i j : Nat) (hi : i < e1.c.ncpu) (hj : j < e2.c.ncpu) (hne : (e1, p, i) ≠ (e2, q, j))
    (x y : Nat) (hx : x < e1.c.itemLen) (hy : y < e2.c.itemLen) : cpuAddr e1.c p i + x ≠ cpuAddr e2.c q j + y := by
  have hw := (exec_inv h k hk).inv.w
  rcases pairwise_or hw.sep h1 h2 with he | hs
  · subst he
    have hh : Hist e1.c false (e1.ghost (σ k).st.mem) := ⟨(hw.each e1 h1).2.1, (hw.each e1 h1).2.2, fun hh => by cases hh⟩
    exact (live_disjoint hh).2 p hp q hq i j hi hj (fun hc => hne (by rw [hc])) x y hx hy
  · have hp1 : Hist e1.c false (e1.ghost (σ k).st.mem) := ⟨(hw.each e1 h1).2.1, (hw.each e1 h1).2.2, fun hh => by cases hh⟩
    have hp2 : Hist e2.c false (e2.ghost (σ k).st.mem) := ⟨(hw.each e2 h2).2.1, (hw.each e2 h2).2.2, fun hh => by cases hh⟩
    obtain ⟨r1, hr1, _, _, ha1, hb1⟩ := (live_inside hp1 p hp).2
    obtain ⟨r2, hr2, _, _, ha2, hb2⟩ := (live_inside hp2 q hq).2
    have c1 := hb1 i hi
    have c2 := hb2 j hj
    have hs' := hs r1 hr1 r2 hr2
    have hn1 := Nat.mul_le_mul_left e1.c.stride (ncpu_le_nCols e1.c)
    have hn2 := Nat.mul_le_mul_left e2.c.stride (ncpu_le_nCols e2.c)
    rw [← rangeLen_eq] at hn1 hn2
    unfold Apart2 at hs'
    omega

/-- C78: pools never leave the set, the set holds at most one pool per item length at every moment, and adding a pool
is refused exactly if the set has one of that length at that moment. -/
theorem conc_set_pools {pg : Nat} {σ : Nat → CSt} {ℓ : Nat → Lbl} {n : Nat} (h : Exec pg σ ℓ n) (k : Nat) (hk : k ≤ n) :
    (∀ o e, (σ k).st.set o = some e → ∀ k', k ≤ k' → k' ≤ n → ∃ e', (σ k').st.set o = some e' ∧ e'.c = e.c) ∧
    (∀ o1 o2 e1 e2, (σ k).st.set o1 = some e1 → (σ k).st.set o2 = some e2 → e1.c.itemLen = e2.c.itemLen → o1 = o2) ∧
    (∀ c pool, addPool (σ k).st.table c pool = none ↔ ∃ o e, (σ k).st.set o = some e ∧ e.c.itemLen = c.itemLen) := by
  have hi := (exec_inv h k hk).inv
  have hinj : ∀ o e (c : Config), (σ k).st.set o = some e → (e.c.itemLen = c.itemLen ↔ o = c.order) := by
    intro o e c he
    have := (hi.order o e he).1
    unfold Config.itemLen
    rw [this]
    exact ⟨fun hh => (Nat.pow_right_inj (by omega)).1 hh, fun hh => by rw [hh]⟩
  refine ⟨fun o e he k' h1 h2 => exec_keeps h k k' h1 h2 o e he, ?_, ?_⟩
  · intro o1 o2 e1 e2 h1 h2 hl
    rw [(hinj o1 e1 e2.c h1).1 hl]
    exact (hi.order o2 e2 h2).1
  · intro c pool
    unfold addPool SState.table
    constructor
    · intro ha
      cases hx : (σ k).st.set c.order with
      | none => rw [hx] at ha; cases ha
      | some e => exact ⟨c.order, e, hx, (hinj _ e c hx).2 rfl⟩
    · rintro ⟨o, e, he, hl⟩
      have ho := (hinj o e c he).1 hl
      rw [← ho, he]
      rfl

/-- C78: an allocation that fails with ENOMEM has found every pool without room that was in the set when it started and
has items of sufficient length, each at some moment during the call. -/
theorem conc_set_enomem {pg : Nat} {σ : Nat → CSt} {ℓ : Nat → Lbl} {n : Nat} (h : Exec pg σ ℓ n) {t : Nat} {c : Call} {i j : Nat}
    (hj : j ≤ n) {er : Errno} (hs : Spans σ t c i j (.null er)) (o : Nat) (e : Entry) (he : (σ i).st.set o = some e)
    (hf : Fits e c.len.toNat) : ∃ k, i ≤ k ∧ k < j ∧ FoundFull σ ℓ t o k :=
  passed_full h hj hs.start hs.run he hf j (by have := hs.le; omega) (Nat.le_refl _) (by rw [hs.fin]; trivial)

/-- C78: an allocation that succeeds returns, in its last step, an item nobody was using of a pool that has room and
items of sufficient length; each smaller pool that was in the set when the call started and has items of sufficient length
was found without room at some moment during the call. -/
theorem conc_set_ptr {pg : Nat} {σ : Nat → CSt} {ℓ : Nat → Lbl} {n : Nat} (h : Exec pg σ ℓ n) {t : Nat} {c : Call} {i j : Nat}
    (hj : j ≤ n) {o p : Nat} (hs : Spans σ t c i j (.ptr o p)) :
    (∃ k env e pool, j = k + 1 ∧ ℓ k = .malloc t env ∧ (σ k).st.set o = some e ∧ e.c.itemLen = 2 ^ o ∧ c.len.toNat ≤ 2 ^ o ∧
      HasRoom e env ∧ p ∉ e.live ∧ (σ j).st.set o = some (e.afterMalloc pool (.ptr p)) ∧
      (c.zeroed = true → ∀ cpu, cpu < e.c.ncpu → ∀ x, x < e.c.itemLen →
        (σ j).st.mem.read pg (cpuAddr e.c p cpu + x) = 0#8)) ∧
    ∀ o' e', o' < o → (σ i).st.set o' = some e' → Fits e' c.len.toNat → ∃ k, i ≤ k ∧ k < j ∧ FoundFull σ ℓ t o' k := by
  refine ⟨?_, fun o' e' ho' he' hf' =>
    passed_full h hj hs.start hs.run he' hf' j (by have := hs.le; omega) (Nat.le_refl _) (by rw [hs.fin]; exact ho')⟩
  obtain ⟨k, rfl⟩ : ∃ k, j = k + 1 := ⟨j - 1, by have := hs.le; omega⟩
  have hlt := hs.le
  have hk := exec_inv h k (by omega)
  have hfin := hs.fin
  have hrun := hs.run k (by omega) (by omega)
  rcases cstep_running hk (h.step k (by omega)) hrun with
    ⟨e1, _⟩ | ⟨_, mo, e1, ⟨o', hss, e2⟩ | ⟨hss, e2⟩⟩ | ⟨env, o', e, hl, e1, he, hf, henv, ⟨hr, p', s1, hm, e3, e4, e5⟩ | ⟨hno, e3⟩⟩
  · rw [hfin] at e1; rw [← e1] at hrun; cases hrun
  · rw [hfin] at e2; cases e2
  · rw [hfin] at e2; cases e2
  · rw [hfin] at e3
    cases e3
    have hord := hk.inv.order o e he
    have hlen : e.c.itemLen = 2 ^ o := by unfold Config.itemLen; rw [hord.1]
    have hh := hk.inv.hist he
    have hreach := Reach.step _ _ hh.reach (Step.mallocPtr (e.ghost (σ k).st.mem) _ env p s1 henv.1 hm)
    refine ⟨k, env, e, s1.pool, rfl, hl, he, hlen, by rw [← hlen]; exact hf, hr, ?_, e4, ?_⟩
    · have hd := live_disjoint (g := ⟨s1, p :: e.live, _⟩) ⟨hh.valid, hreach, hh.mode⟩
      exact (List.nodup_cons.1 hd.1).1
    · intro hz cpu hcpu x hx
      have hm' : malloc e.c .zero env { pool := e.pool, mem := (σ k).st.mem } = .ok (.ptr p, s1) := by
        rw [← hm]; unfold fillOf; rw [if_pos hz]
      have := zmalloc_zero hh env henv.1 p s1 hm' cpu x hcpu hx
      rw [(hk.inv.w.each e (hk.inv.mem he)).1] at this
      rw [e5]
      exact this
  · rw [hfin] at e3; cases e3

theorem ownSteps_succ (ℓ : Nat → Lbl) (t i k : Nat) :
    ownSteps ℓ t i (k + 1) = ownSteps ℓ t i k + if i ≤ k ∧ (ℓ k).inside = some t then 1 else 0 := by
  unfold ownSteps
  rw [List.range_succ, List.filter_append, List.length_append]
  congr 1
  by_cases h : i ≤ k ∧ (ℓ k).inside = some t
  · rw [if_pos h, List.filter_cons, if_pos (by simp [h.1, h.2])]; rfl
  · rw [if_neg h, List.filter_cons, if_neg]
    · rfl
    · intro hc
      simp at hc
      exact h hc

theorem ownSteps_self (ℓ : Nat → Lbl) (t i : Nat) : ownSteps ℓ t i i = 0 := by
  unfold ownSteps
  rw [List.length_eq_zero_iff, List.filter_eq_nil_iff]
  intro k hk
  have := List.mem_range.1 hk
  simp
  intro hc
  omega

/-- Steps a thread may still take. -/
def budget : TSt → Nat
  | .search _ mo => 2 * (8 * wb - mo) + 1
  | .use _ o => 2 * (8 * wb - o)
  | _ => 0

/-- C78: a call ends after a bounded number of its own steps, whatever other threads do (they can delay it only by
holding the locks): at most one search and one allocation per pool size, and a last search. -/
theorem conc_set_bounded {pg : Nat} {σ : Nat → CSt} {ℓ : Nat → Lbl} {n : Nat} (h : Exec pg σ ℓ n) {t : Nat} {c : Call} {i j : Nat}
    (hij : i ≤ j) (hj : j ≤ n) (hstart : (σ i).thr t = .search c (minOrder c.len))
    (hrun : ∀ k, i ≤ k → k < j → Running c ((σ k).thr t)) :
    ownSteps ℓ t i j ≤ 2 * (8 * wb - minOrder c.len) + 1 := by
  suffices hm : ∀ k, i ≤ k → k ≤ j → ownSteps ℓ t i k + budget ((σ k).thr t) ≤ 2 * (8 * wb - minOrder c.len) + 1 by
    have := hm j hij (Nat.le_refl _)
    omega
  intro k
  induction k with
  | zero =>
    intro h1 _
    have : i = 0 := by omega
    subst this
    rw [ownSteps_self, hstart]
    simp [budget]
  | succ k ih =>
    intro h1 h2
    by_cases hik : i = k + 1
    · subst hik
      rw [ownSteps_self, hstart]
      simp [budget]
    · have ih := ih (by omega) (by omega)
      rw [ownSteps_succ]
      have hk := exec_inv h k (by omega)
      rcases cstep_running hk (h.step k (by omega)) (hrun k (by omega) (by omega)) with
        ⟨e1, hn⟩ | ⟨hl, mo, e1, ⟨o', hs, e2⟩ | ⟨hs, e2⟩⟩ | ⟨env, o', e2, hl, e1, he2, hf2, henv, ⟨_, p, s1, _, e3, _⟩ | ⟨hno, e3⟩⟩
      · rw [e1, if_neg (fun hc => hn hc.2)]; exact ih
      · rw [e2, if_pos ⟨by omega, by rw [hl]; rfl⟩]
        rw [e1] at ih
        have hb := search_bounds hs
        unfold budget at *
        dsimp only at ih ⊢
        omega
      · rw [e2, if_pos ⟨by omega, by rw [hl]; rfl⟩]
        rw [e1] at ih
        unfold budget at *
        dsimp only at ih ⊢
        omega
      · rw [e3, if_pos ⟨by omega, by rw [hl]; rfl⟩]
        rw [e1] at ih
        have hb := (hk.inv.order o' e2 he2).2
        unfold budget at *
        dsimp only at ih ⊢
        omega
      · rw [e3, if_pos ⟨by omega, by rw [hl]; rfl⟩]
        rw [e1] at ih
        have hb := (hk.inv.order o' e2 he2).2
        unfold budget at *
        dsimp only at ih ⊢
        omega

/-- Steps of thread `t` alone. -/
inductive Solo (pg t : Nat) : CSt → CSt → Prop where
  | nil (s : CSt) : Solo pg t s s
  | cons (l : Lbl) (s s' s'' : CSt) (hl : l.inside = some t) (h : CStep pg l s s') (hs : Solo pg t s' s'') : Solo pg t s s''

/-- C78: without interference the steps compute the sequential function `__rseq_mempool_set_malloc` (`setMalloc`, C22). -/
theorem conc_set_solo {pg : Nat} {s : CSt} (h : SReach pg s.st) {envs : Nat → RangeEnv} (henv : EnvsOK s.st envs) {t : Nat}
    {c : Call} (hs : s.thr t = .search c (minOrder c.len)) :
    ∃ s' r t' m', setMalloc c.zeroed c.init c.len envs s.st.table s.st.mem = .ok (r, t', m') ∧ Solo pg t s s' ∧
      s'.thr t = .done c r ∧ s'.st.table = t' ∧ s'.st.mem = m' ∧ ∀ u, u ≠ t → s'.thr u = s.thr u := by
  have hi := sreach_inv h
  suffices hm : ∀ n mo (thr : Nat → TSt), 8 * wb - mo ≤ n → thr t = .search c mo → (∀ u, u ≠ t → thr u = s.thr u) →
      ∃ s' r t' m', setLoop c.zeroed c.init c.len.toNat envs mo s.st.table s.st.mem = .ok (r, t', m') ∧
        Solo pg t ⟨s.st, thr⟩ s' ∧ s'.thr t = .done c r ∧ s'.st.table = t' ∧ s'.st.mem = m' ∧ ∀ u, u ≠ t → s'.thr u = s.thr u from
    hm _ _ s.thr (Nat.le_refl _) hs fun _ _ => rfl
  have hnone : ∀ mo (thr : Nat → TSt), search s.st.table c.len.toNat mo = none → thr t = .search c mo →
      (∀ u, u ≠ t → thr u = s.thr u) →
      ∃ s' r t' m', setLoop c.zeroed c.init c.len.toNat envs mo s.st.table s.st.mem = .ok (r, t', m') ∧
        Solo pg t ⟨s.st, thr⟩ s' ∧ s'.thr t = .done c r ∧ s'.st.table = t' ∧ s'.st.mem = m' ∧ ∀ u, u ≠ t → s'.thr u = s.thr u := by
    intro mo thr hsn ht hu
    refine ⟨_, .null .ENOMEM, s.st.table, s.st.mem, ?_, .cons (.search t) _ _ _ rfl (.search _ t c mo ht) (.nil _), ?_, ?_, ?_, ?_⟩
    · unfold setLoop; split
      · rfl
      · rename_i o h; rw [hsn] at h; cases h
    all_goals unfold searchStep; dsimp only; rw [hsn]
    · exact setThr_self ..
    · intro u hne
      show CSt.setThr _ t _ u = _
      rw [setThr_ne _ _ hne]
      exact hu u hne
  intro n
  induction n with
  | zero =>
    intro mo thr hmo ht hu
    exact hnone mo thr (by unfold search; rw [if_neg (by omega)]) ht hu
  | succ n ih =>
    intro mo thr hmo ht hu
    cases hsr : search s.st.table c.len.toNat mo with
    | none => exact hnone mo thr hsr ht hu
    | some o =>
      obtain ⟨a1, ⟨e, he, hf⟩, _⟩ := search_fits hsr
      have htab : s.st.table o = some (e.c, e.pool) := by simp [SState.table, he]
      have hb := search_bounds hsr
      have hml : mallocLen e.c c.zeroed c.init c.len.toNat (envs o) { pool := e.pool, mem := s.st.mem } =
          malloc e.c (fillOf c.zeroed c.init c.len.toNat) (envs o) { pool := e.pool, mem := s.st.mem } := by
        unfold mallocLen; unfold Fits at hf; rw [if_neg (by omega)]
      let s1 : CSt := { st := s.st, thr := (CSt.mk s.st thr).setThr t (.use c o) }
      have hst1 : CStep pg (.search t) ⟨s.st, thr⟩ s1 := by
        have := CStep.search (pg := pg) ⟨s.st, thr⟩ t c mo ht
        unfold searchStep at this
        dsimp only at this
        rw [hsr] at this
        exact this
      have hst2 : CStep pg (.malloc t (envs o)) s1 (mallocStep s1 t c o (envs o)) :=
        .malloc s1 t c o (envs o) (setThr_self ..) fun e' he' => henv o e' he'
      rcases mallocStep_cases (s := s1) hi (t := t) he hf (henv o e he) with ⟨_, p, s2, hm, e1⟩ | ⟨hno, e1⟩
      · refine ⟨_, .ptr o p, fun x => if x = o then some (e.c, s2.pool) else s.st.table x, s2.mem, ?_,
          .cons _ _ _ _ rfl hst1 (.cons _ _ _ _ rfl hst2 (.nil _)), ?_, ?_, ?_, ?_⟩
        · unfold setLoop
          split
          · rename_i h; rw [hsr] at h; cases h
          · rename_i o1 h
            rw [hsr] at h
            cases h
            rw [htab]
            dsimp only
            rw [hml, hm]
        all_goals rw [e1]
        · exact setThr_self ..
        · funext x
          unfold SState.table SState.put
          dsimp only
          split <;> rfl
        · rfl
        · intro u hne
          show s1.setThr t _ u = _
          rw [setThr_ne _ _ hne]
          show CSt.setThr _ t _ u = _
          rw [setThr_ne _ _ hne]
          exact hu u hne
      · have hnull : malloc e.c (fillOf c.zeroed c.init c.len.toNat) (envs o) { pool := e.pool, mem := s.st.mem } =
            .ok (.null .ENOMEM, { pool := e.pool, mem := s.st.mem }) := by
          have hfl := fillOf_len c.zeroed c.init c.len.toNat
          rcases malloc_room (hi.hist he) (henv o e he).1 (fill := fillOf c.zeroed c.init c.len.toNat)
            (by unfold Fits at hf; omega) with ⟨hr, _⟩ | ⟨_, hm⟩
          · exact absurd hr hno
          · exact hm
        have hnext : setLoop c.zeroed c.init c.len.toNat envs mo s.st.table s.st.mem =
            setLoop c.zeroed c.init c.len.toNat envs (o + 1) s.st.table s.st.mem := by
          conv => lhs; unfold setLoop
          split
          · rename_i h; rw [hsr] at h; cases h
          · rename_i o1 h
            rw [hsr] at h
            cases h
            rw [htab]
            dsimp only
            rw [hml, hnull]
            dsimp only
            congr 1
            funext x
            split
            · rename_i hx; rw [hx, htab]
            · rfl
        obtain ⟨s', r, t', m', b1, b2, b3, b4, b5, b6⟩ := ih (o + 1) (s1.setThr t (.search c (o + 1))) (by omega)
          (setThr_self ..) (fun u hne => by
            rw [setThr_ne _ _ hne]
            show CSt.setThr _ t _ u = _
            rw [setThr_ne _ _ hne]
            exact hu u hne)
        rw [e1] at hst2
        exact ⟨s', r, t', m', by rw [hnext]; exact b1, .cons _ _ _ _ rfl hst1 (.cons _ _ _ _ rfl hst2 b2), b3, b4, b5, b6⟩

/-- All items of all ranges of the pool are in use. -/
def AllUsed (e : Entry) : Prop := e.freed = [] ∧ e.live.length = e.pool.ranges.length * itemsPerRange e.c

theorem allUsed_of_full {m : Mem} {e : Entry} {env : RangeEnv} (hh : Hist e.c false (e.ghost m)) (h : ¬ HasRoom e env) : AllUsed e := by
  have h1 : e.freed = [] := Classical.byContradiction fun hc => h (Or.inl hc)
  have hcap : e.live.length + e.freed.length ≤ e.pool.ranges.length * itemsPerRange e.c := count_le hh.valid hh.inv.toInv0
  have : ¬ e.live.length < e.pool.ranges.length * itemsPerRange e.c := fun hc => h (Or.inr (Or.inl hc))
  exact ⟨h1, by rw [h1, List.length_nil] at hcap; omega⟩

/-- A pool whose items are all in use stays so, unless an item is freed or a range added. -/
theorem allUsed_step {pg : Nat} {l : Lbl} {s s' : CSt} (h : CInv pg s) (hs : CStep pg l s s') (hl : ∀ u, l ≠ .free u) {o : Nat}
    {e e' : Entry} (he : s.st.set o = some e) (he' : s'.st.set o = some e')
    (hr : e'.pool.ranges.length = e.pool.ranges.length) (hu : AllUsed e) : AllUsed e' := by
  have hsame : s'.st.set o = s.st.set o → AllUsed e' := by
    intro heq
    rw [he, he'] at heq
    cases heq
    exact hu
  have hinv' := (cstep_inv h hs).1.inv
  cases hs with
  | call _ t c hi => exact hsame rfl
  | ret _ t c r hi => exact hsame rfl
  | search _ t c mo hi =>
    apply hsame
    unfold searchStep
    split <;> rfl
  | malloc _ t c o2 env hi henv =>
    have hx := h.thr t
    rw [hi] at hx
    obtain ⟨e2, he2, hf2⟩ := hx
    rcases mallocStep_cases h.inv (t := t) he2 hf2 (henv e2 he2) with ⟨_, p, s1, hm, e1⟩ | ⟨_, e1⟩
    · by_cases ho : o = o2
      · subst ho
        rw [he] at he2
        cases he2
        have hcap := count_le (hinv'.hist he').valid (hinv'.hist he').inv.toInv0
        rw [e1] at he'
        have : e' = e.afterMalloc s1.pool (.ptr p) := by simpa [SState.put] using he'.symm
        subst this
        have hcap : (p :: e.live).length + (e.freed.erase p).length ≤ s1.pool.ranges.length * itemsPerRange e.c := hcap
        have hr : s1.pool.ranges.length = e.pool.ranges.length := hr
        rw [hr, ← hu.2, List.length_cons] at hcap
        omega
      · apply hsame
        rw [e1]
        unfold SState.put
        dsimp only
        rw [if_neg ho]
    · apply hsame
      rw [e1]
  | add _ t pre post x t' ho ha =>
    apply hsame
    have hn := add_none ha
    dsimp only
    by_cases h1 : o = x.c.order
    · rw [← h1] at hn; unfold SState.table at hn; rw [he] at hn; cases hn
    · rw [if_neg h1]
  | free _ t o2 p x s1 ho hp hf => exact absurd rfl (hl t)
  | world _ m' others' hs => exact hsame rfl

/-- C79, partial. Full statement: an allocation fails with ENOMEM only if at some moment of the call no pool with items of
sufficient length has room. What is missing: it holds if no item of the set is freed and no pool of the set adds a range during the
call; then at the end of the call all items of all those pools are in use. -/
theorem conc_set_enomem_moment_partial {pg : Nat} {σ : Nat → CSt} {ℓ : Nat → Lbl} {n : Nat} (h : Exec pg σ ℓ n) {t : Nat} {c : Call}
    {i j : Nat} (hj : j ≤ n) {er : Errno} (hs : Spans σ t c i j (.null er)) (hnf : ∀ k, i ≤ k → k < j → ∀ u, ℓ k ≠ .free u)
    (hnr : ∀ k, i ≤ k → k < j → ∀ o e e', (σ k).st.set o = some e → (σ (k + 1)).st.set o = some e' →
      e'.pool.ranges.length = e.pool.ranges.length)
    (o : Nat) (e : Entry) (he : (σ i).st.set o = some e) (hf : Fits e c.len.toNat) :
    ∃ e', (σ j).st.set o = some e' ∧ AllUsed e' := by
  obtain ⟨k, hik, hkj, env, e1, hl, he1, henv, hno⟩ := conc_set_enomem h hj hs o e he hf
  have hk := exec_inv h k (by omega)
  have hu := allUsed_of_full (hk.inv.hist he1) hno
  suffices hm : ∀ k', k ≤ k' → k' ≤ j → ∃ e', (σ k').st.set o = some e' ∧ AllUsed e' from hm j (by omega) (Nat.le_refl _)
  intro k'
  induction k' with
  | zero =>
    intro h1 _
    have : k = 0 := by omega
    subst this
    exact ⟨e1, he1, hu⟩
  | succ k' ih =>
    intro h1 h2
    by_cases hkk : k = k' + 1
    · rw [← hkk]; exact ⟨e1, he1, hu⟩
    · obtain ⟨e2, he2, hu2⟩ := ih (by omega) (by omega)
      have hst := h.step k' (by omega)
      have hinv := exec_inv h k' (by omega)
      obtain ⟨e3, he3, _⟩ := (cstep_inv hinv hst).2 o e2 he2
      exact ⟨e3, he3, allUsed_step hinv hst (hnf k' (by omega) (by omega)) he2 he3
        (hnr k' (by omega) (by omega) o e2 e3 he2 he3) hu2⟩

end Verif.PoolSet
