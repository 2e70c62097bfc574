import Verif.PoolSetConc
/-
Helper lemmas for concurrent pool sets.
-/
namespace Verif.PoolSet
open Verif Verif.Mem Verif.Mempool

variable [Abi]

/-- Pools of the process are pairwise different. -/
theorem SInv.put {pg : Nat} {st : SState} (h : SInv pg st) {o : Nat} {e e' : Entry} {m : Mem} (he : st.set o = some e)
    (hc : e'.c = e.c) (hs : ∀ pre post, st.all = pre ++ e :: post → WInv pg ⟨m, pre ++ e' :: post⟩) :
    SInv pg (st.put o e' m) := by
  obtain ⟨a, b, h1, h2⟩ := split_some (h.order o e he).2 he
  have hall : st.all = (st.others ++ a) ++ e :: b := by unfold SState.all SState.inSet; rw [h1]; simp
  refine ⟨?_, ?_⟩
  · have hset : (st.put o e' m).all = (st.others ++ a) ++ e' :: b := by
      unfold SState.all SState.inSet SState.put
      dsimp only
      rw [h2]
      simp
    rw [hset]
    exact hs _ _ hall
  · intro o' x hx
    unfold SState.put at hx
    dsimp only at hx
    split at hx
    · rename_i ho; cases hx; rw [hc, ho]; exact h.order o e he
    · exact h.order o' x hx

/-- Two positions of the list of pools never hold the same pool. -/
theorem SInv.ne_of_mem {pg : Nat} {st : SState} (h : SInv pg st) {pre post : List Entry} {e e2 : Entry} {r : Range}
    (hall : st.all = pre ++ e :: post) (he2 : e2 ∈ pre ++ post) (hr : r ∈ e2.pool.ranges) : e2 ≠ e := by
  intro heq
  have hsep := h.w.sep
  dsimp only at hsep
  rw [hall, List.pairwise_append, List.pairwise_cons] at hsep
  have hself : Sep e e := by
    rw [heq] at he2
    rcases List.mem_append.1 he2 with h3 | h3
    · exact hsep.2.2 e h3 e List.mem_cons_self
    · exact hsep.2.1.1 e h3
  rw [heq] at hr
  have := hself r hr r hr
  have hv := (h.w.each e (by rw [hall]; simp)).2.1.pg_pos
  unfold Apart2 at this
  omega

theorem SInv.malloc {pg : Nat} {st : SState} (h : SInv pg st) {o : Nat} {e : Entry} {env : RangeEnv} {fill : Fill}
    {ret : Ret} {s' : State} (he : st.set o = some e) (henv : EnvFor st e env)
    (hm : malloc e.c fill env { pool := e.pool, mem := st.mem } = .ok (ret, s')) :
    SInv pg (st.put o (e.afterMalloc s'.pool ret) s'.mem) := by
  refine h.put he (by cases ret <;> rfl) fun pre post hall => ?_
  refine wstep_inv h.w (WStep.malloc ⟨st.mem, st.all⟩ pre post e fill env ret s' hall henv.1 ?_ hm)
  intro base hb e2 he2 r hr
  refine henv.2 base hb e2 ?_ (h.ne_of_mem hall he2 hr) r hr
  rw [hall]
  simp only [List.mem_append, List.mem_cons] at he2 ⊢
  grind

theorem SInv.free {pg : Nat} {st : SState} (h : SInv pg st) {o p : Nat} {e : Entry} {s' : State}
    (he : st.set o = some e) (hp : p ∈ e.live) (hf : Mempool.free e.c p { pool := e.pool, mem := st.mem } = .ok s') :
    SInv pg (st.put o { e with pool := s'.pool, live := e.live.erase p, freed := p :: e.freed } s'.mem) :=
  h.put he rfl fun pre post hall => wstep_inv h.w (WStep.free ⟨st.mem, st.all⟩ pre post e p s' hall hp hf)

theorem SInv.add {pg : Nat} {st : SState} (ih : SInv pg st) {pre post : List Entry} {e : Entry} {t' : Table}
    (ho : st.others = pre ++ e :: post) (ha : addPool st.table e.c e.pool = some t') :
    SInv pg ⟨st.mem, pre ++ post, fun o => if o = e.c.order then some e else st.set o⟩ := by
  have hmem : e ∈ st.all := by unfold SState.all; rw [ho]; simp
  have hlt := order_lt (c := e.c) (uaf := false) (g := e.ghost st.mem)
    ⟨(ih.w.each e hmem).2.1, (ih.w.each e hmem).2.2, fun hh => by cases hh⟩
  have hnone : st.set e.c.order = none := by
    unfold addPool SState.table at ha
    cases hx : st.set e.c.order with
    | none => rfl
    | some e' => rw [hx] at ha; cases ha
  obtain ⟨a, b, h1, h2⟩ := split_none hlt hnone
  refine ⟨WInv.perm ih.w ?_, ?_⟩
  · unfold SState.all SState.inSet
    dsimp only
    rw [h1, h2 e, ho]
    have e1 : pre ++ e :: post ++ (a ++ b) = pre ++ e :: (post ++ a ++ b) := by simp
    have e2 : pre ++ post ++ (a ++ e :: b) = (pre ++ post ++ a) ++ e :: b := by simp
    rw [e1, e2]
    refine List.perm_middle.trans (List.Perm.trans ?_ List.perm_middle.symm)
    simp
  · intro o e' he
    dsimp only at he
    split at he
    · rename_i hoe; cases he; exact ⟨hoe.symm, by omega⟩
    · exact ih.order o e' he

theorem add_none {t t' : Table} {c : Config} {pool : Pool} (ha : addPool t c pool = some t') : t c.order = none := by
  unfold addPool at ha
  split at ha
  · cases ha
  · assumption

/-- What is known of a thread. -/
def TOK (st : SState) : TSt → Prop
  | .idle => True
  | .search _ _ => True
  | .use c o => ∃ e, st.set o = some e ∧ Fits e c.len.toNat
  | .done c (.ptr o _) => ∃ e, st.set o = some e ∧ Fits e c.len.toNat
  | .done _ (.null er) => er = .ENOMEM
  | .crashed => False

structure CInv (pg : Nat) (s : CSt) : Prop where
  inv : SInv pg s.st
  thr : ∀ t, TOK s.st (s.thr t)

/-- The pools of the second state include those of the first. -/
def Keeps (st st' : SState) : Prop := ∀ o e, st.set o = some e → ∃ e', st'.set o = some e' ∧ e'.c = e.c

theorem Keeps.refl (st : SState) : Keeps st st := fun _ e h => ⟨e, h, rfl⟩

theorem Keeps.trans {a b c : SState} (h1 : Keeps a b) (h2 : Keeps b c) : Keeps a c := by
  intro o e h
  obtain ⟨e1, a1, a2⟩ := h1 o e h
  obtain ⟨e2, b1, b2⟩ := h2 o e1 a1
  exact ⟨e2, b1, b2.trans a2⟩

theorem TOK.keep {st st' : SState} (hk : Keeps st st') {x : TSt} (h : TOK st x) : TOK st' x := by
  cases x with
  | idle => trivial
  | search => trivial
  | use c o =>
    obtain ⟨e, h1, h2⟩ := h
    obtain ⟨e', h3, h4⟩ := hk o e h1
    exact ⟨e', h3, by unfold Fits at *; rw [h4]; exact h2⟩
  | done c r =>
    cases r with
    | ptr o p =>
      obtain ⟨e, h1, h2⟩ := h
      obtain ⟨e', h3, h4⟩ := hk o e h1
      exact ⟨e', h3, by unfold Fits at *; rw [h4]; exact h2⟩
    | null er => exact h
  | crashed => exact h

theorem keeps_put {st : SState} {o : Nat} {e e' : Entry} {m : Mem} (he : st.set o = some e) (hc : e'.c = e.c) :
    Keeps st (st.put o e' m) := by
  intro o' x hx
  unfold SState.put
  dsimp only
  by_cases h : o' = o
  · rw [if_pos h]; rw [h, he] at hx; cases hx; exact ⟨e', rfl, hc⟩
  · rw [if_neg h]; exact ⟨x, hx, rfl⟩

/-- The three outcomes of an allocation step. -/
theorem mallocStep_cases {pg : Nat} {s : CSt} (h : SInv pg s.st) {t : Nat} {c : Call} {o : Nat} {env : RangeEnv} {e : Entry}
    (he : s.st.set o = some e) (hf : Fits e c.len.toNat) (henv : EnvFor s.st e env) :
    (HasRoom e env ∧ ∃ p s', malloc e.c (fillOf c.zeroed c.init c.len.toNat) env { pool := e.pool, mem := s.st.mem } =
        .ok (.ptr p, s') ∧
      mallocStep s t c o env =
        { st := s.st.put o (e.afterMalloc s'.pool (.ptr p)) s'.mem, thr := s.setThr t (.done c (.ptr o p)) }) ∨
    (¬ HasRoom e env ∧ mallocStep s t c o env = { s with thr := s.setThr t (.search c (o + 1)) }) := by
  have hml : mallocLen e.c c.zeroed c.init c.len.toNat env { pool := e.pool, mem := s.st.mem } =
      malloc e.c (fillOf c.zeroed c.init c.len.toNat) env { pool := e.pool, mem := s.st.mem } := by
    unfold mallocLen; unfold Fits at hf; rw [if_neg (by omega)]
  have hfl := fillOf_len c.zeroed c.init c.len.toNat
  rcases malloc_room (h.hist he) henv.1 (fill := fillOf c.zeroed c.init c.len.toNat) (by unfold Fits at hf; omega) with
    ⟨hr, p, s', hm⟩ | ⟨hr, hm⟩
  · left
    refine ⟨hr, p, s', hm, ?_⟩
    unfold mallocStep
    rw [he]
    dsimp only
    rw [hml, hm]
  · right
    refine ⟨hr, ?_⟩
    unfold mallocStep
    rw [he]
    dsimp only
    rw [hml, hm]
    dsimp only
    have hput : s.st.put o (e.afterMalloc e.pool (.null .ENOMEM)) s.st.mem = s.st := by
      unfold SState.put Entry.afterMalloc
      have : (fun x => if x = o then some e else s.st.set x) = s.st.set := by
        funext x
        split
        · rename_i hx; rw [hx, he]
        · rfl
      dsimp only
      rw [this]
    rw [hput]
    simp

/-- The search finds a pool of the set that fits. -/
theorem search_fits {st : SState} {len mo o : Nat} (h : search st.table len mo = some o) :
    mo ≤ o ∧ (∃ e, st.set o = some e ∧ Fits e len) ∧ ∀ o' e', mo ≤ o' → o' < o → st.set o' = some e' → ¬ Fits e' len := by
  obtain ⟨a1, _, ⟨c, pool, a3, a3'⟩, a4⟩ := search_spec.1 o h
  refine ⟨a1, ?_, fun o' e' h1 h2 h3 => a4 o' h1 h2 e'.c e'.pool (by simp [SState.table, h3])⟩
  unfold SState.table at a3
  cases hx : st.set o with
  | none => rw [hx] at a3; cases a3
  | some e =>
    rw [hx] at a3
    refine ⟨e, rfl, ?_⟩
    have : (e.c, e.pool) = (c, pool) := by simpa using a3
    have : c = e.c := (congrArg Prod.fst this).symm
    unfold Fits
    rw [← this]
    exact a3'

theorem search_fails {pg : Nat} {st : SState} (hi : SInv pg st) {len mo : Nat} (h : search st.table len mo = none) :
    ∀ o e, mo ≤ o → st.set o = some e → ¬ Fits e len :=
  fun o e h1 h2 => search_spec.2 h o h1 (hi.order o e h2).2 e.c e.pool (by simp [SState.table, h2])

theorem setThr_self (s : CSt) (t : Nat) (x : TSt) : s.setThr t x t = x := by unfold CSt.setThr; rw [if_pos rfl]

theorem setThr_ne (s : CSt) {t u : Nat} (x : TSt) (h : u ≠ t) : s.setThr t x u = s.thr u := by
  unfold CSt.setThr; rw [if_neg h]

theorem tok_setThr {s : CSt} {st' : SState} {t : Nat} {x : TSt} (hk : Keeps s.st st') (h : ∀ u, TOK s.st (s.thr u))
    (hx : TOK st' x) (u : Nat) : TOK st' (s.setThr t x u) := by
  by_cases hu : u = t
  · rw [hu, setThr_self]; exact hx
  · rw [setThr_ne _ _ hu]; exact (h u).keep hk

theorem cstep_inv {pg : Nat} {l : Lbl} {s s' : CSt} (h : CInv pg s) (hs : CStep pg l s s') : CInv pg s' ∧ Keeps s.st s'.st := by
  cases hs with
  | call _ t c hi =>
    exact ⟨⟨h.inv, tok_setThr (Keeps.refl _) h.thr (by trivial)⟩, Keeps.refl _⟩
  | ret _ t c r hi =>
    exact ⟨⟨h.inv, tok_setThr (Keeps.refl _) h.thr (by trivial)⟩, Keeps.refl _⟩
  | search _ t c mo hi =>
    unfold searchStep
    split
    · rename_i o ho
      exact ⟨⟨h.inv, tok_setThr (Keeps.refl _) h.thr (search_fits ho).2.1⟩, Keeps.refl _⟩
    · exact ⟨⟨h.inv, tok_setThr (Keeps.refl _) h.thr rfl⟩, Keeps.refl _⟩
  | malloc _ t c o env hi henv =>
    have hx := h.thr t
    rw [hi] at hx
    obtain ⟨e, he, hf⟩ := hx
    rcases mallocStep_cases h.inv (t := t) he hf (henv e he) with ⟨_, p, s1, hm, e1⟩ | ⟨_, e1⟩
    · rw [e1]
      have hk := keeps_put (m := s1.mem) he (e' := e.afterMalloc s1.pool (.ptr p)) rfl
      exact ⟨⟨h.inv.malloc he (henv e he) hm, tok_setThr hk h.thr ⟨e.afterMalloc s1.pool (.ptr p), by simp [SState.put], hf⟩⟩, hk⟩
    · rw [e1]
      exact ⟨⟨h.inv, tok_setThr (Keeps.refl _) h.thr (by trivial)⟩, Keeps.refl _⟩
  | add _ t pre post e t' ho ha =>
    have hk : Keeps s.st ⟨s.st.mem, pre ++ post, fun o => if o = e.c.order then some e else s.st.set o⟩ := by
      intro o x hx
      dsimp only
      have hn := add_none ha
      by_cases ho : o = e.c.order
      · rw [← ho] at hn; unfold SState.table at hn; rw [hx] at hn; cases hn
      · rw [if_neg ho]; exact ⟨x, hx, rfl⟩
    exact ⟨⟨h.inv.add ho ha, fun u => (h.thr u).keep hk⟩, hk⟩
  | free _ t o p e s1 ho hp hf =>
    have hk := keeps_put (m := s1.mem) ho (e' := { e with pool := s1.pool, live := e.live.erase p, freed := p :: e.freed }) rfl
    exact ⟨⟨h.inv.free ho hp hf, fun u => (h.thr u).keep hk⟩, hk⟩
  | world _ m' others' hs =>
    have hk : Keeps s.st ⟨m', others', s.st.set⟩ := fun o e he => ⟨e, he, rfl⟩
    exact ⟨⟨⟨wstep_inv h.inv.w hs, h.inv.order⟩, fun u => (h.thr u).keep hk⟩, hk⟩

theorem exec_inv {pg : Nat} {σ : Nat → CSt} {ℓ : Nat → Lbl} {n : Nat} (h : Exec pg σ ℓ n) : ∀ k, k ≤ n → CInv pg (σ k) := by
  intro k
  induction k with
  | zero => intro _; exact ⟨sreach_inv h.init, fun t => by rw [h.idle t]; trivial⟩
  | succ k ih => intro hk; exact (cstep_inv (ih (by omega)) (h.step k (by omega))).1

theorem exec_keeps {pg : Nat} {σ : Nat → CSt} {ℓ : Nat → Lbl} {n : Nat} (h : Exec pg σ ℓ n) (i : Nat) : ∀ k, i ≤ k → k ≤ n →
    Keeps (σ i).st (σ k).st := by
  intro k
  induction k with
  | zero => intro h1 _; have : i = 0 := by omega
            subst this; exact Keeps.refl _
  | succ k ih =>
    intro h1 h2
    by_cases he : i = k + 1
    · rw [he]; exact Keeps.refl _
    · exact (ih (by omega) (by omega)).trans (cstep_inv (exec_inv h k (by omega)) (h.step k (by omega))).2

/-- What one step does to a running thread. -/
theorem cstep_running {pg : Nat} {l : Lbl} {s s' : CSt} (h : CInv pg s) (hs : CStep pg l s s') {t : Nat} {c : Call}
    (hr : Running c (s.thr t)) :
    (s'.thr t = s.thr t ∧ l.inside ≠ some t) ∨
    (l = .search t ∧ ∃ mo, s.thr t = .search c mo ∧
      ((∃ o, search s.st.table c.len.toNat mo = some o ∧ s'.thr t = .use c o) ∨
       (search s.st.table c.len.toNat mo = none ∧ s'.thr t = .done c (.null .ENOMEM)))) ∨
    (∃ env o e, l = .malloc t env ∧ s.thr t = .use c o ∧ s.st.set o = some e ∧ Fits e c.len.toNat ∧ EnvFor s.st e env ∧
      ((HasRoom e env ∧ ∃ p s1, malloc e.c (fillOf c.zeroed c.init c.len.toNat) env { pool := e.pool, mem := s.st.mem } =
            .ok (.ptr p, s1) ∧ s'.thr t = .done c (.ptr o p) ∧
          s'.st.set o = some (e.afterMalloc s1.pool (.ptr p)) ∧ s'.st.mem = s1.mem) ∨
       (¬ HasRoom e env ∧ s'.thr t = .search c (o + 1)))) := by
  cases hs with
  | call _ u c' hi =>
    left
    by_cases hu : t = u
    · rw [← hu] at hi; rw [hi] at hr; cases hr
    · exact ⟨setThr_ne _ _ hu, by simp [Lbl.inside]⟩
  | ret _ u c' r hi =>
    left
    by_cases hu : t = u
    · rw [← hu] at hi; rw [hi] at hr; cases hr
    · exact ⟨setThr_ne _ _ hu, by simp [Lbl.inside]⟩
  | search _ u c' mo hi =>
    by_cases hu : t = u
    · subst hu
      rw [hi] at hr
      have hc : c' = c := hr
      subst hc
      right; left
      refine ⟨rfl, mo, hi, ?_⟩
      unfold searchStep
      split
      · rename_i o ho; exact Or.inl ⟨o, ho, setThr_self ..⟩
      · rename_i ho; exact Or.inr ⟨ho, setThr_self ..⟩
    · left
      unfold searchStep
      refine ⟨?_, by simp [Lbl.inside]; exact fun hh => hu hh.symm⟩
      split <;> exact setThr_ne _ _ hu
  | malloc _ u c' o env hi henv =>
    have hx := h.thr u
    rw [hi] at hx
    obtain ⟨e, he, hf⟩ := hx
    by_cases hu : t = u
    · subst hu
      rw [hi] at hr
      have hc : c' = c := hr
      subst hc
      right; right
      refine ⟨env, o, e, rfl, hi, he, hf, henv e he, ?_⟩
      rcases mallocStep_cases h.inv (t := t) he hf (henv e he) with ⟨h1, p, s1, hm, e1⟩ | ⟨h1, e1⟩
      · rw [e1]; exact Or.inl ⟨h1, p, s1, hm, setThr_self .., by simp [SState.put], rfl⟩
      · rw [e1]; exact Or.inr ⟨h1, setThr_self ..⟩
    · left
      refine ⟨?_, by simp [Lbl.inside]; exact fun hh => hu hh.symm⟩
      rcases mallocStep_cases h.inv (t := u) he hf (henv e he) with ⟨_, p, s1, hm, e1⟩ | ⟨_, e1⟩ <;>
        rw [e1] <;> exact setThr_ne _ _ hu
  | add _ u pre post e t' ho ha => exact Or.inl ⟨rfl, by simp [Lbl.inside]⟩
  | free _ u o p e s1 ho hp hf => exact Or.inl ⟨rfl, by simp [Lbl.inside]⟩
  | world _ m' others' hs => exact Or.inl ⟨rfl, by simp [Lbl.inside]⟩

/-- The pools a thread has left behind. -/
def Passed : TSt → Nat → Prop
  | .search _ mo, o => o < mo
  | .use _ o', o => o < o'
  | .done _ (.ptr o' _), o => o < o'
  | .done _ (.null _), _ => True
  | _, _ => False

theorem passed_full {pg : Nat} {σ : Nat → CSt} {ℓ : Nat → Lbl} {n : Nat} (h : Exec pg σ ℓ n) {t : Nat} {c : Call} {i j : Nat}
    (hj : j ≤ n) (hstart : (σ i).thr t = .search c (minOrder c.len))
    (hrun : ∀ k, i ≤ k → k < j → Running c ((σ k).thr t)) {o : Nat} {e : Entry}
    (he : (σ i).st.set o = some e) (hf : Fits e c.len.toNat) : ∀ k, i ≤ k → k ≤ j → Passed ((σ k).thr t) o →
    ∃ k', i ≤ k' ∧ k' < k ∧ FoundFull σ ℓ t o k' := by
  intro k
  induction k with
  | zero =>
    intro h1 h2 hp
    have : i = 0 := by omega
    subst this
    rw [hstart] at hp
    have hi := (exec_inv h 0 (by omega)).inv
    have := minOrder_le (hi.hist he).valid hf
    rw [(hi.order o e he).1] at this
    exact absurd hp (by unfold Passed; omega)
  | succ k ih =>
    intro h1 h2 hp
    by_cases hik : i = k + 1
    · rw [← hik, hstart] at hp
      have hi := (exec_inv h i (by omega)).inv
      have := minOrder_le (hi.hist he).valid hf
      rw [(hi.order o e he).1] at this
      exact absurd hp (by unfold Passed; omega)
    · have hk := exec_inv h k (by omega)
      obtain ⟨e', he', hc'⟩ := exec_keeps h i k (by omega) (by omega) o e he
      have hf' : Fits e' c.len.toNat := by unfold Fits at *; rw [hc']; exact hf
      have hlift : Passed ((σ k).thr t) o → ∃ k', i ≤ k' ∧ k' < k + 1 ∧ FoundFull σ ℓ t o k' := by
        intro hh
        obtain ⟨k', a1, a2, a3⟩ := ih (by omega) (by omega) hh
        exact ⟨k', a1, by omega, a3⟩
      rcases cstep_running hk (h.step k (by omega)) (hrun k (by omega) (by omega)) with
        ⟨e1, _⟩ | ⟨_, mo, e1, ⟨o', hs, e2⟩ | ⟨hs, e2⟩⟩ | ⟨env, o', e2, hl, e1, he2, hf2, henv, ⟨_, p, s1, _, e3, _⟩ | ⟨hno, e3⟩⟩
      · rw [e1] at hp; exact hlift hp
      · rw [e2] at hp
        apply hlift
        rw [e1]
        by_cases hlt : o < mo
        · exact hlt
        · exact absurd hf' ((search_fits hs).2.2 o e' (by omega) hp he')
      · apply hlift
        rw [e1]
        by_cases hlt : o < mo
        · exact hlt
        · exact absurd hf' (search_fails hk.inv hs o e' (by omega) he')
      · rw [e3] at hp
        apply hlift
        rw [e1]
        exact hp
      · rw [e3] at hp
        have hp : o < o' + 1 := hp
        by_cases ho : o = o'
        · subst ho
          exact ⟨k, by omega, by omega, env, e2, hl, he2, henv, hno⟩
        · apply hlift
          rw [e1]
          show o < o'
          omega

end Verif.PoolSet
