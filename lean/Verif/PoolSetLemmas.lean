import Verif.PoolSetSpec
import Verif.MempoolCreateProps
/-
Helper lemmas for pool sets.
-/
namespace Verif.PoolSet
open Verif Verif.Mem Verif.Mempool

variable [Abi]

theorem filterMap_ext {l : List Nat} {f g : Nat → Option Entry} (h : ∀ x ∈ l, f x = g x) : l.filterMap f = l.filterMap g := by
  induction l with
  | nil => rfl
  | cons a l ih =>
    rw [List.filterMap_cons, List.filterMap_cons, h a (by simp), ih fun x hx => h x (by simp [hx])]

theorem split_some {f : Nat → Option Entry} {o : Nat} {e : Entry} (ho : o < 8 * wb) (he : f o = some e) :
    ∃ pre post, (List.range (8 * wb)).filterMap f = pre ++ e :: post ∧
      ∀ e', (List.range (8 * wb)).filterMap (fun x => if x = o then some e' else f x) = pre ++ e' :: post := by
  obtain ⟨a, b, hab⟩ := List.append_of_mem (List.mem_range.2 ho)
  have hn : (List.range (8 * wb)).Nodup := List.nodup_range
  rw [hab] at hn ⊢
  have ha : ∀ x ∈ a, x ≠ o := by grind
  have hb : ∀ x ∈ b, x ≠ o := by grind
  refine ⟨a.filterMap f, b.filterMap f, ?_, fun e' => ?_⟩
  · rw [List.filterMap_append, List.filterMap_cons, he]
  · rw [List.filterMap_append, List.filterMap_cons, if_pos rfl]
    dsimp only
    congr 1
    · apply filterMap_ext; intro x hx; rw [if_neg (ha x hx)]
    · congr 1; apply filterMap_ext; intro x hx; rw [if_neg (hb x hx)]

theorem split_none {f : Nat → Option Entry} {o : Nat} (ho : o < 8 * wb) (he : f o = none) :
    ∃ pre post, (List.range (8 * wb)).filterMap f = pre ++ post ∧
      ∀ e', (List.range (8 * wb)).filterMap (fun x => if x = o then some e' else f x) = pre ++ e' :: post := by
  obtain ⟨a, b, hab⟩ := List.append_of_mem (List.mem_range.2 ho)
  have hn : (List.range (8 * wb)).Nodup := List.nodup_range
  rw [hab] at hn ⊢
  have ha : ∀ x ∈ a, x ≠ o := by grind
  have hb : ∀ x ∈ b, x ≠ o := by grind
  refine ⟨a.filterMap f, b.filterMap f, ?_, fun e' => ?_⟩
  · rw [List.filterMap_append, List.filterMap_cons, he]
  · rw [List.filterMap_append, List.filterMap_cons, if_pos rfl]
    dsimp only
    congr 1
    · apply filterMap_ext; intro x hx; rw [if_neg (ha x hx)]
    · congr 1; apply filterMap_ext; intro x hx; rw [if_neg (hb x hx)]

theorem WInv.perm {pg : Nat} {m : Mem} {l l' : List Entry} (h : WInv pg ⟨m, l⟩) (hp : l.Perm l') : WInv pg ⟨m, l'⟩ :=
  ⟨h.wf, fun e he => h.each e (hp.mem_iff.2 he), (hp.pairwise_iff fun h => h.symm).1 h.sep⟩

theorem order_lt {c : Config} {uaf : Bool} {g : Ghost} (h : Hist c uaf g) : c.order < 8 * wb := by
  obtain ⟨r, hr⟩ := List.exists_mem_of_ne_nil _ (ranges_ne_nil h.valid h.mode h.reach)
  have hR := h.inv.ranges.each r hr
  have h1 := hR.top
  have h2 := hR.pos
  have h3 := h.valid.pg_pos
  have h4 := h.valid.item_le
  have h5 := h.valid.ncpu_pos
  have h6 : c.stride * 1 ≤ rangeLen c := by
    rw [rangeLen_eq]
    exact Nat.mul_le_mul_left _ (Nat.le_trans h5 (ncpu_le_nCols c))
  apply Classical.byContradiction
  intro hc
  have h7 : 2 ^ (8 * wb) ≤ c.itemLen := Nat.pow_le_pow_right (by omega) (by omega)
  omega

/-- The invariant of a process with a pool set. -/
structure SInv (pg : Nat) (st : SState) : Prop where
  w : WInv pg ⟨st.mem, st.all⟩
  order : ∀ o e, st.set o = some e → e.c.order = o ∧ o < 8 * wb

theorem SInv.mem {pg : Nat} {st : SState} (h : SInv pg st) {o : Nat} {e : Entry} (he : st.set o = some e) : e ∈ st.all :=
  List.mem_append_right _ (List.mem_filterMap.2 ⟨o, List.mem_range.2 (h.order o e he).2, he⟩)

theorem SInv.hist {pg : Nat} {st : SState} (h : SInv pg st) {o : Nat} {e : Entry} (he : st.set o = some e) :
    Hist e.c false (e.ghost st.mem) :=
  ⟨(h.w.each e (h.mem he)).2.1, (h.w.each e (h.mem he)).2.2, fun hh => by cases hh⟩

/-- An allocation succeeds exactly when the pool has room. -/
theorem malloc_room {e : Entry} {m : Mem} (h : Hist e.c false (e.ghost m)) {env : RangeEnv}
    (henv : EnvOK e.c e.pool.ranges m env) {fill : Fill} (hlen : fill.len ≤ e.c.itemLen) :
    (HasRoom e env ∧ ∃ p s', malloc e.c fill env { pool := e.pool, mem := m } = .ok (.ptr p, s')) ∨
    (¬ HasRoom e env ∧ malloc e.c fill env { pool := e.pool, mem := m } = .ok (.null .ENOMEM, { pool := e.pool, mem := m })) := by
  have hiff := (malloc_fails_iff h env henv fill hlen).1
  have hcap := count_le h.valid h.inv.toInv0
  have hroom : (∃ er s', malloc e.c fill env (e.ghost m).s = .ok (.null er, s')) ↔ ¬ HasRoom e env := by
    rw [hiff]
    have hcap : e.live.length + e.freed.length ≤ e.pool.ranges.length * itemsPerRange e.c := hcap
    show e.freed = [] ∧ e.live.length = e.pool.ranges.length * itemsPerRange e.c ∧ _ ↔ _
    unfold HasRoom
    constructor
    · rintro ⟨h1, h2, h3⟩ hh
      rcases hh with hh | hh | ⟨h4, h5⟩
      · exact hh h1
      · omega
      · rcases h3 with ⟨h3, h3'⟩ | h3
        · have h3' : e.c.maxRanges ≤ e.pool.ranges.length := h3'
          omega
        · exact h5 h3
    · intro hh
      have h1 : e.freed = [] := Classical.byContradiction fun hc => hh (Or.inl hc)
      refine ⟨h1, ?_, ?_⟩
      · have : ¬ e.live.length < e.pool.ranges.length * itemsPerRange e.c := fun hc => hh (Or.inr (Or.inl hc))
        rw [h1, List.length_nil] at hcap
        omega
      · apply Classical.byContradiction
        intro hc
        apply hh
        refine Or.inr (Or.inr ⟨?_, fun hr => hc (Or.inr hr)⟩)
        apply Classical.byContradiction
        intro hc2
        apply hc
        left
        show e.c.maxRanges ≠ 0 ∧ e.c.maxRanges ≤ e.pool.ranges.length
        omega
  rcases malloc_spec h.valid h.inv henv fill with ⟨h1, _⟩ | ⟨_, ⟨r, k, s1, F', _, e1, _⟩ | ⟨e1, _⟩ | ⟨_, h1, _⟩⟩
  · omega
  · left
    refine ⟨Classical.byContradiction fun hc => ?_, _, _, e1⟩
    obtain ⟨er, s', e2⟩ := hroom.2 hc
    rw [e1] at e2
    cases e2
  · exact Or.inr ⟨hroom.1 ⟨_, _, e1⟩, e1⟩
  · cases h1

theorem search_spec {t : Table} {len mo : Nat} :
    (∀ o, search t len mo = some o → mo ≤ o ∧ o < 8 * wb ∧ (∃ c p, t o = some (c, p) ∧ len ≤ c.itemLen) ∧
      ∀ o', mo ≤ o' → o' < o → ∀ c p, t o' = some (c, p) → ¬ len ≤ c.itemLen) ∧
    (search t len mo = none → ∀ o', mo ≤ o' → o' < 8 * wb → ∀ c p, t o' = some (c, p) → ¬ len ≤ c.itemLen) := by
  fun_induction search t len mo with
  | case1 order hlt hn ih =>
    refine ⟨fun o h => ?_, fun h o' h1 h2 c p h3 => ?_⟩
    · obtain ⟨a1, a2, a3, a4⟩ := ih.1 o h
      refine ⟨by omega, a2, a3, fun o' h1 h2 c p h3 => ?_⟩
      by_cases he : o' = order
      · rw [he, hn] at h3; cases h3
      · exact a4 o' (by omega) h2 c p h3
    · by_cases he : o' = order
      · rw [he, hn] at h3; cases h3
      · exact ih.2 h o' (by omega) h2 c p h3
  | case2 order hlt c p hn hge =>
    refine ⟨fun o h => ?_, fun h => by cases h⟩
    cases h
    exact ⟨by omega, hlt, ⟨c, p, hn, hge⟩, fun o' h1 h2 => by omega⟩
  | case3 order hlt c p hn hge ih =>
    refine ⟨fun o h => ?_, fun h o' h1 h2 c' p' h3 => ?_⟩
    · obtain ⟨a1, a2, a3, a4⟩ := ih.1 o h
      refine ⟨by omega, a2, a3, fun o' h1 h2 c' p' h3 => ?_⟩
      by_cases he : o' = order
      · rw [he, hn] at h3; cases h3; exact hge
      · exact a4 o' (by omega) h2 c' p' h3
    · by_cases he : o' = order
      · rw [he, hn] at h3; cases h3; exact hge
      · exact ih.2 h o' (by omega) h2 c' p' h3
  | case4 order hlt => exact ⟨fun o h => (by cases h), fun _ o' h1 h2 => by omega⟩

omit [Abi] in
theorem fillOf_len (zeroed : Bool) (init : Option (Nat → Byte)) (len : Nat) : (fillOf zeroed init len).len ≤ len := by
  unfold fillOf
  split
  · exact Nat.zero_le _
  · split <;> exact Nat.le_refl _

/-- What the retry loop does. -/
theorem setLoop_spec {pg : Nat} {st : SState} (hi : SInv pg st) {envs : Nat → RangeEnv} (henv : EnvsOK st envs)
    (zeroed : Bool) (init : Option (Nat → Byte)) (len : Nat) (n : Nat) : ∀ mo, 8 * wb - mo ≤ n →
    (∃ o e p s', mo ≤ o ∧ st.set o = some e ∧ Fits e len ∧ HasRoom e (envs o) ∧
      (∀ o' e', mo ≤ o' → o' < o → st.set o' = some e' → Fits e' len → ¬ HasRoom e' (envs o')) ∧
      malloc e.c (fillOf zeroed init len) (envs o) { pool := e.pool, mem := st.mem } = .ok (.ptr p, s') ∧
      setLoop zeroed init len envs mo st.table st.mem =
        .ok (.ptr o p, (fun x => if x = o then some (e.c, s'.pool) else st.table x), s'.mem)) ∨
    ((∀ o e, mo ≤ o → st.set o = some e → Fits e len → ¬ HasRoom e (envs o)) ∧
      setLoop zeroed init len envs mo st.table st.mem = .ok (.null .ENOMEM, st.table, st.mem)) := by
  induction n with
  | zero =>
    intro mo hmo
    right
    have hs : search st.table len mo = none := by unfold search; rw [if_neg (by omega)]
    refine ⟨fun o e h1 h2 => ?_, ?_⟩
    · have := (hi.order o e h2).2; omega
    · unfold setLoop; split
      · rfl
      · rename_i o h; rw [hs] at h; cases h
  | succ n ih =>
    intro mo hmo
    cases hs : search st.table len mo with
    | none =>
      right
      refine ⟨fun o e h1 h2 h3 => ?_, ?_⟩
      · have := search_spec.2 hs o h1 (hi.order o e h2).2 e.c e.pool (by simp [SState.table, h2])
        exact absurd h3 this
      · unfold setLoop; split
        · rfl
        · rename_i o h; rw [hs] at h; cases h
    | some o =>
      obtain ⟨a1, a2, ⟨c, pool, a3, a3'⟩, a4⟩ := search_spec.1 o hs
      obtain ⟨e, he, hec⟩ : ∃ e, st.set o = some e ∧ (e.c, e.pool) = (c, pool) := by
        unfold SState.table at a3
        cases hx : st.set o with
        | none => rw [hx] at a3; cases a3
        | some e => rw [hx] at a3; exact ⟨e, rfl, by simpa using a3⟩
      have hc : c = e.c := (congrArg Prod.fst hec).symm
      have hpool : pool = e.pool := (congrArg Prod.snd hec).symm
      rw [hc] at a3 a3'
      rw [hpool] at a3
      have hfits : Fits e len := a3'
      have hbefore : ∀ o' e', mo ≤ o' → o' < o → st.set o' = some e' → Fits e' len → ¬ HasRoom e' (envs o') :=
        fun o' e' h1 h2 h3 h4 => absurd h4 (a4 o' h1 h2 e'.c e'.pool (by simp [SState.table, h3]))
      have hml : mallocLen e.c zeroed init len (envs o) { pool := e.pool, mem := st.mem } =
          malloc e.c (fillOf zeroed init len) (envs o) { pool := e.pool, mem := st.mem } := by
        unfold mallocLen; rw [if_neg (by omega)]
      have hfl := fillOf_len zeroed init len
      rcases malloc_room (hi.hist he) (henv o e he).1 (fill := fillOf zeroed init len) (by omega) with ⟨hr, p, s', hm⟩ | ⟨hr, hm⟩
      · left
        refine ⟨o, e, p, s', a1, he, hfits, hr, hbefore, hm, ?_⟩
        unfold setLoop
        split
        · rename_i h; rw [hs] at h; cases h
        · rename_i o1 h
          rw [hs] at h
          cases h
          rw [a3]
          dsimp only
          rw [hml, hm]
      · have hnext : setLoop zeroed init len envs mo st.table st.mem = setLoop zeroed init len envs (o + 1) st.table st.mem := by
          conv => lhs; unfold setLoop
          split
          · rename_i h; rw [hs] at h; cases h
          · rename_i o1 h
            rw [hs] at h
            cases h
            rw [a3]
            dsimp only
            rw [hml, hm]
            dsimp only
            congr 1
            funext x
            split
            · rename_i hx; rw [hx, a3]
            · rfl
        rw [hnext]
        rcases ih (o + 1) (by omega) with ⟨o2, e2, p2, s2, b1, b2, b3, b4, b5, b6⟩ | ⟨b1, b2⟩
        · left
          refine ⟨o2, e2, p2, s2, by omega, b2, b3, b4, fun o' e' h1 h2 h3 h4 => ?_, b6⟩
          by_cases h5 : o' < o
          · exact hbefore o' e' h1 h5 h3 h4
          · by_cases h6 : o' = o
            · rw [h6] at h3 ⊢; rw [he] at h3; cases h3; exact hr
            · exact b5 o' e' (by omega) h2 h3 h4
        · right
          refine ⟨fun o' e' h1 h3 h4 => ?_, b2⟩
          by_cases h5 : o' < o
          · exact hbefore o' e' h1 h5 h3 h4
          · by_cases h6 : o' = o
            · rw [h6] at h3 ⊢; rw [he] at h3; cases h3; exact hr
            · exact b1 o' e' (by omega) h3 h4

theorem minEntry_le {c : Config} (hv : Valid c) : minEntry ≤ c.order := by
  have h := hv.item_ge
  unfold Config.itemLen at h
  unfold minEntry
  rcases Abi.wb_eq with hw | hw
  · rw [if_pos hw]
    rw [hw] at h
    exact (Nat.pow_le_pow_iff_right (a := 2) (n := 2) (by omega)).1 h
  · rw [if_neg (by omega)]
    rw [hw] at h
    exact (Nat.pow_le_pow_iff_right (a := 2) (n := 3) (by omega)).1 h

/-- Pools below the starting order are too small. -/
theorem minOrder_le {c : Config} (hv : Valid c) {len : Word} (h : len.toNat ≤ c.itemLen) : minOrder len ≤ c.order := by
  unfold minOrder
  split
  · rename_i hgt
    by_cases h0 : len = 0#_
    · rw [h0, Bits.countOrderUlong_zero] at hgt; omega
    · obtain ⟨k, hk, hle, _⟩ := Bits.countOrderUlong_isLeast bits_eq len h0
      rw [hk]
      exact hle.2 c.order h
  · exact minEntry_le hv


/-- Every history keeps the invariant. -/
theorem sreach_inv {pg : Nat} {st : SState} (h : SReach pg st) : SInv pg st := by
  induction h with
  | create w h =>
    refine ⟨?_, fun o e he => by cases he⟩
    have : SState.all ⟨w.mem, w.entries, fun _ => none⟩ = w.entries := by
      simp [SState.all, SState.inSet]
    rw [this]
    exact wreach_inv h
  | world st m' others' _ hs ih => exact ⟨wstep_inv ih.w hs, ih.order⟩
  | add st pre post e t' _ ho ha ih =>
    have hmem : e ∈ st.all := by unfold SState.all; rw [ho]; simp
    have hlt := order_lt (c := e.c) (uaf := false) (g := e.ghost st.mem)
      ⟨(ih.w.each e hmem).2.1, (ih.w.each e hmem).2.2, fun hh => by cases hh⟩
    have hnone : st.set e.c.order = none := by
      unfold addPool SState.table at ha
      cases hx : st.set e.c.order with
      | none => rfl
      | some e' => rw [hx] at ha; cases ha
    obtain ⟨a, b, h1, h2⟩ := split_none hlt hnone
    refine ⟨WInv.perm ih.w ?_, ?_⟩
    · unfold SState.all SState.inSet
      dsimp only
      rw [h1, h2 e, ho]
      have e1 : pre ++ e :: post ++ (a ++ b) = pre ++ e :: (post ++ a ++ b) := by simp
      have e2 : pre ++ post ++ (a ++ e :: b) = (pre ++ post ++ a) ++ e :: b := by simp
      rw [e1, e2]
      refine List.perm_middle.trans (List.Perm.trans ?_ List.perm_middle.symm)
      simp
    · intro o e' he
      dsimp only at he
      split at he
      · rename_i hoe; cases he; exact ⟨hoe.symm, by omega⟩
      · exact ih.order o e' he
  | malloc st zeroed init len envs o p t' m' c pool _ henv hm ht ih =>
    rcases setLoop_spec ih henv zeroed init len.toNat (8 * wb - minOrder len) (minOrder len) (Nat.le_refl _) with
      ⟨o2, e, p2, s', _, he, _, _, _, hmal, hl⟩ | ⟨_, hl⟩
    · have hm : setLoop zeroed init len.toNat envs (minOrder len) st.table st.mem = .ok (.ptr o p, t', m') := hm
      rw [hl] at hm
      injection hm with hm
      have e1 : o2 = o ∧ p2 = p := by
        have := congrArg Prod.fst hm
        simpa using this
      have e2 : (fun x => if x = o2 then some (e.c, s'.pool) else st.table x) = t' := congrArg (fun x => x.2.1) hm
      have e3 : s'.mem = m' := congrArg (fun x => x.2.2) hm
      obtain ⟨rfl, rfl⟩ := e1
      subst e3
      rw [← e2] at ht
      simp only [if_true, Option.some.injEq, Prod.mk.injEq] at ht
      obtain ⟨a, b, h1, h2⟩ := split_some (ih.order o2 e he).2 he
      have hall : st.all = (st.others ++ a) ++ e :: b := by unfold SState.all SState.inSet; rw [h1]; simp
      have hstep : WStep pg ⟨st.mem, st.all⟩ ⟨s'.mem, (st.others ++ a) ++ e.afterMalloc s'.pool (.ptr p2) :: b⟩ := by
        refine WStep.malloc ⟨st.mem, st.all⟩ _ _ e _ (envs o2) _ s' hall (henv o2 e he).1 ?_ hmal
        intro base hb e2 he2 r hr
        refine (henv o2 e he).2 base hb e2 ?_ ?_ r hr
        · rw [hall]; simp only [List.mem_append, List.mem_cons] at he2 ⊢; grind
        · intro heq
          -- two different positions cannot hold the same pool
          have hsep := ih.w.sep
          dsimp only at hsep
          rw [hall, List.pairwise_append, List.pairwise_cons] at hsep
          have hself : Sep e e := by
            rw [heq] at he2
            rcases List.mem_append.1 he2 with h3 | h3
            · exact hsep.2.2 e h3 e List.mem_cons_self
            · exact hsep.2.1.1 e h3
          rw [heq] at hr
          have := hself r hr r hr
          have hv := (ih.hist he).valid.pg_pos
          unfold Apart2 at this
          omega
      refine ⟨?_, ?_⟩
      · have := wstep_inv ih.w hstep
        have hset : (st.afterMalloc o2 p2 pool s'.mem).all = (st.others ++ a) ++ e.afterMalloc s'.pool (.ptr p2) :: b := by
          unfold SState.all SState.inSet SState.afterMalloc
          dsimp only
          rw [he]
          dsimp only [Option.map]
          rw [h2, ← ht.2]
          simp
        rw [hset]
        exact this
      · intro o' e' he'
        unfold SState.afterMalloc at he'
        dsimp only at he'
        split at he'
        · rename_i ho'
          rw [he] at he'
          dsimp only [Option.map] at he'
          cases he'
          rw [ho']
          exact ih.order o2 e he
        · exact ih.order o' e' he'
    · have hm : setLoop zeroed init len.toNat envs (minOrder len) st.table st.mem = .ok (.ptr o p, t', m') := hm
      rw [hl] at hm
      cases hm
  | free st o p e s' _ ho hp hf ih =>
    obtain ⟨a, b, h1, h2⟩ := split_some (ih.order o e ho).2 ho
    have hall : st.all = (st.others ++ a) ++ e :: b := by unfold SState.all SState.inSet; rw [h1]; simp
    have hstep := WStep.free (pg := pg) ⟨st.mem, st.all⟩ _ _ e p s' hall hp hf
    refine ⟨?_, ?_⟩
    · have := wstep_inv ih.w hstep
      unfold SState.all SState.inSet
      dsimp only
      rw [h2, ← List.append_assoc]
      exact this
    · intro o' e' he'
      dsimp only at he'
      split at he'
      · rename_i ho'; cases he'; rw [ho']; exact ih.order o e ho
      · exact ih.order o' e' he'

end Verif.PoolSet
