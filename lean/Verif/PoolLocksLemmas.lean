import Verif.PoolLocks

/-! Helpers for C108. -/

namespace Verif.Locks

open Relation (TransGen)

theorem upd_same {α β : Type} [DecidableEq α] (f : α → β) (a : α) (b : β) : upd f a b a = b := if_pos rfl
theorem upd_other {α β : Type} [DecidableEq α] (f : α → β) {a : α} (b : β) {x : α} (h : x ≠ a) : upd f a b x = f x := if_neg h

/-! ### Cycles -/

/-- If everything in a finite set has a successor in the set, there is a cycle. -/
theorem cycle_of_succ {α : Type} [DecidableEq α] : ∀ (k : Nat) (L : List α) (R : α → α → Prop), L.length ≤ k → L ≠ [] →
    (∀ x ∈ L, ∃ y ∈ L, R x y) → ∃ x, TransGen R x x := by
  intro k
  induction k with
  | zero => intro L R hk hne _; cases L with
    | nil => exact absurd rfl hne
    | cons a r => simp at hk
  | succ k ih =>
    intro L R hk hne hs
    cases L with
    | nil => exact absurd rfl hne
    | cons x r =>
      by_cases hxx : R x x
      · exact ⟨x, .single hxx⟩
      obtain ⟨y, hy, hxy⟩ := hs x (.head _)
      have hyx : y ≠ x := fun e => hxx (e ▸ hxy)
      have mem : ∀ {z}, z ∈ x :: r → z ≠ x → z ∈ r.filter (· ≠ x) := fun h hne => by
        rcases List.mem_cons.1 h with e | e
        · exact absurd e hne
        · exact List.mem_filter.2 ⟨e, by simpa using hne⟩
      obtain ⟨z, hz⟩ := ih (r.filter (· ≠ x)) (fun a b => R a b ∨ (R a x ∧ R x b))
        (by
          have := List.length_filter_le (fun z => decide (z ≠ x)) r
          simp only [List.length_cons] at hk
          omega)
        (fun e => by have := mem hy hyx; rw [e] at this; cases this)
        (fun a ha => by
          obtain ⟨ha1, ha2⟩ := List.mem_filter.1 ha
          obtain ⟨b, hb, hab⟩ := hs a (.tail _ ha1)
          by_cases e : b = x
          · exact ⟨y, mem hy hyx, .inr ⟨e ▸ hab, hxy⟩⟩
          · exact ⟨b, mem hb e, .inl hab⟩)
      refine ⟨z, ?_⟩
      have lift : ∀ {a b}, TransGen (fun a b => R a b ∨ (R a x ∧ R x b)) a b → TransGen R a b := by
        intro a b h
        induction h with
        | single h =>
          rcases h with h | ⟨h1, h2⟩
          · exact .single h
          · exact .tail (.single h1) h2
        | tail _ h ih =>
          rcases h with h | ⟨h1, h2⟩
          · exact .tail ih h
          · exact .tail (.tail ih h1) h2
      exact lift hz

/-! ### The invariant -/

/-- The locks that are to be unlocked and have been locked already. -/
def owed : List Act → List Lock
  | [] => []
  | .unlock l :: r => l :: owed r
  | .lock l :: r => (owed r).erase l
  | .callback _ :: r => owed r
  | .call _ :: r => owed r

/-- The locks an action takes directly. -/
def Act.takes (W : Program) : Act → Lock → Prop
  | .lock l, l' => l' = l
  | .unlock _, _ => False
  | .callback i, l' => ∃ c, W.cb i c ∧ Takes W c l'
  | .call c, l' => Takes W c l'

/-- Every lock still to be taken is released right after it, or after the callback of its pool. -/
inductive Shape (W : Program) : List Act → Prop
  | nil : Shape W []
  | unlock (l : Lock) {r : List Act} (h : Shape W r) : Shape W (.unlock l :: r)
  | callback (i : Nat) {r : List Act} (h : Shape W r) : Shape W (.callback i :: r)
  | call (c : Call) {r : List Act} (h : Shape W r) : Shape W (.call c :: r)
  | lock (l : Lock) {r : List Act} (h : Shape W r) : Shape W (.lock l :: .unlock l :: r)
  | lockCb (i : Nat) (hg : W.grows i) {r : List Act} (h : Shape W r) : Shape W (.lock (.pool i) :: .callback i :: .unlock (.pool i) :: r)

/-- What is done before `l` is released takes locks that come after `l` only. -/
def Under (W : Program) (l : Lock) (todo : List Act) : Prop :=
  ∃ pre post, todo = pre ++ .unlock l :: post ∧ ∀ a ∈ pre, ∀ l', a.takes W l' → TransGen (Edge W) l l'

structure Inv (W : Program) (s : State) : Prop where
  shape : ∀ t, Shape W (s.todo t)
  nodup : ∀ t, (owed (s.todo t)).Nodup
  own : ∀ t l, l ∈ owed (s.todo t) ↔ s.holder l = some t
  under : ∀ t l, s.holder l = some t → Under W l (s.todo t)
  few : ∃ M, ∀ t, M ≤ t → s.todo t = []

variable {W : Program}

theorem body_shape {c : Call} {b r : List Act} (hb : Body W c b) (hr : Shape W r) : Shape W (b ++ r) ∧ owed (b ++ r) = owed r := by
  cases hb <;> refine ⟨?_, by simp only [List.cons_append, List.nil_append, owed, List.erase_cons_head]⟩ <;>
    simp only [List.cons_append, List.nil_append]
  · exact hr
  · exact .lock _ hr
  · rename_i hg; exact .lockCb _ hg hr
  · exact .lock _ hr
  · exact hr
  · exact .callback _ hr
  · exact hr
  · exact .lock _ hr
  · exact .lock _ hr
  · exact .lock _ (.call _ hr)
  · exact .lock _ (.call _ (.call _ hr))
  · exact hr
  · exact .lock _ hr

theorem calls_shape {r : List Act} (hr : Shape W r) : ∀ (cs : List Call), Shape W (cs.map .call ++ r) ∧ owed (cs.map .call ++ r) = owed r
  | [] => ⟨hr, rfl⟩
  | c :: cs => ⟨.call c (calls_shape hr cs).1, (calls_shape hr cs).2⟩

/-- The locks of the steps of a function are those of the function, or come after one of them. -/
theorem body_takes {c : Call} {b : List Act} (hb : Body W c b) {a : Act} (ha : a ∈ b) {l : Lock} (h : a.takes W l) :
    Takes W c l ∨ ∃ l1, Takes W c l1 ∧ Edge W l1 l := by
  cases hb <;> simp only [List.mem_cons, List.not_mem_nil, or_false] at ha
  case mallocRoom i => rcases ha with rfl | rfl <;> cases h; exact .inl (.malloc i)
  case mallocRange i hg =>
    rcases ha with rfl | rfl | rfl
    · cases h; exact .inl (.malloc i)
    · obtain ⟨c, h1, h2⟩ := h; exact .inr ⟨_, .malloc i, i, c, rfl, hg, h1, h2⟩
    · cases h
  case free i => rcases ha with rfl | rfl <;> cases h; exact .inl (.free i)
  case createRange i => subst ha; obtain ⟨c, h1, h2⟩ := h; exact .inl (.create h1 h2)
  case setAdd j => rcases ha with rfl | rfl <;> cases h; exact .inl (.setAdd j)
  case setNone j => rcases ha with rfl | rfl <;> cases h; exact .inl (.setMalloc j)
  case setFound j i hj =>
    rcases ha with rfl | rfl | rfl
    · cases h; exact .inl (.setMalloc j)
    · cases h
    · cases h; exact .inl (.setPool hj)
  case setAgain j i hj =>
    rcases ha with rfl | rfl | rfl | rfl
    · cases h; exact .inl (.setMalloc j)
    · cases h
    · cases h; exact .inl (.setPool hj)
    · exact .inl h
  case register => rcases ha with rfl | rfl <;> cases h; exact .inl .register

/-- Replacing the first action by others that take no more locks. -/
theorem under_expand {l : Lock} {a : Act} {r b : List Act} (h : Under W l (a :: r)) (hna : a ≠ .unlock l)
    (hb : ∀ x ∈ b, ∀ l', x.takes W l' → (∃ l1, a.takes W l1 ∧ (l1 = l' ∨ Edge W l1 l'))) : Under W l (b ++ r) := by
  obtain ⟨pre, post, e, hp⟩ := h
  cases pre with
  | nil => injection e with e1 e2; exact absurd e1 hna
  | cons x pre =>
    injection e with e1 e2
    subst e1
    refine ⟨b ++ pre, post, by rw [List.append_assoc]; exact congrArg (b ++ ·) e2, fun y hy l' hl => ?_⟩
    rcases List.mem_append.1 hy with h | h
    · obtain ⟨l1, h1, h2⟩ := hb y h l' hl
      have := hp a (.head _) l1 h1
      rcases h2 with h2 | h2
      · exact h2 ▸ this
      · exact .tail this h2
    · exact hp y (.tail _ h) l' hl

/-- Every step keeps the invariant. -/
theorem Inv.step {s s' : State} {t : Nat} (ih : Inv W s) (hs : Step W s t s') : Inv W s' := by
  have few : ∀ todo' : Nat → List Act, (∀ u, u ≠ t → todo' u = s.todo u) → ∃ M, ∀ u, M ≤ u → todo' u = [] := fun todo' he => by
    obtain ⟨M, hM⟩ := ih.few
    exact ⟨max M (t + 1), fun u hu => by rw [he u (by omega)]; exact hM u (by omega)⟩
  have hnil : ∀ l, s.todo t = [] → s.holder l ≠ some t := fun l e ho => by
    have := (ih.own t l).2 ho
    rw [e] at this
    cases this
  -- steps that lock and unlock nothing
  have plain : ∀ todo', Shape W todo' → owed todo' = owed (s.todo t) → (∀ l, s.holder l = some t → Under W l todo') →
      Inv W { s with todo := upd s.todo t todo' } := by
    intro todo' h1 h2 h3
    refine ⟨fun u => ?_, fun u => ?_, fun u l => ?_, fun u l hl => ?_, few _ fun u hu => upd_other _ _ hu⟩
    all_goals
      dsimp only
      by_cases e : u = t
      · subst e
        rw [upd_same]
        first | exact h1 | (rw [h2]; first | exact ih.nodup u | exact ih.own u l) | exact h3 l hl
      · rw [upd_other _ _ e]
        first | exact ih.shape u | exact ih.nodup u | exact ih.own u l | exact ih.under u l hl
  cases hs with
  | start c h =>
    exact plain [.call c] (.call c .nil) (by rw [h]; rfl) fun l hl => absurd hl (hnil l h)
  | call c r b h hb =>
    have hsh := ih.shape t
    rw [h] at hsh
    cases hsh with
    | call _ hr =>
      obtain ⟨q1, q2⟩ := body_shape hb hr
      refine plain _ q1 (by rw [q2, h]; rfl) fun l hl => ?_
      have hu := ih.under t l hl
      rw [h] at hu
      refine under_expand hu (by simp) fun x hx l' hl' => ?_
      rcases body_takes hb hx hl' with e | ⟨l1, e1, e2⟩
      · exact ⟨l', e, .inl rfl⟩
      · exact ⟨l1, e1, .inr e2⟩
  | callback i r cs h hc =>
    have hsh := ih.shape t
    rw [h] at hsh
    cases hsh with
    | callback _ hr =>
      obtain ⟨q1, q2⟩ := calls_shape hr cs
      refine plain _ q1 (by rw [q2, h]; rfl) fun l hl => ?_
      have hu := ih.under t l hl
      rw [h] at hu
      refine under_expand hu (by simp) fun x hx l' hl' => ?_
      obtain ⟨c, hc1, rfl⟩ := List.mem_map.1 hx
      exact ⟨l', ⟨c, hc c hc1, hl'⟩, .inl rfl⟩
  | lock l r h hf =>
    have hsh := ih.shape t
    rw [h] at hsh
    have hnd := ih.nodup t
    have how := ih.own t
    rw [h] at hnd how
    have hkey : Shape W r ∧ (∃ r', owed r = l :: r' ∧ owed (.lock l :: r) = r') ∧ Under W l r := by
      cases hsh with
      | lock _ hr =>
        exact ⟨.unlock l hr, ⟨_, rfl, by simp only [owed, List.erase_cons_head]⟩, [], _, rfl, fun a ha => by cases ha⟩
      | lockCb i hg hr =>
        refine ⟨.callback i (.unlock _ hr), ⟨_, rfl, by simp only [owed, List.erase_cons_head]⟩, [.callback i], _, rfl, ?_⟩
        intro a ha l' hl'
        simp only [List.mem_cons, List.not_mem_nil, or_false] at ha
        subst ha
        obtain ⟨c, h1, h2⟩ := hl'
        exact .single ⟨i, c, rfl, hg, h1, h2⟩
    obtain ⟨k1, ⟨r', k2, k3⟩, k4⟩ := hkey
    rw [k3] at hnd how
    have hnot : l ∉ r' := fun hm => by have := (how l).1 hm; rw [hf] at this; cases this
    refine ⟨fun u => ?_, fun u => ?_, fun u l' => ?_, fun u l' hl => ?_, few _ fun u hu => upd_other _ _ hu⟩ <;> dsimp only
    · by_cases e : u = t
      · subst e; rw [upd_same]; exact k1
      · rw [upd_other _ _ e]; exact ih.shape u
    · by_cases e : u = t
      · subst e; rw [upd_same, k2]; exact List.nodup_cons.2 ⟨hnot, hnd⟩
      · rw [upd_other _ _ e]; exact ih.nodup u
    · by_cases e : u = t
      · subst e
        rw [upd_same, k2]
        by_cases e' : l' = l
        · subst e'; rw [upd_same]; simp
        · rw [upd_other _ _ e', List.mem_cons, ← how l']
          exact ⟨fun h => h.resolve_left e', .inr⟩
      · rw [upd_other _ _ e]
        by_cases e' : l' = l
        · subst e'
          rw [upd_same, ih.own u l', hf]
          constructor
          · intro h; cases h
          · intro h; injection h with h; exact absurd h.symm e
        · rw [upd_other _ _ e']; exact ih.own u l'
    · by_cases e' : l' = l
      · subst e'
        dsimp only at hl
        rw [upd_same] at hl
        injection hl with hl
        subst hl
        rw [upd_same]
        exact k4
      · dsimp only at hl
        rw [upd_other _ _ e'] at hl
        by_cases e : u = t
        · subst e
          rw [upd_same]
          have hu := ih.under u l' hl
          rw [h] at hu
          exact under_expand (b := []) hu (by simp) fun x hx => by cases hx
        · rw [upd_other _ _ e]; exact ih.under u l' hl
  | unlock l r h ho =>
    have hsh := ih.shape t
    rw [h] at hsh
    have hnd := ih.nodup t
    have how := ih.own t
    rw [h] at hnd how
    simp only [owed] at hnd how
    have hnot := (List.nodup_cons.1 hnd).1
    have hsr : Shape W r := by cases hsh with | unlock _ hr => exact hr
    refine ⟨fun u => ?_, fun u => ?_, fun u l' => ?_, fun u l' hl => ?_, few _ fun u hu => upd_other _ _ hu⟩ <;> dsimp only
    · by_cases e : u = t
      · subst e; rw [upd_same]; exact hsr
      · rw [upd_other _ _ e]; exact ih.shape u
    · by_cases e : u = t
      · subst e; rw [upd_same]; exact (List.nodup_cons.1 hnd).2
      · rw [upd_other _ _ e]; exact ih.nodup u
    · by_cases e : u = t
      · subst e
        rw [upd_same]
        by_cases e' : l' = l
        · subst e'; rw [upd_same]; exact ⟨fun h => absurd h hnot, fun h => by cases h⟩
        · rw [upd_other _ _ e', ← how l', List.mem_cons]
          exact ⟨.inr, fun h => h.resolve_left e'⟩
      · rw [upd_other _ _ e]
        by_cases e' : l' = l
        · subst e'
          rw [upd_same, ih.own u l', ho]
          constructor
          · intro h; injection h with h; exact absurd h.symm e
          · intro h; cases h
        · rw [upd_other _ _ e']; exact ih.own u l'
    · by_cases e' : l' = l
      · subst e'; dsimp only at hl; rw [upd_same] at hl; cases hl
      · dsimp only at hl
        rw [upd_other _ _ e'] at hl
        by_cases e : u = t
        · subst e
          rw [upd_same]
          have hu := ih.under u l' hl
          rw [h] at hu
          exact under_expand (b := []) hu (by intro h; injection h with h; exact e' h.symm) fun x hx => by cases hx
        · rw [upd_other _ _ e]; exact ih.under u l' hl

theorem Reach.inv {s : State} (h : Reach W s) : Inv W s := by
  induction h with
  | init => exact ⟨fun _ => .nil, fun _ => by simp [owed], fun t l => by simp [owed], fun t l h => (by cases h), ⟨0, fun _ _ => rfl⟩⟩
  | step _ hs ih => exact ih.step hs

theorem Inv.steps {s s' : State} (h : Inv W s) (hs : Steps W s s') : Inv W s' := by
  induction hs with
  | refl => exact h
  | cons h1 _ ih => exact ih (h.step h1)

/-! ### Steps -/

/-- What is left to do, when every call takes a short path. -/
def weight : List Act → Nat
  | [] => 0
  | .call _ :: r => 3 + weight r
  | _ :: r => 1 + weight r

/-- An active thread that does not wait for a lock can take a step towards the end of its call. -/
theorem can_step {s : State} (hi : Inv W s) {t : Nat} (ha : s.todo t ≠ [])
    (hw : ∀ l r, s.todo t = .lock l :: r → s.holder l = none) :
    ∃ s' r', Step W s t s' ∧ s'.todo = upd s.todo t r' ∧ weight r' < weight (s.todo t) := by
  cases h : s.todo t with
  | nil => exact absurd h ha
  | cons a r =>
    cases a with
    | lock l => exact ⟨_, r, .lock l r h (hw l r h), rfl, by simp only [weight]; omega⟩
    | unlock l =>
      have ho := (hi.own t l).1 (by rw [h]; exact .head _)
      exact ⟨_, r, .unlock l r h ho, rfl, by simp only [weight]; omega⟩
    | callback i =>
      exact ⟨_, r, .callback i r [] h (fun c hc => by cases hc), rfl, by simp only [weight]; omega⟩
    | call c =>
      cases c with
      | malloc i => exact ⟨_, r, .call _ r [] h (.mallocInvalid i), rfl, by simp only [weight]; omega⟩
      | free i => exact ⟨_, _, .call _ r _ h (.free i), rfl, by simp only [weight, List.cons_append, List.nil_append]; omega⟩
      | create i => exact ⟨_, r, .call _ r [] h (.createFails i), rfl, by simp only [weight]; omega⟩
      | destroy i => exact ⟨_, r, .call _ r [] h (.destroy i), rfl, by simp only [weight]; omega⟩
      | setAdd j => exact ⟨_, _, .call _ r _ h (.setAdd j), rfl, by simp only [weight, List.cons_append, List.nil_append]; omega⟩
      | setMalloc j => exact ⟨_, _, .call _ r _ h (.setNone j), rfl, by simp only [weight, List.cons_append, List.nil_append]; omega⟩
      | register => exact ⟨_, r, .call _ r [] h .registerDone, rfl, by simp only [weight]; omega⟩

theorem trans_trans {α : Type} {R : α → α → Prop} {a b : α} (h : TransGen (TransGen R) a b) : TransGen R a b := by
  induction h with
  | single h => exact h
  | tail _ h ih => exact ih.trans h

/-- Threads that wait for each other: their locks are on a cycle. -/
theorem deadlock_cycle {s : State} (hi : Inv W s) {D : Nat → Prop} (hd : Deadlocked s D) : ∃ l, TransGen (Edge W) l l := by
  classical
  obtain ⟨M, hM⟩ := hi.few
  obtain ⟨⟨t0, ht0⟩, hd⟩ := hd
  let f : Nat → Option Lock := fun t => if D t then (match s.todo t with | .lock l :: _ => some l | _ => none) else none
  have hf : ∀ {t l r}, D t → s.todo t = .lock l :: r → l ∈ (List.range M).filterMap f := fun {t l r} h1 h2 => by
    refine List.mem_filterMap.2 ⟨t, List.mem_range.2 ?_, ?_⟩
    · refine Nat.lt_of_not_le fun h => ?_
      rw [hM t h] at h2
      cases h2
    · show (if D t then _ else none) = some l
      rw [if_pos h1, h2]
  obtain ⟨l0, r0, _, e0, _⟩ := hd t0 ht0
  have hne : (List.range M).filterMap f ≠ [] := fun e => by
    have := hf ht0 e0
    rw [e] at this
    cases this
  obtain ⟨l, hl⟩ := cycle_of_succ _ _ (TransGen (Edge W)) (Nat.le_refl _) hne fun l hl => by
    obtain ⟨t, _, he⟩ := List.mem_filterMap.1 hl
    have hDt : D t := Classical.byContradiction fun hn => by
      have : f t = none := if_neg hn
      rw [this] at he
      cases he
    obtain ⟨l1, r1, u, e1, h1, hu⟩ := hd t hDt
    have : f t = some l1 := by
      show (if D t then _ else none) = some l1
      rw [if_pos hDt, e1]
    rw [this] at he
    injection he with he
    subst he
    obtain ⟨l2, r2, _, e2, _⟩ := hd u hu
    refine ⟨l2, hf hu e2, ?_⟩
    obtain ⟨pre, post, e, hp⟩ := hi.under u l1 h1
    rw [e2] at e
    cases pre with
    | nil => cases e
    | cons a pre =>
      injection e with e3 _
      subst e3
      exact hp _ (.head _) l2 rfl
  exact ⟨l, trans_trans hl⟩

theorem Reach.steps {s s' : State} (h : Reach W s) (hs : Steps W s s') : Reach W s' := by
  induction hs with
  | refl => exact h
  | cons h1 _ ih => exact ih (h.step h1)

/-- The weights of the first `M` threads. -/
def total (f : Nat → List Act) : Nat → Nat
  | 0 => 0
  | M + 1 => total f M + weight (f M)

theorem total_congr {f g : Nat → List Act} : ∀ {M : Nat}, (∀ t, t < M → f t = g t) → total f M = total g M
  | 0, _ => rfl
  | M + 1, h => by
    simp only [total]
    rw [total_congr fun t ht => h t (by omega), h M (by omega)]

theorem total_upd {f : Nat → List Act} {t : Nat} {r : List Act} (hr : weight r < weight (f t)) :
    ∀ {M : Nat}, t < M → total (upd f t r) M < total f M
  | 0, h => by omega
  | M + 1, h => by
    simp only [total]
    by_cases e : t = M
    · subst e
      rw [upd_same, total_congr (f := upd f t r) (g := f) fun u hu => upd_other _ _ (by omega)]
      omega
    · rw [upd_other _ _ (Ne.symm e)]
      have := total_upd hr (M := M) (by omega)
      omega

/-- Without cycles, all calls can return. -/
theorem drain (hac : ∀ l, ¬ TransGen (Edge W) l l) : ∀ (n M : Nat) (s : State), Inv W s → (∀ t, M ≤ t → s.todo t = []) →
    total s.todo M ≤ n → ∃ s', Steps W s s' ∧ (∀ t, s'.todo t = []) ∧ ∀ l, s'.holder l = none := by
  intro n
  induction n with
  | zero =>
    intro M s hr hM hn
    have hz : ∀ t, s.todo t = [] := fun t => Classical.byContradiction fun h => by
      have hlt : t < M := Nat.lt_of_not_le fun h' => h (hM t h')
      have : weight ([] : List Act) < weight (s.todo t) := by
        cases e : s.todo t with
        | nil => exact absurd e h
        | cons a r => cases a <;> simp only [weight] <;> omega
      have := total_upd this hlt
      omega
    refine ⟨s, .refl _, hz, fun l => ?_⟩
    cases h : s.holder l with
    | none => rfl
    | some t => have := (hr.own t l).2 h; rw [hz t] at this; cases this
  | succ n ih =>
    intro M s hr hM hn
    by_cases hst : ∃ t, s.todo t ≠ [] ∧ ∀ l r, s.todo t = .lock l :: r → s.holder l = none
    · obtain ⟨t, ha, hw⟩ := hst
      obtain ⟨s1, r', hs, e, hlt⟩ := can_step hr ha hw
      have htM : t < M := Nat.lt_of_not_le fun h' => ha (hM t h')
      obtain ⟨s', h1, h2⟩ := ih M s1 (hr.step hs)
        (fun u hu => by rw [e, upd_other _ _ (show u ≠ t by omega)]; exact hM u hu)
        (by rw [e]; have := total_upd hlt htM; omega)
      exact ⟨s', .cons hs h1, h2⟩
    · by_cases hz : ∀ t, s.todo t = []
      · refine ⟨s, .refl _, hz, fun l => ?_⟩
        cases h : s.holder l with
        | none => rfl
        | some t => have := (hr.own t l).2 h; rw [hz t] at this; cases this
      · obtain ⟨t0, ht0⟩ := Classical.not_forall.1 hz
        obtain ⟨l, hl⟩ := deadlock_cycle hr (D := fun t => s.todo t ≠ []) ⟨⟨t0, ht0⟩, fun t ht => by
          obtain ⟨l, hl⟩ := Classical.not_forall.1 fun h => hst ⟨t, ht, h⟩
          obtain ⟨r, hr'⟩ := Classical.not_forall.1 hl
          obtain ⟨h1, h2⟩ := Classical.not_imp.1 hr'
          cases hu : s.holder l with
          | none => exact absurd hu h2
          | some u =>
            refine ⟨l, r, u, h1, hu, fun e => ?_⟩
            have := (hr.own u l).2 hu
            rw [e] at this
            cases this⟩
        exact absurd hl (hac l)

/-! ### From a cycle to a deadlock -/

/-- `s'` differs from `s` in what thread `t` does next. -/
structure Moved (s s' : State) (t : Nat) (r : List Act) : Prop where
  here : s'.todo t = r
  other : ∀ u, u ≠ t → s'.todo u = s.todo u
  holder : ∀ l, s'.holder l = s.holder l

theorem Moved.trans {s s1 s2 : State} {t : Nat} {r1 r2 : List Act} (h : Moved s s1 t r1) (h' : Moved s1 s2 t r2) :
    Moved s s2 t r2 :=
  ⟨h'.here, fun u hu => (h'.other u hu).trans (h.other u hu), fun l => (h'.holder l).trans (h.holder l)⟩

theorem moved (s : State) (t : Nat) (r : List Act) : Moved s { s with todo := upd s.todo t r } t r :=
  ⟨upd_same _ _ _, fun _ hu => upd_other _ _ hu, fun _ => rfl⟩

theorem Steps.trans {s s1 s2 : State} (h : Steps W s s1) (h' : Steps W s1 s2) : Steps W s s2 := by
  induction h with
  | refl => exact h'
  | cons h _ ih => exact .cons h (ih h')

theorem Steps.one {s s' : State} {t : Nat} (h : Step W s t s') : Steps W s s' := .cons h (.refl _)

/-- A call gets to where it takes one of its locks, when no set is locked, or the lock is not that of a pool. -/
theorem to_lock {c : Call} {l : Lock} (h : Takes W c l) : ∀ {s : State} {t : Nat} {r : List Act},
    s.todo t = .call c :: r → (∀ i, l = .pool i → ∀ j, s.holder (.set j) = none) →
    ∃ s' r', Steps W s s' ∧ Moved s s' t (.lock l :: r') := by
  induction h with
  | malloc i => intro s t r ht _; exact ⟨_, _, .one (.call _ r _ ht (.mallocRoom i)), moved _ _ _⟩
  | free i => intro s t r ht _; exact ⟨_, _, .one (.call _ r _ ht (.free i)), moved _ _ _⟩
  | setAdd j => intro s t r ht _; exact ⟨_, _, .one (.call _ r _ ht (.setAdd j)), moved _ _ _⟩
  | setMalloc j => intro s t r ht _; exact ⟨_, _, .one (.call _ r _ ht (.setNone j)), moved _ _ _⟩
  | register => intro s t r ht _; exact ⟨_, _, .one (.call _ r _ ht .register), moved _ _ _⟩
  | @create i c l hc _ ih =>
    intro s t r ht hset
    have m1 := moved s t ([.callback i] ++ r)
    have h1 : Step W s t _ := .call _ r _ ht (.createRange i)
    have m2 := moved { s with todo := upd s.todo t ([.callback i] ++ r) } t ([Act.call c] ++ r)
    have h2 : Step W _ t _ := .callback i r [c] m1.here fun c' hc' => by
      rcases List.mem_cons.1 hc' with rfl | h
      · exact hc
      · cases h
    obtain ⟨s', r', h3, m3⟩ := ih m2.here hset
    exact ⟨s', r', .cons h1 (.cons h2 h3), (m1.trans m2).trans m3⟩
  | @setPool j i hj =>
    intro s t r ht hset
    have h1 : Step W s t _ := .call _ r _ ht (.setFound j i hj)
    have h2 := Steps.cons h1 (.cons (.lock (t := t) (.set j) _ (upd_same _ _ _) (hset i rfl j))
      (.cons (.unlock (t := t) (.set j) _ (upd_same _ _ _) (upd_same _ _ _))
        (.one (.call (t := t) (.malloc i) r _ (upd_same _ _ _) (.mallocRoom i)))))
    refine ⟨_, _, h2, upd_same _ _ _, fun u hu => ?_, fun l => ?_⟩
    · dsimp only
      rw [upd_other _ _ hu, upd_other _ _ hu, upd_other _ _ hu, upd_other _ _ hu]
    · dsimp only
      by_cases e : l = .set j
      · subst e; rw [upd_same, hset i rfl j]
      · rw [upd_other _ _ e, upd_other _ _ e]

/-- The pools of a path: the callback of each takes the lock of another one, or of the end. -/
theorem path_pools {a b : Lock} (h : TransGen (Edge W) a b) : ∃ P : List Nat, (∃ i, a = .pool i ∧ i ∈ P) ∧
    ∀ j ∈ P, ∃ c l, W.grows j ∧ W.cb j c ∧ Takes W c l ∧ (l = b ∨ ∃ k ∈ P, l = .pool k) := by
  induction h with
  | single h =>
    obtain ⟨i, c, h1, h2, h3, h4⟩ := h
    refine ⟨[i], ⟨i, h1, .head _⟩, fun j hj => ?_⟩
    rcases List.mem_cons.1 hj with rfl | h
    · exact ⟨c, _, h2, h3, h4, .inl rfl⟩
    · cases h
  | tail _ h ih =>
    obtain ⟨P, ⟨i, e, hi⟩, hP⟩ := ih
    obtain ⟨k, c, h1, h2, h3, h4⟩ := h
    refine ⟨k :: P, ⟨i, e, .tail _ hi⟩, fun j hj => ?_⟩
    rcases List.mem_cons.1 hj with rfl | hj
    · exact ⟨c, _, h2, h3, h4, .inl rfl⟩
    · obtain ⟨c', l, g1, g2, g3, g4⟩ := hP j hj
      refine ⟨c', l, g1, g2, g3, .inr ?_⟩
      rcases g4 with g4 | ⟨k', hk', g4⟩
      · exact ⟨k, .head _, g4.trans h1⟩
      · exact ⟨k', .tail _ hk', g4⟩

/-- Thread `i` takes the lock of pool `i` for each pool in a list, and is about to run the callback. -/
theorem take_all : ∀ (P : List Nat), (∀ i ∈ P, W.grows i) → ∃ s, Reach W s ∧
    (∀ i, i ∈ P → s.todo i = [.callback i, .unlock (.pool i)] ∧ s.holder (.pool i) = some i) ∧
    (∀ i, i ∉ P → s.todo i = [] ∧ s.holder (.pool i) = none) ∧ ∀ j, s.holder (.set j) = none
  | [], _ => ⟨_, .init, fun i hi => (by cases hi), fun i _ => ⟨rfl, rfl⟩, fun _ => rfl⟩
  | i :: P, hg => by
    obtain ⟨s, hr, h1, h2, h3⟩ := take_all P fun k hk => hg k (.tail _ hk)
    by_cases hm : i ∈ P
    · refine ⟨s, hr, fun k hk => h1 k ?_, fun k hk => h2 k fun h => hk (.tail _ h), h3⟩
      rcases List.mem_cons.1 hk with rfl | h
      · exact hm
      · exact h
    · have q1 := hr.step (.start (.malloc i) (h2 i hm).1)
      have q2 := q1.step (.call (.malloc i) [] _ (upd_same _ _ _) (.mallocRange i (hg i (.head _))))
      have q3 := q2.step (.lock (.pool i) _ (upd_same _ _ _) (h2 i hm).2)
      refine ⟨_, q3, fun k hk => ?_, fun k hk => ?_, fun j => ?_⟩ <;> dsimp only
      · by_cases e : k = i
        · subst e; exact ⟨upd_same _ _ _, upd_same _ _ _⟩
        · rw [upd_other _ _ e, upd_other _ _ e, upd_other _ _ e, upd_other _ _ (by intro h; injection h with h; exact e h)]
          exact h1 k ((List.mem_cons.1 hk).resolve_left e)
      · have e : k ≠ i := fun e => hk (e ▸ .head _)
        rw [upd_other _ _ e, upd_other _ _ e, upd_other _ _ e, upd_other _ _ (by intro h; injection h with h; exact e h)]
        exact h2 k fun h => hk (.tail _ h)
      · rw [upd_other _ _ (by intro h; cases h)]; exact h3 j

/-- The callbacks go on to take the lock of another pool of the list. -/
theorem wait_all {P : List Nat} {s0 : State} (hr0 : Reach W s0)
    (h0 : ∀ i, i ∈ P → s0.todo i = [.callback i, .unlock (.pool i)] ∧ s0.holder (.pool i) = some i)
    (hset : ∀ j, s0.holder (.set j) = none)
    (hP : ∀ j ∈ P, ∃ c l, W.cb j c ∧ Takes W c l ∧ ∃ k ∈ P, l = .pool k) :
    ∀ (Q : List Nat), (∀ i ∈ Q, i ∈ P) → ∃ s, Reach W s ∧ (∀ l, s.holder l = s0.holder l) ∧
      (∀ i, i ∈ Q → ∃ k r, k ∈ P ∧ s.todo i = .lock (.pool k) :: r) ∧ ∀ i, i ∉ Q → s.todo i = s0.todo i
  | [], _ => ⟨s0, hr0, fun _ => rfl, fun i hi => (by cases hi), fun _ _ => rfl⟩
  | i :: Q, hQ => by
    obtain ⟨s, hr, h1, h2, h3⟩ := wait_all hr0 h0 hset hP Q fun k hk => hQ k (.tail _ hk)
    by_cases hm : i ∈ Q
    · refine ⟨s, hr, h1, fun k hk => h2 k ?_, fun k hk => h3 k fun h => hk (.tail _ h)⟩
      rcases List.mem_cons.1 hk with rfl | h
      · exact hm
      · exact h
    · obtain ⟨c, l, g1, g2, k, hk, rfl⟩ := hP i (hQ i (.head _))
      have ht : s.todo i = [.callback i, .unlock (.pool i)] := by rw [h3 i hm]; exact (h0 i (hQ i (.head _))).1
      have m1 := moved s i ([Act.call c] ++ [.unlock (.pool i)])
      have q1 := hr.step (.callback i [.unlock (.pool i)] [c] ht fun c' hc' => by
        rcases List.mem_cons.1 hc' with rfl | h
        · exact g1
        · cases h)
      obtain ⟨s', r', q2', m2⟩ := to_lock g2 m1.here fun _ _ j => by
        show s.holder (.set j) = none
        rw [h1, hset j]
      have q2 := q1.steps q2'
      have m := m1.trans m2
      refine ⟨s', q2, fun l => (m.holder l).trans (h1 l), fun u hu => ?_, fun u hu => ?_⟩
      · by_cases e : u = i
        · subst e; exact ⟨k, r', hk, m.here⟩
        · rw [m.other u e]; exact h2 u ((List.mem_cons.1 hu).resolve_left e)
      · rw [m.other u fun e => hu (e ▸ .head _)]
        exact h3 u fun h => hu (.tail _ h)

theorem cycle_deadlock {l : Lock} (h : TransGen (Edge W) l l) : ∃ s D, Reach W s ∧ Deadlocked s D := by
  obtain ⟨P, ⟨i, rfl, hi⟩, hP⟩ := path_pools h
  obtain ⟨s0, hr0, h1, _, h3⟩ := take_all P fun j hj => by obtain ⟨c, l, g, _⟩ := hP j hj; exact g
  obtain ⟨s, hr, g1, g2, _⟩ := wait_all hr0 h1 h3 (fun j hj => by
    obtain ⟨c, l, _, q1, q2, q3⟩ := hP j hj
    refine ⟨c, l, q1, q2, ?_⟩
    rcases q3 with q3 | q3
    · exact ⟨i, hi, q3⟩
    · exact q3) P fun _ h => h
  refine ⟨s, (· ∈ P), hr, ⟨i, hi⟩, fun t ht => ?_⟩
  obtain ⟨k, r, hk, e⟩ := g2 t ht
  exact ⟨.pool k, r, k, e, (g1 _).trans (h1 k hk).2, hk⟩

/-! ### Deadlocks last -/

theorem deadlock_step {s s' : State} {t : Nat} {D : Nat → Prop} (hd : Deadlocked s D) (hs : Step W s t s') :
    ¬ D t ∧ Deadlocked s' D ∧ ∀ u, D u → s'.todo u = s.todo u := by
  have hn : ¬ D t := fun h => by
    obtain ⟨l, r, u, e, ho, _⟩ := hd.2 t h
    cases hs with
    | start c h => rw [e] at h; cases h
    | lock l' r' h hf => rw [e] at h; injection h with h _; injection h with h; subst h; rw [ho] at hf; cases hf
    | unlock l' r' h _ => rw [e] at h; injection h with h _; cases h
    | call c r' b h _ => rw [e] at h; injection h with h _; cases h
    | callback i r' cs h _ => rw [e] at h; injection h with h _; cases h
  have key : (∀ u, u ≠ t → s'.todo u = s.todo u) ∧ ∀ l u, D u → s.holder l = some u → s'.holder l = some u := by
    cases hs with
    | start c h => exact ⟨fun u hu => upd_other _ _ hu, fun _ _ _ h => h⟩
    | call c r' b h _ => exact ⟨fun u hu => upd_other _ _ hu, fun _ _ _ h => h⟩
    | callback i r' cs h _ => exact ⟨fun u hu => upd_other _ _ hu, fun _ _ _ h => h⟩
    | lock l' r' h hf =>
      refine ⟨fun u hu => upd_other _ _ hu, fun l u _ hl => ?_⟩
      dsimp only
      rw [upd_other _ _ (fun e => by subst e; rw [hl] at hf; cases hf)]
      exact hl
    | unlock l' r' h ho =>
      refine ⟨fun u hu => upd_other _ _ hu, fun l u hu hl => ?_⟩
      dsimp only
      rw [upd_other _ _ (fun e => by subst e; rw [hl] at ho; injection ho with ho; exact hn (ho ▸ hu))]
      exact hl
  have hsame : ∀ u, D u → s'.todo u = s.todo u := fun u hu => key.1 u fun e => hn (e ▸ hu)
  refine ⟨hn, ⟨hd.1, fun u hu => ?_⟩, hsame⟩
  obtain ⟨l, r, v, e, ho, hv⟩ := hd.2 u hu
  exact ⟨l, r, v, (hsame u hu).trans e, key.2 l v hv ho, hv⟩

/-! ### Forked children -/

/-- `l` is locked and no thread is going to unlock it. -/
def Lost (l : Lock) (s : State) : Prop := s.holder l ≠ none ∧ ∀ u, Shape W (s.todo u) ∧ l ∉ owed (s.todo u)

theorem lost_step {l : Lock} {s s' : State} {t : Nat} (h : Lost (W := W) l s) (hs : Step W s t s') :
    Lost (W := W) l s' ∧ ∀ u r, s.todo u = .lock l :: r → s'.todo u = .lock l :: r := by
  have plain : ∀ todo', Shape W todo' → owed todo' = owed (s.todo t) → (∀ r, s.todo t ≠ .lock l :: r) →
      Lost (W := W) l { s with todo := upd s.todo t todo' } ∧
        ∀ u r, s.todo u = .lock l :: r → upd s.todo t todo' u = .lock l :: r := by
    intro todo' h1 h2 h3
    refine ⟨⟨h.1, fun u => ?_⟩, fun u r e => ?_⟩
    · dsimp only
      by_cases e : u = t
      · subst e; rw [upd_same, h2]; exact ⟨h1, (h.2 u).2⟩
      · rw [upd_other _ _ e]; exact h.2 u
    · have hu : u ≠ t := fun e' => h3 r (by rw [← e']; exact e)
      rw [upd_other _ _ hu]
      exact e
  have hsh := (h.2 t).1
  have how := (h.2 t).2
  cases hs with
  | start c h => exact plain _ (.call c .nil) (by rw [h]; rfl) fun r e => by rw [h] at e; cases e
  | call c r b h hb =>
    rw [h] at hsh
    cases hsh with
    | call _ hr =>
      obtain ⟨q1, q2⟩ := body_shape hb hr
      exact plain _ q1 (by rw [q2, h]; rfl) fun r e => by rw [h] at e; injection e with e; cases e
  | callback i r cs h hc =>
    rw [h] at hsh
    cases hsh with
    | callback _ hr =>
      obtain ⟨q1, q2⟩ := calls_shape hr cs
      exact plain _ q1 (by rw [q2, h]; rfl) fun r e => by rw [h] at e; injection e with e; cases e
  | lock l' r ht hf =>
    rw [ht] at hsh how
    have hne : l ≠ l' := fun e => h.1 (e ▸ hf)
    have hkey : Shape W r ∧ l ∉ owed r := by
      cases hsh with
      | lock _ hr =>
        refine ⟨.unlock _ hr, fun hm => how ?_⟩
        simp only [owed, List.erase_cons_head]
        exact (List.mem_cons.1 hm).resolve_left hne
      | lockCb i hg hr =>
        refine ⟨.callback _ (.unlock _ hr), fun hm => how ?_⟩
        simp only [owed, List.erase_cons_head]
        exact (List.mem_cons.1 hm).resolve_left hne
    refine ⟨⟨?_, fun u => ?_⟩, fun u r' e => ?_⟩ <;> dsimp only
    · rw [upd_other _ _ hne]; exact h.1
    · by_cases e : u = t
      · subst e; rw [upd_same]; exact hkey
      · rw [upd_other _ _ e]; exact h.2 u
    · rw [upd_other _ _ fun e' => ?_]
      · exact e
      · subst e'
        rw [ht] at e
        injection e with e _
        injection e with e
        exact hne e.symm
  | unlock l' r ht ho =>
    rw [ht] at hsh how
    have hne : l ≠ l' := fun e => how (e ▸ .head _)
    have hsr : Shape W r := by cases hsh with | unlock _ hr => exact hr
    refine ⟨⟨?_, fun u => ?_⟩, fun u r' e => ?_⟩ <;> dsimp only
    · rw [upd_other _ _ hne]; exact h.1
    · by_cases e : u = t
      · subst e; rw [upd_same]; exact ⟨hsr, fun hm => how (.tail _ hm)⟩
      · rw [upd_other _ _ e]; exact h.2 u
    · rw [upd_other _ _ fun e' => ?_]
      · exact e
      · subst e'
        rw [ht] at e
        injection e with e _
        cases e

theorem lost_steps {l : Lock} {s s' : State} (h : Lost (W := W) l s) (hs : Steps W s s') :
    Lost (W := W) l s' ∧ ∀ u r, s.todo u = .lock l :: r → s'.todo u = .lock l :: r := by
  induction hs with
  | refl => exact ⟨h, fun _ _ e => e⟩
  | cons h1 _ ih =>
    obtain ⟨g1, g2⟩ := lost_step h h1
    obtain ⟨k1, k2⟩ := ih g1
    exact ⟨k1, fun u r e => k2 u r (g2 u r e)⟩

theorem child_lost {s : State} (hi : Inv W s) {t u : Nat} {l : Lock} (ho : s.holder l = some u) (hu : u ≠ t) :
    Lost (W := W) l (child s t) := by
  refine ⟨fun h => ?_, fun v => ?_⟩
  · have : s.holder l = none := h
    rw [ho] at this
    cases this
  · show Shape W (if v = t then s.todo t else []) ∧ l ∉ owed (if v = t then s.todo t else [])
    by_cases e : v = t
    · rw [if_pos e]
      refine ⟨hi.shape t, fun hm => ?_⟩
      have := (hi.own t l).1 hm
      rw [ho] at this
      injection this with this
      exact hu this
    · rw [if_neg e]; exact ⟨.nil, fun h => by cases h⟩

theorem child_inv {s : State} (hi : Inv W s) {t : Nat} (h : ∀ l u, s.holder l = some u → u = t) : Inv W (child s t) := by
  have hsame : (child s t).todo t = s.todo t := if_pos rfl
  have hother : ∀ {u}, u ≠ t → (child s t).todo u = [] := fun h => if_neg h
  refine ⟨fun u => ?_, fun u => ?_, fun u l => ?_, fun u l hl => ?_, t + 1, fun u hu => hother (by omega)⟩
  all_goals
    by_cases e : u = t
    · subst e
      rw [hsame]
      first | exact hi.shape u | exact hi.nodup u | exact hi.own u l | exact hi.under u l hl
    · rw [hother e]
      first
        | exact .nil
        | exact List.nodup_nil
        | exact ⟨fun h => (by cases h), fun ho => absurd (h l u ho) e⟩
        | exact absurd (h l u hl) e

/-- Every lock is taken first by some call. -/
theorem call_for (l : Lock) : ∃ c, Body W c [.lock l, .unlock l] := by
  cases l with
  | pool i => exact ⟨_, .free i⟩
  | set j => exact ⟨_, .setAdd j⟩
  | init => exact ⟨_, .register⟩

end Verif.Locks
