import Verif.Bench

/-
Invariants of the benchmark.
-/

namespace Verif.Bench

theorem upd_same {α : Type} (f : Nat → α) (i : Nat) (v : α) : upd f i v i = v := by simp [upd]

theorem upd_ne {α : Type} (f : Nat → α) {i j : Nat} (v : α) (h : j ≠ i) : upd f i v j = f j := by
  simp [upd, h]

theorem cnt_le (f : Nat → Bool) (n : Nat) : cnt f n ≤ n := by
  induction n with
  | zero => simp [cnt]
  | succ n ih => cases h : f n <;> simp [cnt, h] <;> omega

theorem cnt_congr {f g : Nat → Bool} {n : Nat} (h : ∀ i, i < n → f i = g i) : cnt f n = cnt g n := by
  induction n with
  | zero => rfl
  | succ n ih => rw [cnt, cnt, ih (fun i hi => h i (by omega)), h n (by omega)]

theorem cnt_all {f : Nat → Bool} {n : Nat} (h : cnt f n = n) : ∀ i, i < n → f i = true := by
  induction n with
  | zero => intro i hi; omega
  | succ n ih =>
    have := cnt_le f n
    intro i hi
    rw [cnt] at h
    cases hf : f n with
    | false => rw [hf] at h; simp at h; omega
    | true =>
      rw [hf] at h
      by_cases hin : i = n
      · rw [hin, hf]
      · exact ih (by simp at h; omega) i (by omega)

theorem cnt_of_all {f : Nat → Bool} {n : Nat} (h : ∀ i, i < n → f i = true) : cnt f n = n := by
  induction n with
  | zero => rfl
  | succ n ih => rw [cnt, ih (fun i hi => h i (by omega)), h n (by omega)]; rfl

theorem cnt_zero {f : Nat → Bool} {n : Nat} (h : ∀ i, i < n → f i = false) : cnt f n = 0 := by
  induction n with
  | zero => rfl
  | succ n ih => rw [cnt, ih (fun i hi => h i (by omega)), h n (by omega)]; rfl

theorem cnt_pos {f : Nat → Bool} {n i : Nat} (hi : i < n) (h : f i = true) : 0 < cnt f n := by
  cases hc : cnt f n with
  | succ k => omega
  | zero =>
    exfalso
    induction n with
    | zero => omega
    | succ n ih =>
      rw [cnt] at hc
      by_cases hin : i = n
      · rw [← hin, h] at hc; simp at hc
      · exact ih (by omega) (by omega)

/-- Changing one place. -/
theorem cnt_upd {f g : Nat → Bool} {n t : Nat} (ht : t < n) (h : ∀ i, i ≠ t → g i = f i) :
    cnt g n + (f t).toNat = cnt f n + (g t).toNat := by
  induction n with
  | zero => omega
  | succ n ih =>
    rw [cnt, cnt]
    by_cases hn : t = n
    · subst hn
      rw [cnt_congr (fun i hi => h i (by omega))]
      omega
    · rw [h n (fun e => hn e.symm)]
      have := ih (by omega)
      omega

theorem cnt_upd_same {f g : Nat → Bool} {n t : Nat} (h : ∀ i, i ≠ t → g i = f i) (ht : g t = f t) :
    cnt g n = cnt f n :=
  cnt_congr (fun i _ => by
    by_cases hi : i = t
    · rw [hi, ht]
    · exact h i hi)

/-- The number of threads that have arrived, and of those that have finished. -/
def St.arrived (s : St) (n : Nat) : Nat := cnt (fun t => (s.pc t).arrived) n
def St.finished (s : St) (n : Nat) : Nat := cnt (fun t => (s.pc t).finished) n

structure Inv (n : Nat) (fails : Nat → Bool) (s : St) : Prop where
  created : s.created ≤ n
  absent : ∀ t, s.created ≤ t → s.pc t = .absent
  failed : ∀ t, fails t = true → s.pc t = .absent
  present : ∀ t, t < s.created → fails t = false → s.pc t ≠ .absent
  mutex : ∀ t, s.mutex = some t ↔ s.pc t = .locked ∨ ∃ i, s.pc t = .took i
  active : s.active = BitVec.ofNat 32 (s.arrived n - s.finished n)
  le : s.finished n ≤ s.arrived n
  go : s.go = true → s.arrived n = n
  goA : ∀ t i, s.pc t = .added i true → s.arrived n = n
  goR : ∀ t, (s.pc t).released = true → s.arrived n = n
  going : s.arrived n = n → 0 < n → s.go = true ∨ ∃ t i, s.pc t = .added i true
  stop : s.stop = true → s.finished n = n
  stopS : ∀ t i, s.pc t = .subbed i true → s.finished n = n
  stopG : ∀ t, (s.pc t).gone = true → s.finished n = n
  stopping : s.finished n = n → 0 < n → s.stop = true ∨ ∃ t i, s.pc t = .subbed i true
  idx : ∀ t i, (s.pc t).idx = some i → i < s.nextAff
  inj : ∀ t u i, (s.pc t).idx = some i → (s.pc u).idx = some i → t = u
  next : s.nextAff = cnt (fun t => (s.pc t).idx.isSome) n

theorem Inv.lt {n : Nat} {fails : Nat → Bool} {s : St} (h : Inv n fails s) {t : Nat}
    (ht : s.pc t ≠ .absent) : t < n := by
  have := h.created
  by_cases hc : s.created ≤ t
  · exact absurd (h.absent t hc) ht
  · omega

theorem inv_init (n : Nat) (fails : Nat → Bool) (hn : 0 < n) : Inv n fails init := by
  have h0 : init.arrived n = 0 := cnt_zero (fun _ _ => rfl)
  have h1 : init.finished n = 0 := cnt_zero (fun _ _ => rfl)
  have h2 : cnt (fun t => (init.pc t).idx.isSome) n = 0 := cnt_zero (fun _ _ => rfl)
  constructor
  · exact Nat.zero_le _
  · intro t _; rfl
  · intro t _; rfl
  · intro t ht; exact absurd ht (Nat.not_lt_zero _)
  · intro t; simp [init]
  · rw [h0, h1]; rfl
  · rw [h0, h1]; exact Nat.le_refl _
  · simp [init]
  · simp [init]
  · simp [init, Pc.released]
  · intro h; omega
  · simp [init]
  · simp [init]
  · simp [init, Pc.gone]
  · intro h; omega
  · simp [init, Pc.idx]
  · simp [init, Pc.idx]
  · rw [h2]; rfl

/-- What a move of one existing thread preserves. -/
theorem Inv.move {n : Nat} {fails : Nat → Bool} {s s' : St} (h : Inv n fails s) (t : Nat) {p p' : Pc}
    (hp : s.pc t = p) (hpc : s'.pc = upd s.pc t p') (hcr : s'.created = s.created)
    (hna : p ≠ .absent) (hna' : p' ≠ .absent)
    (hm : ∀ u, s'.mutex = some u ↔ s'.pc u = .locked ∨ ∃ i, s'.pc u = .took i)
    (ha : p.arrived = true → p'.arrived = true) (hf : p.finished = true → p'.finished = true)
    (hact : s'.active = BitVec.ofNat 32 (s'.arrived n - s'.finished n))
    (hgo : s'.go = true → s'.arrived n = n)
    (hgoA : ∀ i, p' = .added i true → s'.arrived n = n)
    (hgoR : p'.released = true → s'.arrived n = n)
    (hmono : s.go = true → s'.go = true)
    (hgoing : s'.arrived n = n → (s.arrived n ≠ n ∨ ∃ i, p = .added i true) →
      s'.go = true ∨ ∃ i, p' = .added i true)
    (hst : s'.stop = true → s'.finished n = n)
    (hstS : ∀ i, p' = .subbed i true → s'.finished n = n)
    (hstG : p'.gone = true → s'.finished n = n)
    (hmono' : s.stop = true → s'.stop = true)
    (hstopping : s'.finished n = n → (s.finished n ≠ n ∨ ∃ i, p = .subbed i true) →
      s'.stop = true ∨ ∃ i, p' = .subbed i true)
    (hix : (p'.idx = p.idx ∧ s'.nextAff = s.nextAff) ∨
      (p.idx = none ∧ p'.idx = some s.nextAff ∧ s'.nextAff = s.nextAff + 1)) :
    Inv n fails s' := by
  have htn : t < n := h.lt (by rw [hp]; exact hna)
  have ht : s'.pc t = p' := by rw [hpc, upd_same]
  have hu : ∀ u, u ≠ t → s'.pc u = s.pc u := fun u hne => by rw [hpc, upd_ne _ _ hne]
  have cA := cnt_upd (f := fun t => (s.pc t).arrived) (g := fun t => (s'.pc t).arrived) htn
    (fun i hi => by simp only [hu i hi])
  have cF := cnt_upd (f := fun t => (s.pc t).finished) (g := fun t => (s'.pc t).finished) htn
    (fun i hi => by simp only [hu i hi])
  have cI := cnt_upd (f := fun t => (s.pc t).idx.isSome) (g := fun t => (s'.pc t).idx.isSome) htn
    (fun i hi => by simp only [hu i hi])
  simp only [ht, hp] at cA cF cI
  have monoA : s.arrived n ≤ s'.arrived n := by
    unfold St.arrived
    cases e : p.arrived with
    | false => rw [e] at cA; simp at cA; omega
    | true => rw [e, ha e] at cA; omega
  have monoF : s.finished n ≤ s'.finished n := by
    unfold St.finished
    cases e : p.finished with
    | false => rw [e] at cF; simp at cF; omega
    | true => rw [e, hf e] at cF; omega
  have leA : s'.arrived n ≤ n := cnt_le _ _
  have leF : s'.finished n ≤ n := cnt_le _ _
  have toA : s.arrived n = n → s'.arrived n = n := fun e => by omega
  have toF : s.finished n = n → s'.finished n = n := fun e => by omega
  refine ⟨by rw [hcr]; exact h.created, ?_, ?_, ?_, hm, hact, ?_, hgo, ?_, ?_, ?_, hst, ?_, ?_, ?_, ?_, ?_, ?_⟩
  · intro u hc
    rw [hcr] at hc
    by_cases e : u = t
    · subst e; exact absurd (h.absent u hc) (by rw [hp]; exact hna)
    · rw [hu u e]; exact h.absent u hc
  · intro u hfl
    by_cases e : u = t
    · subst e; exact absurd (h.failed u hfl) (by rw [hp]; exact hna)
    · rw [hu u e]; exact h.failed u hfl
  · intro u hc hfl
    rw [hcr] at hc
    by_cases e : u = t
    · subst e; rw [ht]; exact hna'
    · rw [hu u e]; exact h.present u hc hfl
  · have hall : ∀ q : Pc, q.finished = true → q.arrived = true := by
      intro q; cases q <;> simp [Pc.finished, Pc.arrived]
    have : ∀ m, cnt (fun t => (s'.pc t).finished) m ≤ cnt (fun t => (s'.pc t).arrived) m := by
      intro m
      induction m with
      | zero => exact Nat.le_refl _
      | succ m ih =>
        rw [cnt, cnt]
        cases e : (s'.pc m).finished with
        | false => simp; omega
        | true => rw [hall _ e]; omega
    exact this n
  · intro u i e
    by_cases hut : u = t
    · subst hut; rw [ht] at e; exact hgoA i e
    · rw [hu u hut] at e; exact toA (h.goA u i e)
  · intro u e
    by_cases hut : u = t
    · subst hut; rw [ht] at e; exact hgoR e
    · rw [hu u hut] at e; exact toA (h.goR u e)
  · intro e hn
    by_cases e0 : s.arrived n = n
    · rcases h.going e0 hn with hg | ⟨u, i, hg⟩
      · exact Or.inl (hmono hg)
      · by_cases hut : u = t
        · subst hut
          rw [hp] at hg
          rcases hgoing e (Or.inr ⟨i, hg⟩) with h1 | ⟨j, h1⟩
          · exact Or.inl h1
          · exact Or.inr ⟨u, j, by rw [ht, h1]⟩
        · exact Or.inr ⟨u, i, by rw [hu u hut, hg]⟩
    · rcases hgoing e (Or.inl e0) with h1 | ⟨j, h1⟩
      · exact Or.inl h1
      · exact Or.inr ⟨t, j, by rw [ht, h1]⟩
  · intro u i e
    by_cases hut : u = t
    · subst hut; rw [ht] at e; exact hstS i e
    · rw [hu u hut] at e; exact toF (h.stopS u i e)
  · intro u e
    by_cases hut : u = t
    · subst hut; rw [ht] at e; exact hstG e
    · rw [hu u hut] at e; exact toF (h.stopG u e)
  · intro e hn
    by_cases e0 : s.finished n = n
    · rcases h.stopping e0 hn with hg | ⟨u, i, hg⟩
      · exact Or.inl (hmono' hg)
      · by_cases hut : u = t
        · subst hut
          rw [hp] at hg
          rcases hstopping e (Or.inr ⟨i, hg⟩) with h1 | ⟨j, h1⟩
          · exact Or.inl h1
          · exact Or.inr ⟨u, j, by rw [ht, h1]⟩
        · exact Or.inr ⟨u, i, by rw [hu u hut, hg]⟩
    · rcases hstopping e (Or.inl e0) with h1 | ⟨j, h1⟩
      · exact Or.inl h1
      · exact Or.inr ⟨t, j, by rw [ht, h1]⟩
  · intro u i e
    by_cases hut : u = t
    · subst hut
      rw [ht] at e
      rcases hix with ⟨h1, h2⟩ | ⟨h1, h2, h3⟩
      · rw [h2]; exact h.idx u i (by rw [hp, ← h1, e])
      · rw [h2] at e; injection e with e; omega
    · rw [hu u hut] at e
      have := h.idx u i e
      rcases hix with ⟨h1, h2⟩ | ⟨h1, h2, h3⟩ <;> omega
  · intro u v i e1 e2
    have key : ∀ w, w ≠ t → (s'.pc w).idx = some i → (s'.pc t).idx = some i → False := by
      intro w hw ew et
      rw [hu w hw] at ew
      rw [ht] at et
      rcases hix with ⟨h1, h2⟩ | ⟨h1, h2, h3⟩
      · exact hw (h.inj w t i ew (by rw [hp, ← h1, et]))
      · rw [h2] at et
        injection et with et
        have := h.idx w i ew
        omega
    by_cases hut : u = t
    · by_cases hvt : v = t
      · rw [hut, hvt]
      · subst hut; exact absurd (key v hvt e2 e1) id
    · by_cases hvt : v = t
      · subst hvt; exact absurd (key u hut e1 e2) id
      · rw [hu u hut] at e1
        rw [hu v hvt] at e2
        exact h.inj u v i e1 e2
  · have hn := h.next
    rcases hix with ⟨h1, h2⟩ | ⟨h1, h2, h3⟩
    · rw [h1] at cI; rw [h2, hn]; omega
    · rw [h1, h2] at cI
      simp at cI
      rw [h3, hn]
      omega

theorem arrived_move {n : Nat} {s s' : St} {t : Nat} {p p' : Pc} (htn : t < n) (hp : s.pc t = p)
    (hpc : s'.pc = upd s.pc t p') :
    s'.arrived n + p.arrived.toNat = s.arrived n + p'.arrived.toNat := by
  have := cnt_upd (f := fun t => (s.pc t).arrived) (g := fun t => (s'.pc t).arrived) htn
    (fun i hi => by simp only [hpc, upd_ne _ _ hi])
  simp only [hp] at this
  rw [show s'.pc t = p' by rw [hpc, upd_same]] at this
  exact this

theorem finished_move {n : Nat} {s s' : St} {t : Nat} {p p' : Pc} (htn : t < n) (hp : s.pc t = p)
    (hpc : s'.pc = upd s.pc t p') :
    s'.finished n + p.finished.toNat = s.finished n + p'.finished.toNat := by
  have := cnt_upd (f := fun t => (s.pc t).finished) (g := fun t => (s'.pc t).finished) htn
    (fun i hi => by simp only [hpc, upd_ne _ _ hi])
  simp only [hp] at this
  rw [show s'.pc t = p' by rw [hpc, upd_same]] at this
  exact this

/-- Moves that touch neither counters nor flags nor the mutex. -/
theorem mutex_move {n : Nat} {fails : Nat → Bool} {s s' : St} (h : Inv n fails s) (t : Nat) {p p' : Pc}
    (hp : s.pc t = p) (hpc : s'.pc = upd s.pc t p') (hmx : s'.mutex = s.mutex)
    (hh : (p = .locked ∨ ∃ i, p = .took i) ↔ (p' = .locked ∨ ∃ i, p' = .took i)) (u : Nat) :
    s'.mutex = some u ↔ s'.pc u = .locked ∨ ∃ i, s'.pc u = .took i := by
  rw [hmx, h.mutex u]
  by_cases e : u = t
  · subst e
    rw [hp, hpc, upd_same]
    exact hh
  · rw [hpc, upd_ne _ _ e]

theorem ofNat_inj {a b : Nat} (ha : a < 2 ^ 31) (hb : b < 2 ^ 31) (h : BitVec.ofNat 32 a = BitVec.ofNat 32 b) :
    a = b := by
  have := congrArg BitVec.toNat h
  rwa [BitVec.toNat_ofNat, BitVec.toNat_ofNat, Nat.mod_eq_of_lt (by omega), Nat.mod_eq_of_lt (by omega)] at this

theorem inv_step {n : Nat} {fails : Nat → Bool} (hn : 0 < n) (hn31 : n < 2 ^ 31) {s s' : St}
    (h : Inv n fails s) (st : Step n fails s s') : Inv n fails s' := by
  have hA : s.arrived n ≤ n := cnt_le _ _
  have hF : s.finished n ≤ n := cnt_le _ _
  cases st with
  | create hc hfl =>
    have hab := h.absent s.created (Nat.le_refl _)
    have ht : ∀ u, u ≠ s.created → upd s.pc s.created .start u = s.pc u := fun u e => upd_ne _ _ e
    have eA : St.arrived { s with pc := upd s.pc s.created .start, created := s.created + 1 } n = s.arrived n :=
      cnt_upd_same (t := s.created) (fun i e => by simp only [ht i e]) (by simp [upd_same, hab, Pc.arrived])
    have eF : St.finished { s with pc := upd s.pc s.created .start, created := s.created + 1 } n = s.finished n :=
      cnt_upd_same (t := s.created) (fun i e => by simp only [ht i e]) (by simp [upd_same, hab, Pc.finished])
    have eI : cnt (fun t => (upd s.pc s.created .start t).idx.isSome) n = cnt (fun t => (s.pc t).idx.isSome) n :=
      cnt_upd_same (t := s.created) (fun i e => by simp only [ht i e]) (by simp [upd_same, hab, Pc.idx])
    have key : ∀ (P : Pc → Prop), ¬ P .start → ∀ u, P (upd s.pc s.created .start u) → P (s.pc u) := by
      intro P hP u hu
      by_cases e : u = s.created
      · rw [e, upd_same] at hu; exact absurd hu hP
      · rwa [ht u e] at hu
    refine ⟨by show s.created + 1 ≤ n; omega, ?_, ?_, ?_, ?_, by rw [eA, eF]; exact h.active,
      by rw [eA, eF]; exact h.le, by rw [eA]; exact h.go, ?_, ?_, ?_, by rw [eF]; exact h.stop, ?_, ?_, ?_, ?_, ?_,
      ?_⟩
    · intro u hu
      have hu : s.created + 1 ≤ u := hu
      show upd s.pc s.created .start u = _
      rw [ht u (by omega)]; exact h.absent u (by omega)
    · intro u hu
      show upd s.pc s.created .start u = _
      rw [ht u (fun e => by rw [e, hfl] at hu; cases hu)]; exact h.failed u hu
    · intro u hu hfu
      have hu : u < s.created + 1 := hu
      show upd s.pc s.created .start u ≠ _
      by_cases e : u = s.created
      · rw [e, upd_same]; simp
      · rw [ht u e]; exact h.present u (by omega) hfu
    · intro u
      show s.mutex = some u ↔ upd s.pc s.created .start u = _ ∨ ∃ i, upd s.pc s.created .start u = _
      rw [h.mutex u]
      by_cases e : u = s.created
      · rw [e, upd_same, hab]; simp
      · rw [ht u e]
    · intro u i hu
      rw [eA]; exact h.goA u i (key (· = .added i true) (by simp) u hu)
    · intro u hu
      rw [eA]; exact h.goR u (key (fun q => q.released = true) (by simp [Pc.released]) u hu)
    · intro e hn
      rw [eA] at e
      rcases h.going e hn with h1 | ⟨u, i, h1⟩
      · exact Or.inl h1
      · refine Or.inr ⟨u, i, ?_⟩
        show upd s.pc s.created .start u = _
        rw [ht u (fun e => by rw [e, hab] at h1; cases h1), h1]
    · intro u i hu
      rw [eF]; exact h.stopS u i (key (· = .subbed i true) (by simp) u hu)
    · intro u hu
      rw [eF]; exact h.stopG u (key (fun q => q.gone = true) (by simp [Pc.gone]) u hu)
    · intro e hn
      rw [eF] at e
      rcases h.stopping e hn with h1 | ⟨u, i, h1⟩
      · exact Or.inl h1
      · refine Or.inr ⟨u, i, ?_⟩
        show upd s.pc s.created .start u = _
        rw [ht u (fun e => by rw [e, hab] at h1; cases h1), h1]
    · intro u i hu
      exact h.idx u i (key (fun q => q.idx = some i) (by simp [Pc.idx]) u hu)
    · intro u v i hu hv
      exact h.inj u v i (key (fun q => q.idx = some i) (by simp [Pc.idx]) u hu)
        (key (fun q => q.idx = some i) (by simp [Pc.idx]) v hv)
    · show s.nextAff = _
      rw [h.next]; exact eI.symm
  | createFails hc hfl =>
    refine ⟨by show s.created + 1 ≤ n; omega, fun u hu => h.absent u ?_, h.failed, ?_, h.mutex, h.active, h.le,
      h.go, h.goA, h.goR, h.going, h.stop, h.stopS, h.stopG, h.stopping, h.idx, h.inj, h.next⟩
    · have hu : s.created + 1 ≤ u := hu
      omega
    · intro u hu hfu
      have hu : u < s.created + 1 := hu
      have : u ≠ s.created := fun e => by rw [e, hfl] at hfu; cases hfu
      exact h.present u (by omega) hfu
  | lock t hp hmx =>
    have htn : t < n := h.lt (by rw [hp]; simp)
    have eA := arrived_move (n := n) (s' := { s with pc := upd s.pc t .locked, mutex := some t }) htn hp rfl
    have eF := finished_move (n := n) (s' := { s with pc := upd s.pc t .locked, mutex := some t }) htn hp rfl
    simp only [Pc.arrived, Pc.finished, Nat.add_right_cancel_iff] at eA eF
    refine h.move t hp rfl rfl (by simp) (by simp) ?_ (by simp [Pc.arrived]) (by simp [Pc.finished])
      (by rw [eA, eF]; exact h.active) (by rw [eA]; exact h.go) (by simp) (by simp [Pc.released]) id ?_
      (by rw [eF]; exact h.stop) (by simp) (by simp [Pc.gone]) id ?_ (Or.inl ⟨rfl, rfl⟩)
    · intro u
      show some t = some u ↔ upd s.pc t .locked u = .locked ∨ ∃ i, upd s.pc t .locked u = .took i
      by_cases e : u = t
      · subst e; simp [upd_same]
      · rw [upd_ne _ _ e, ← h.mutex u, hmx]
        simp
        exact fun e' => e e'.symm
    · intro e hh
      rw [eA] at e
      rcases hh with hh | ⟨i, hh⟩
      · exact absurd e hh
      · cases hh
    · intro e hh
      rw [eF] at e
      rcases hh with hh | ⟨i, hh⟩
      · exact absurd e hh
      · cases hh
  | take t hp =>
    have htn : t < n := h.lt (by rw [hp]; simp)
    have eA := arrived_move (n := n)
      (s' := { s with pc := upd s.pc t (.took s.nextAff), nextAff := s.nextAff + 1 }) htn hp rfl
    have eF := finished_move (n := n)
      (s' := { s with pc := upd s.pc t (.took s.nextAff), nextAff := s.nextAff + 1 }) htn hp rfl
    simp only [Pc.arrived, Pc.finished, Nat.add_right_cancel_iff] at eA eF
    refine h.move t hp rfl rfl (by simp) (by simp) (mutex_move h t hp rfl rfl (by simp)) (by simp [Pc.arrived])
      (by simp [Pc.finished])
      (by rw [eA, eF]; exact h.active) (by rw [eA]; exact h.go) (by simp) (by simp [Pc.released]) id ?_
      (by rw [eF]; exact h.stop) (by simp) (by simp [Pc.gone]) id ?_ (Or.inr ⟨rfl, rfl, rfl⟩)
    · intro e hh
      rw [eA] at e
      rcases hh with hh | ⟨i, hh⟩
      · exact absurd e hh
      · cases hh
    · intro e hh
      rw [eF] at e
      rcases hh with hh | ⟨i, hh⟩
      · exact absurd e hh
      · cases hh
  | unlock t i hp =>
    have htn : t < n := h.lt (by rw [hp]; simp)
    have eA := arrived_move (n := n) (s' := { s with pc := upd s.pc t (.pinned i), mutex := none }) htn hp rfl
    have eF := finished_move (n := n) (s' := { s with pc := upd s.pc t (.pinned i), mutex := none }) htn hp rfl
    simp only [Pc.arrived, Pc.finished, Nat.add_right_cancel_iff] at eA eF
    have hown : s.mutex = some t := (h.mutex t).2 (Or.inr ⟨i, hp⟩)
    refine h.move t hp rfl rfl (by simp) (by simp) ?_ (by simp [Pc.arrived]) (by simp [Pc.finished])
      (by rw [eA, eF]; exact h.active) (by rw [eA]; exact h.go) (by simp) (by simp [Pc.released]) id ?_
      (by rw [eF]; exact h.stop) (by simp) (by simp [Pc.gone]) id ?_ (Or.inl ⟨rfl, rfl⟩)
    · intro u
      show (none : Option Nat) = some u ↔ upd s.pc t (.pinned i) u = .locked ∨ ∃ i', upd s.pc t (.pinned i) u = .took i'
      by_cases e : u = t
      · subst e; simp [upd_same]
      · rw [upd_ne _ _ e, ← h.mutex u, hown]
        simp
        exact fun e' => e e'.symm
    · intro e hh
      rw [eA] at e
      rcases hh with hh | ⟨i, hh⟩
      · exact absurd e hh
      · cases hh
    · intro e hh
      rw [eF] at e
      rcases hh with hh | ⟨i, hh⟩
      · exact absurd e hh
      · cases hh
  | add t i hp =>
    have htn : t < n := h.lt (by rw [hp]; simp)
    have eA := arrived_move (n := n) (s' := { s with
        active := s.active + 1#32
        pc := upd s.pc t (.added i (decide (s.active + 1#32 = BitVec.ofNat 32 n))) }) htn hp rfl
    have eF := finished_move (n := n) (s' := { s with
        active := s.active + 1#32
        pc := upd s.pc t (.added i (decide (s.active + 1#32 = BitVec.ofNat 32 n))) }) htn hp rfl
    simp only [Pc.arrived, Pc.finished, Nat.add_right_cancel_iff, Bool.toNat_false, Bool.toNat_true,
      Nat.add_zero] at eA eF
    have hlt : s.arrived n + 1 ≤ n := by rw [← eA]; exact cnt_le _ _
    have hF0 : s.finished n = 0 := by
      have hz : ∀ u, u < n → (s.pc u).finished = false := by
        intro u _
        cases e : (s.pc u).finished with
        | false => rfl
        | true =>
          have : (s.pc u).released = true := by
            revert e; cases s.pc u <;> simp [Pc.finished, Pc.released]
          have := h.goR u this
          omega
      exact cnt_zero hz
    have hact : s.active + 1#32 = BitVec.ofNat 32 (s.arrived n + 1) := by
      rw [h.active, hF0, BitVec.ofNat_add]; rfl
    have hiff : (s.active + 1#32 = BitVec.ofNat 32 n) ↔ s.arrived n + 1 = n := by
      rw [hact]
      exact ⟨fun e => ofNat_inj (by omega) hn31 e, fun e => by rw [e]⟩
    refine h.move t hp rfl rfl (by simp) (by simp) (mutex_move h t hp rfl rfl (by simp)) (by simp [Pc.arrived])
      (by simp [Pc.finished]) ?_ ?_ ?_ (by simp [Pc.released]) id ?_
      (by rw [eF]; exact h.stop) (by simp) (by simp [Pc.gone]) id ?_ (Or.inl ⟨rfl, rfl⟩)
    · rw [eA, eF, hF0]; exact hact
    · intro e
      have := h.go e
      omega
    · intro j e
      injection e with _ e
      have := hiff.1 (of_decide_eq_true e)
      omega
    · intro e _
      exact Or.inr ⟨i, by rw [decide_eq_true (hiff.2 (by omega))]⟩
    · intro e hh
      rw [eF] at e
      rcases hh with hh | ⟨i, hh⟩
      · exact absurd e hh
      · cases hh
  | go t i l hp =>
    have htn : t < n := h.lt (by rw [hp]; simp)
    have eA := arrived_move (n := n) (s' := { s with go := s.go || l, pc := upd s.pc t (.wait i) }) htn hp rfl
    have eF := finished_move (n := n) (s' := { s with go := s.go || l, pc := upd s.pc t (.wait i) }) htn hp rfl
    simp only [Pc.arrived, Pc.finished, Nat.add_right_cancel_iff] at eA eF
    refine h.move t hp rfl rfl (by simp) (by simp) (mutex_move h t hp rfl rfl (by simp)) (by simp [Pc.arrived])
      (by simp [Pc.finished])
      (by rw [eA, eF]; exact h.active) ?_ (by simp) (by simp [Pc.released]) ?_ ?_
      (by rw [eF]; exact h.stop) (by simp) (by simp [Pc.gone]) id ?_ (Or.inl ⟨rfl, rfl⟩)
    · intro e
      rw [eA]
      have e : (s.go || l) = true := e
      rcases Bool.or_eq_true _ _ ▸ e with e | e
      · exact h.go e
      · subst e; exact h.goA t i hp
    · intro e
      show (s.go || l) = true
      rw [e]; rfl
    · intro e hh
      rw [eA] at e
      rcases hh with hh | ⟨j, hh⟩
      · exact absurd e hh
      · injection hh with _ hh
        left
        show (s.go || l) = true
        rw [hh]; simp
    · intro e hh
      rw [eF] at e
      rcases hh with hh | ⟨i, hh⟩
      · exact absurd e hh
      · cases hh
  | enter t i hp hg =>
    have htn : t < n := h.lt (by rw [hp]; simp)
    have eA := arrived_move (n := n) (s' := { s with pc := upd s.pc t (.work i) }) htn hp rfl
    have eF := finished_move (n := n) (s' := { s with pc := upd s.pc t (.work i) }) htn hp rfl
    simp only [Pc.arrived, Pc.finished, Nat.add_right_cancel_iff] at eA eF
    refine h.move t hp rfl rfl (by simp) (by simp) (mutex_move h t hp rfl rfl (by simp)) (by simp [Pc.arrived])
      (by simp [Pc.finished])
      (by rw [eA, eF]; exact h.active) (by rw [eA]; exact h.go) (by simp) (by intro _; rw [eA]; exact h.go hg) id ?_
      (by rw [eF]; exact h.stop) (by simp) (by simp [Pc.gone]) id ?_ (Or.inl ⟨rfl, rfl⟩)
    · intro e hh
      rw [eA] at e
      rcases hh with hh | ⟨i, hh⟩
      · exact absurd e hh
      · cases hh
    · intro e hh
      rw [eF] at e
      rcases hh with hh | ⟨i, hh⟩
      · exact absurd e hh
      · cases hh
  | sub t i hp =>
    have htn : t < n := h.lt (by rw [hp]; simp)
    have eA := arrived_move (n := n) (s' := { s with
        active := s.active - 1#32
        pc := upd s.pc t (.subbed i (decide (s.active - 1#32 = 0#32))) }) htn hp rfl
    have eF := finished_move (n := n) (s' := { s with
        active := s.active - 1#32
        pc := upd s.pc t (.subbed i (decide (s.active - 1#32 = 0#32))) }) htn hp rfl
    simp only [Pc.arrived, Pc.finished, Nat.add_right_cancel_iff, Bool.toNat_false, Bool.toNat_true,
      Nat.add_zero] at eA eF
    have hAn : s.arrived n = n := h.goR t (by rw [hp]; rfl)
    have hlt : s.finished n + 1 ≤ n := by rw [← eF]; exact cnt_le _ _
    have hact : s.active - 1#32 = BitVec.ofNat 32 (n - (s.finished n + 1)) := by
      rw [h.active, hAn]
      have : n - s.finished n = (n - (s.finished n + 1)) + 1 := by omega
      rw [this, BitVec.ofNat_add]
      exact BitVec.add_sub_cancel _ _
    have hiff : (s.active - 1#32 = 0#32) ↔ s.finished n + 1 = n := by
      rw [hact]
      constructor
      · intro e
        have := ofNat_inj (b := 0) (by omega) (by omega) e
        omega
      · intro e
        rw [e, Nat.sub_self]
    refine h.move t hp rfl rfl (by simp) (by simp) (mutex_move h t hp rfl rfl (by simp)) (by simp [Pc.arrived])
      (by simp [Pc.finished]) ?_ (by rw [eA]; exact h.go) (by simp) (by intro _; rw [eA]; exact hAn) id ?_
      ?_ ?_ (by simp [Pc.gone]) id ?_ (Or.inl ⟨rfl, rfl⟩)
    · rw [eA, eF, hAn]; exact hact
    · intro e hh
      rw [eA] at e
      rcases hh with hh | ⟨i, hh⟩
      · exact absurd e hh
      · cases hh
    · intro e
      have := h.stop e
      omega
    · intro j e
      injection e with _ e
      have := hiff.1 (of_decide_eq_true e)
      omega
    · intro e _
      exact Or.inr ⟨i, by rw [decide_eq_true (hiff.2 (by omega))]⟩
  | stop t i l hp =>
    have htn : t < n := h.lt (by rw [hp]; simp)
    have eA := arrived_move (n := n) (s' := { s with stop := s.stop || l, pc := upd s.pc t (.wait2 i) }) htn hp rfl
    have eF := finished_move (n := n) (s' := { s with stop := s.stop || l, pc := upd s.pc t (.wait2 i) }) htn hp rfl
    simp only [Pc.arrived, Pc.finished, Nat.add_right_cancel_iff] at eA eF
    refine h.move t hp rfl rfl (by simp) (by simp) (mutex_move h t hp rfl rfl (by simp)) (by simp [Pc.arrived])
      (by simp [Pc.finished])
      (by rw [eA, eF]; exact h.active) (by rw [eA]; exact h.go) (by simp)
      (by intro _; rw [eA]; exact h.goR t (by rw [hp]; rfl)) id ?_
      ?_ (by simp) (by simp [Pc.gone]) ?_ ?_ (Or.inl ⟨rfl, rfl⟩)
    · intro e hh
      rw [eA] at e
      rcases hh with hh | ⟨i, hh⟩
      · exact absurd e hh
      · cases hh
    · intro e
      rw [eF]
      have e : (s.stop || l) = true := e
      rcases Bool.or_eq_true _ _ ▸ e with e | e
      · exact h.stop e
      · subst e; exact h.stopS t i hp
    · intro e
      show (s.stop || l) = true
      rw [e]; rfl
    · intro e hh
      rw [eF] at e
      rcases hh with hh | ⟨j, hh⟩
      · exact absurd e hh
      · injection hh with _ hh
        left
        show (s.stop || l) = true
        rw [hh]; simp
  | leave t i hp hg =>
    have htn : t < n := h.lt (by rw [hp]; simp)
    have eA := arrived_move (n := n) (s' := { s with pc := upd s.pc t (.left i) }) htn hp rfl
    have eF := finished_move (n := n) (s' := { s with pc := upd s.pc t (.left i) }) htn hp rfl
    simp only [Pc.arrived, Pc.finished, Nat.add_right_cancel_iff] at eA eF
    refine h.move t hp rfl rfl (by simp) (by simp) (mutex_move h t hp rfl rfl (by simp)) (by simp [Pc.arrived])
      (by simp [Pc.finished])
      (by rw [eA, eF]; exact h.active) (by rw [eA]; exact h.go) (by simp)
      (by intro _; rw [eA]; exact h.goR t (by rw [hp]; rfl)) id ?_
      (by rw [eF]; exact h.stop) (by simp) (by intro _; rw [eF]; exact h.stop hg) id ?_ (Or.inl ⟨rfl, rfl⟩)
    · intro e hh
      rw [eA] at e
      rcases hh with hh | ⟨i, hh⟩
      · exact absurd e hh
      · cases hh
    · intro e hh
      rw [eF] at e
      rcases hh with hh | ⟨i, hh⟩
      · exact absurd e hh
      · cases hh

theorem inv_reach {n : Nat} {fails : Nat → Bool} (hn : 0 < n) (hn31 : n < 2 ^ 31) {s : St}
    (h : Reach n fails s) : Inv n fails s := by
  obtain ⟨k, h⟩ := h
  generalize e : init = s0 at h
  induction h with
  | nil => subst e; exact inv_init n fails hn
  | cons _ st ih => exact inv_step hn hn31 (ih e) st

end Verif.Bench
