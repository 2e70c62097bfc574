import Verif.BenchLemmas

/-
The benchmark: setup, CPUs and meeting points (C98).
-/

namespace Verif.Bench

/-! ### Setup -/

/-- **C98.** After the loop of `init_affinity`, the array begins with the allowed CPUs, each once and in order;
`next_aff` was their number, which is what `CPU_COUNT` gives. -/
theorem affinity_table (allowed : Nat → Bool) (k : Nat) :
    (initAffinity allowed k).2 = cnt allowed k ∧
      (∀ i, i < (initAffinity allowed k).2 →
        (initAffinity allowed k).1 i < k ∧ allowed ((initAffinity allowed k).1 i) = true) ∧
      (∀ i j, i < j → j < (initAffinity allowed k).2 →
        (initAffinity allowed k).1 i < (initAffinity allowed k).1 j) ∧
      (∀ cpu, cpu < k → allowed cpu = true →
        ∃ i, i < (initAffinity allowed k).2 ∧ (initAffinity allowed k).1 i = cpu) := by
  induction k with
  | zero => exact ⟨rfl, fun i hi => absurd hi (Nat.not_lt_zero _), fun i j _ hj => absurd hj (Nat.not_lt_zero _),
      fun c hc => absurd hc (Nat.not_lt_zero _)⟩
  | succ k ih =>
    obtain ⟨h1, h2, h3, h4⟩ := ih
    cases ha : allowed k with
    | false =>
      have e : initAffinity allowed (k + 1) = initAffinity allowed k := by simp [initAffinity, ha]
      rw [e]
      refine ⟨by rw [cnt, ha, h1]; rfl, fun i hi => ⟨by have := (h2 i hi).1; omega, (h2 i hi).2⟩, h3, ?_⟩
      intro c hc hca
      by_cases ec : c = k
      · rw [ec, ha] at hca; cases hca
      · exact h4 c (by omega) hca
    | true =>
      have e : initAffinity allowed (k + 1) =
          (upd (initAffinity allowed k).1 (initAffinity allowed k).2 k, (initAffinity allowed k).2 + 1) := by
        simp [initAffinity, ha]
      rw [e]
      generalize initAffinity allowed k = p at *
      obtain ⟨a, w⟩ := p
      simp only at *
      refine ⟨by rw [cnt, ha, ← h1]; rfl, ?_, ?_, ?_⟩
      · intro i hi
        by_cases ei : i = w
        · rw [ei, upd_same]; exact ⟨by omega, ha⟩
        · rw [upd_ne _ _ ei]
          have := h2 i (by omega)
          exact ⟨by omega, this.2⟩
      · intro i j hij hj
        rw [upd_ne _ _ (by omega : i ≠ w)]
        by_cases ej : j = w
        · rw [ej, upd_same]; exact (h2 i (by omega)).1
        · rw [upd_ne _ _ ej]; exact h3 i j hij (by omega)
      · intro c hc hca
        by_cases ec : c = k
        · exact ⟨w, by omega, by rw [upd_same, ec]⟩
        · obtain ⟨i, hi, hic⟩ := h4 c (by omega) hca
          exact ⟨i, by omega, by rw [upd_ne _ _ (by omega), hic]⟩

/-- A permutation of the numbers below `n`. -/
def IsPerm (n : Nat) (o : Nat → Nat) : Prop :=
  (∀ i, i < n → o i < n) ∧ (∀ i j, i < n → j < n → o i = o j → i = j)

theorem initOrder_eq (n k : Nat) : ∀ i, i < k → initOrder n k i = i := by
  induction k with
  | zero => intro i hi; omega
  | succ k ih =>
    intro i hi
    rw [initOrder]
    by_cases e : i = k
    · rw [e, upd_same]
    · rw [upd_ne _ _ e]; exact ih i (by omega)

theorem swap_perm {n : Nat} {o : Nat → Nat} (h : IsPerm n o) {a b : Nat} (ha : a < n) (hb : b < n) :
    IsPerm n (upd (upd o a (o b)) b (o a)) := by
  have hv : ∀ i, upd (upd o a (o b)) b (o a) i = o (if i = b then a else if i = a then b else i) := by
    intro i
    by_cases e1 : i = b
    · simp [upd, e1]
    · by_cases e2 : i = a
      · subst e2; simp [upd, e1]
      · simp [upd, e1, e2]
  have hlt : ∀ i, i < n → (if i = b then a else if i = a then b else i) < n := by
    intro i hi
    split
    · exact ha
    · split
      · exact hb
      · exact hi
  refine ⟨fun i hi => by rw [hv]; exact h.1 _ (hlt i hi), ?_⟩
  intro i j hi hj e
  rw [hv, hv] at e
  have := h.2 _ _ (hlt i hi) (hlt j hj) e
  split at this <;> split at this <;> (try split at this) <;> (try split at this) <;> omega

/-- **C98.** Whatever `rand` returns, the order of the threads is a permutation: all delays are different and
below the number of threads times the delay. -/
theorem order_perm (n : Nat) (hn : 0 < n) (r : Nat → Nat) :
    IsPerm n (shuffle n r (initOrder n n) n) := by
  have : ∀ k, k ≤ n → IsPerm n (shuffle n r (initOrder n n) k) := by
    intro k
    induction k with
    | zero =>
      intro _
      refine ⟨fun i hi => ?_, fun i j hi hj e => ?_⟩
      · rw [shuffle, initOrder_eq n n i hi]; exact hi
      · rwa [shuffle, initOrder_eq n n i hi, initOrder_eq n n j hj] at e
    | succ k ih =>
      intro hk
      rw [shuffle]
      exact swap_perm (ih (by omega)) (by omega) (Nat.mod_lt _ hn)
  exact this n (Nat.le_refl _)

/-! ### The threads -/

/-- **C98.** While any thread is between the meeting points, all `n` threads have arrived, and none has got past
the second one: for the whole measurement there are as many threads as CPUs. -/
theorem all_present {n : Nat} {fails : Nat → Bool} (hn : 0 < n) (hn31 : n < 2 ^ 31) {s : St}
    (h : Reach n fails s) {t i : Nat} (hw : s.pc t = .work i) :
    ∀ u, u < n → (s.pc u).arrived = true ∧ (s.pc u).gone = false := by
  have hi := inv_reach hn hn31 h
  have hA := hi.goR t (by rw [hw]; rfl)
  have htn : t < n := hi.lt (by rw [hw]; simp)
  intro u hu
  refine ⟨cnt_all hA u hu, ?_⟩
  cases e : (s.pc u).gone with
  | false => rfl
  | true =>
    have hall := cnt_all (hi.stopG u e) t htn
    simp only [hw] at hall
    cases hall

/-- **C98.** Every thread takes an entry of the table that exists, and no two the same one: they run on different
allowed CPUs. -/
theorem own_cpu (allowed : Nat → Bool) (k : Nat) {fails : Nat → Bool} {n : Nat}
    (hw : n = cnt allowed k) (hn : 0 < n) (hn31 : n < 2 ^ 31) {s : St} (h : Reach n fails s)
    {t u i j : Nat} (ht : (s.pc t).idx = some i) (hu : (s.pc u).idx = some j) :
    i < n ∧ allowed ((initAffinity allowed k).1 i) = true ∧
      (t ≠ u → (initAffinity allowed k).1 i ≠ (initAffinity allowed k).1 j) := by
  have hinv := inv_reach hn hn31 h
  have hle : s.nextAff ≤ n := by rw [hinv.next]; exact cnt_le _ _
  have hi := hinv.idx t i ht
  have hj := hinv.idx u j hu
  obtain ⟨h1, h2, h3, -⟩ := affinity_table allowed k
  refine ⟨by omega, (h2 i (by omega)).2, ?_⟩
  intro hne e
  have hij : i ≠ j := fun e' => hne (hinv.inj t u i ht (by rw [e']; exact hu))
  rcases Nat.lt_or_gt_of_ne hij with hl | hl
  · have := h3 i j hl (by omega); omega
  · have := h3 j i hl (by omega); omega

/-! ### The end -/

def rsum (f : Nat → Nat) : Nat → Nat
  | 0 => 0
  | n + 1 => rsum f n + f n

theorem rsum_congr {f g : Nat → Nat} {n : Nat} (h : ∀ i, i < n → f i = g i) : rsum f n = rsum g n := by
  induction n with
  | zero => rfl
  | succ n ih => rw [rsum, rsum, ih (fun i hi => h i (by omega)), h n (by omega)]

theorem rsum_upd {f g : Nat → Nat} {n t : Nat} (ht : t < n) (h : ∀ i, i ≠ t → g i = f i) :
    rsum g n + f t = rsum f n + g t := by
  induction n with
  | zero => omega
  | succ n ih =>
    rw [rsum, rsum]
    by_cases hn : t = n
    · subst hn
      rw [rsum_congr (fun i hi => h i (by omega))]
      omega
    · rw [h n (fun e => hn e.symm)]
      have := ih (by omega)
      omega

theorem rsum_le {f : Nat → Nat} {n c : Nat} (h : ∀ i, f i ≤ c) : rsum f n ≤ c * n := by
  induction n with
  | zero => simp [rsum]
  | succ n ih => rw [rsum, Nat.mul_succ]; have := h n; omega

def measure (n : Nat) (s : St) : Nat := s.created + rsum (fun t => (s.pc t).rank) n

theorem measure_le {n : Nat} {s : St} (h : s.created ≤ n) : measure n s ≤ 11 * n := by
  have : rsum (fun t => (s.pc t).rank) n ≤ 10 * n :=
    rsum_le (fun i => by cases s.pc i <;> simp [Pc.rank])
  unfold measure
  omega

theorem measure_step {n : Nat} {fails : Nat → Bool} {s s' : St} (h : Inv n fails s) (st : Step n fails s s') :
    measure n s < measure n s' := by
  have mv : ∀ (s' : St) (t : Nat) (p p' : Pc), s.pc t = p → p ≠ .absent → s'.pc = upd s.pc t p' →
      s'.created = s.created → p.rank < p'.rank → measure n s < measure n s' := by
    intro s' t p p' hp hna hpc hcr hr
    have := rsum_upd (f := fun t => (s.pc t).rank) (g := fun t => (s'.pc t).rank)
      (h.lt (by rw [hp]; exact hna)) (fun i hi => by simp only [hpc, upd_ne _ _ hi])
    simp only [hp, hpc, upd_same] at this
    unfold measure
    rw [hcr, hpc]
    omega
  cases st with
  | create hc hf =>
    have hab := h.absent s.created (Nat.le_refl _)
    have := rsum_upd (f := fun t => (s.pc t).rank) (g := fun t => (upd s.pc s.created .start t).rank) hc
      (fun i hi => by simp only [upd_ne _ _ hi])
    simp only [hab, upd_same] at this
    have h0 : Pc.absent.rank = 0 := rfl
    simp only [measure]
    omega
  | createFails hc hf => simp only [measure]; omega
  | lock t hp _ => exact mv _ t _ _ hp (by simp) rfl rfl (by simp [Pc.rank])
  | take t hp => exact mv _ t _ _ hp (by simp) rfl rfl (by simp [Pc.rank])
  | unlock t i hp => exact mv _ t _ _ hp (by simp) rfl rfl (by simp [Pc.rank])
  | add t i hp => exact mv _ t _ _ hp (by simp) rfl rfl (by simp [Pc.rank])
  | go t i l hp => exact mv _ t _ _ hp (by simp) rfl rfl (by simp [Pc.rank])
  | enter t i hp _ => exact mv _ t _ _ hp (by simp) rfl rfl (by simp [Pc.rank])
  | sub t i hp => exact mv _ t _ _ hp (by simp) rfl rfl (by simp [Pc.rank])
  | stop t i l hp => exact mv _ t _ _ hp (by simp) rfl rfl (by simp [Pc.rank])
  | leave t i hp _ => exact mv _ t _ _ hp (by simp) rfl rfl (by simp [Pc.rank])

/-- **C98.** No run has more than `11 n` steps (each thread has ten, `main` creates each thread once). -/
theorem steps_bounded {n k : Nat} {fails : Nat → Bool} (hn : 0 < n) (hn31 : n < 2 ^ 31) {s : St}
    (h : Steps n fails k init s) : k ≤ 11 * n := by
  have : k ≤ measure n s := by
    generalize e : init = s0 at h
    induction h with
    | nil => omega
    | cons h' st ih =>
      have := measure_step (inv_reach hn hn31 ⟨_, e ▸ h'⟩) st
      have := ih e
      omega
  have := measure_le (inv_reach hn hn31 ⟨k, h⟩).created
  omega

/-- **C98.** If all threads could be created, there is a next step until every thread has passed the second meeting
point: nobody is stuck. -/
theorem not_stuck {n : Nat} {fails : Nat → Bool} (hn : 0 < n) (hn31 : n < 2 ^ 31) {s : St}
    (h : Reach n fails s) (hf : ∀ i, i < n → fails i = false) :
    (∃ s', Step n fails s s') ∨ ∀ t, t < n → (s.pc t).gone = true := by
  have hi := inv_reach hn hn31 h
  by_cases hc : s.created < n
  · exact Or.inl ⟨_, .create hc (hf _ hc)⟩
  have hcn : s.created = n := by have := hi.created; omega
  by_cases hex : ∃ s', Step n fails s s'
  · exact Or.inl hex
  right
  have no : ∀ s', ¬ Step n fails s s' := fun s' st => hex ⟨s', st⟩
  have hmx : s.mutex = none := by
    cases hm : s.mutex with
    | none => rfl
    | some u =>
      rcases (hi.mutex u).1 hm with hl | ⟨i, hl⟩
      · exact absurd (Step.take u hl) (no _)
      · exact absurd (Step.unlock u i hl) (no _)
  have shape : ∀ t, t < n → (∃ i, s.pc t = .wait i) ∨ (∃ i, s.pc t = .wait2 i) ∨ ∃ i, s.pc t = .left i := by
    intro t ht
    cases e : s.pc t with
    | absent => exact absurd e (hi.present t (by omega) (hf t ht))
    | start => exact absurd (Step.lock t e hmx) (no _)
    | locked => exact absurd (Step.take t e) (no _)
    | took i => exact absurd (Step.unlock t i e) (no _)
    | pinned i => exact absurd (Step.add t i e) (no _)
    | added i l => exact absurd (Step.go t i l e) (no _)
    | wait i => exact Or.inl ⟨i, rfl⟩
    | work i => exact absurd (Step.sub t i e) (no _)
    | subbed i l => exact absurd (Step.stop t i l e) (no _)
    | wait2 i => exact Or.inr (Or.inl ⟨i, rfl⟩)
    | left i => exact Or.inr (Or.inr ⟨i, rfl⟩)
  have hA : s.arrived n = n := cnt_of_all (fun t ht => by
    rcases shape t ht with ⟨i, e⟩ | ⟨i, e⟩ | ⟨i, e⟩ <;> simp only [e, Pc.arrived])
  have hgo : s.go = true := by
    rcases hi.going hA hn with hg | ⟨t, i, e⟩
    · exact hg
    · exact absurd (Step.go t i true e) (no _)
  have hF : s.finished n = n := cnt_of_all (fun t ht => by
    rcases shape t ht with ⟨i, e⟩ | ⟨i, e⟩ | ⟨i, e⟩
    · exact absurd (Step.enter t i e hgo) (no _)
    · simp only [e, Pc.finished]
    · simp only [e, Pc.finished])
  have hst : s.stop = true := by
    rcases hi.stopping hF hn with hg | ⟨t, i, e⟩
    · exact hg
    · exact absurd (Step.stop t i true e) (no _)
  intro t ht
  rcases shape t ht with ⟨i, e⟩ | ⟨i, e⟩ | ⟨i, e⟩
  · exact absurd (Step.enter t i e hgo) (no _)
  · exact absurd (Step.leave t i e hst) (no _)
  · rw [e]; rfl

/-- **C98.** If one `pthread_create` fails, which the program does not check, no other thread ever gets past the
first meeting point: the benchmark hangs. -/
theorem create_failure_hangs {n : Nat} {fails : Nat → Bool} (hn : 0 < n) (hn31 : n < 2 ^ 31) {s : St}
    (h : Reach n fails s) {u : Nat} (hu : u < n) (hf : fails u = true) (t : Nat) :
    (s.pc t).released = false := by
  have hi := inv_reach hn hn31 h
  cases e : (s.pc t).released with
  | false => rfl
  | true =>
    have := cnt_all (hi.goR t e) u hu
    simp only [hi.failed u hf] at this
    cases this

/-! ### Concrete cases -/

/-- CPUs 1, 4 and 5 of 8. -/
example : ((initAffinity (fun c => c == 1 || c == 4 || c == 5) 8).2,
    (List.range 3).map (initAffinity (fun c => c == 1 || c == 4 || c == 5) 8).1) = (3, [1, 4, 5]) := by decide

example : (List.range 4).map (shuffle 4 (fun i => 5 * i + 3) (initOrder 4 4) 4) = [1, 2, 0, 3] := by decide

/-- A run of two threads in which the first works while the second still waits for the flag. -/
theorem ex_two : ∃ s, Reach 2 (fun _ => false) s ∧ s.pc 0 = .work 0 ∧ s.pc 1 = .wait 1 ∧ s.go = true := by
  refine ⟨_, ⟨_, .cons (.cons (.cons (.cons (.cons (.cons (.cons (.cons (.cons (.cons (.cons (.cons (.cons .nil
    (.create (by decide) rfl)) (.create (by decide) rfl)) (.lock 0 rfl rfl)) (.take 0 rfl)) (.unlock 0 0 rfl))
    (.lock 1 rfl rfl)) (.take 1 rfl)) (.unlock 1 1 rfl)) (.add 0 0 rfl)) (.go 0 0 false rfl)) (.add 1 1 rfl))
    (.go 1 1 true rfl)) (.enter 0 0 rfl rfl)⟩, ?_, ?_, ?_⟩ <;> rfl

example : ∃ s, Reach 2 (fun _ => false) s ∧ (∃ t i, s.pc t = .work i) ∧ (s.pc 1).idx = some 1 ∧
    2 = cnt (fun c => c == 1 || c == 4) 8 := by
  obtain ⟨s, h1, h2, h3, -⟩ := ex_two
  exact ⟨s, h1, ⟨0, 0, h2⟩, by rw [h3]; rfl, by decide⟩

/-- The second creation fails: the first thread waits. -/
example : ∃ s, Reach 2 (fun i => i == 1) s ∧ s.pc 0 = .wait 0 ∧ s.created = 2 := by
  refine ⟨_, ⟨_, .cons (.cons (.cons (.cons (.cons (.cons (.cons .nil
    (.create (by decide) rfl)) (.createFails (by decide) rfl)) (.lock 0 rfl rfl)) (.take 0 rfl)) (.unlock 0 0 rfl))
    (.add 0 0 rfl)) (.go 0 0 false rfl)⟩, ?_, ?_⟩ <;> rfl

end Verif.Bench
