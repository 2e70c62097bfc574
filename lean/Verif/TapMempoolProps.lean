import Verif.TapMempool
/-
C113: tests/mempool_test.c as a whole.
-/
namespace Verif.Tap

/-- C113: which fill tests `main` runs. -/
theorem fill_runs (pg : Nat) (hpg : 0 < pg) (r : FillRun) :
    r ∈ fillRuns pg ↔
      ((∃ k, k < 5 ∧ r.ranges = 2 ^ k) ∧ r.len < 65536 ∧ ∃ k, r.len = pg * 2 ^ k) ∨
      (r.ranges = 1 ∧ r.len < 4096 * 1024 ∧ ∃ k, r.len = max pg 65536 * 2 ^ k) := by
  have hb : ∀ nr len, r ∈ bothPolicies nr len ↔ r.ranges = nr ∧ r.len = len := by
    intro nr len
    obtain ⟨c, a, b⟩ := r
    unfold bothPolicies
    cases c <;> simp
  have hmax : (if pg < 65536 then 65536 else pg) = max pg 65536 := by split <;> omega
  have h32 : ∀ x, x ∈ doublings 1 32 ↔ ∃ k, k < 5 ∧ x = 2 ^ k := by
    intro x
    rw [mem_doublings]
    constructor
    · rintro ⟨_, h, k, rfl⟩
      refine ⟨k, ?_, by simp⟩
      rw [Nat.one_mul] at h
      exact (Nat.pow_lt_pow_iff_right (a := 2) (by omega)).1 (h : 2 ^ k < 2 ^ 5)
    · rintro ⟨k, h, rfl⟩
      exact ⟨by omega, (Nat.pow_lt_pow_right (by omega) h : 2 ^ k < 2 ^ 5), k, by simp⟩
  unfold fillRuns
  rw [List.mem_append, List.mem_flatMap, List.mem_flatMap, hmax]
  refine or_congr ⟨?_, ?_⟩ ⟨?_, ?_⟩
  · rintro ⟨nr, hnr, h⟩
    obtain ⟨len, hlen, h⟩ := List.mem_flatMap.1 h
    obtain ⟨h1, h2⟩ := (hb _ _).1 h
    obtain ⟨_, h3, h4⟩ := mem_doublings.1 hlen
    rw [h1, h2]
    exact ⟨(h32 nr).1 hnr, h3, h4⟩
  · rintro ⟨h1, h2, h3⟩
    exact ⟨r.ranges, (h32 _).2 h1, List.mem_flatMap.2 ⟨r.len, mem_doublings.2 ⟨hpg, h2, h3⟩, (hb _ _).2 ⟨rfl, rfl⟩⟩⟩
  · rintro ⟨len, hlen, h⟩
    obtain ⟨h1, h2⟩ := (hb _ _).1 h
    obtain ⟨_, h3, h4⟩ := mem_doublings.1 hlen
    rw [h1, h2]
    exact ⟨rfl, h3, h4⟩
  · rintro ⟨h1, h2, h3⟩
    exact ⟨r.len, mem_doublings.2 ⟨by omega, h2, h3⟩, (hb _ _).2 ⟨h1, rfl⟩⟩

/-- C113: every stride is one the pool accepts: a power of two, not below the page size (rseq-mempool.c:994-998). -/
theorem fill_strides (j : Nat) (r : FillRun) (h : r ∈ fillRuns (2 ^ j)) :
    (∃ k, r.len = 2 ^ k) ∧ 2 ^ j ≤ r.len ∧ 1 ≤ r.ranges := by
  have hmax : ∃ n, max (2 ^ j) 65536 = 2 ^ n ∧ 2 ^ j ≤ 2 ^ n := by
    by_cases hj : 2 ^ j < 65536
    · exact ⟨16, by omega, by omega⟩
    · exact ⟨j, by omega, by omega⟩
  rcases (fill_runs _ (Nat.two_pow_pos j) r).1 h with ⟨⟨k, _, hr⟩, _, n, hn⟩ | ⟨hr, _, n, hn⟩
  · rw [hn, hr]
    exact ⟨⟨j + n, (Nat.pow_add ..).symm⟩, Nat.le_mul_of_pos_right _ (Nat.two_pow_pos n), Nat.two_pow_pos k⟩
  · obtain ⟨a, ha, hle⟩ := hmax
    rw [hn, hr, ha]
    exact ⟨⟨a + n, (Nat.pow_add ..).symm⟩, Nat.le_trans hle (Nat.le_mul_of_pos_right _ (Nat.two_pow_pos n)), by omega⟩

/-- C113: no fill test is run twice. -/
theorem fill_runs_once (pg : Nat) : (fillRuns pg).Nodup := by
  have inner : ∀ nr lo hi, ((doublings lo hi).flatMap fun len => bothPolicies nr len).Nodup := by
    intro nr lo hi
    refine List.pairwise_flatMap.2 ⟨fun a _ => bothPolicies_nodup _ _, (doublings_nodup lo hi).imp ?_⟩
    intro a b hab x hx y hy e
    rw [e] at hx
    exact hab ((mem_bothPolicies hx).2.symm.trans (mem_bothPolicies hy).2)
  unfold fillRuns
  refine List.nodup_append.2 ⟨List.pairwise_flatMap.2 ⟨fun nr _ => inner nr _ _, (doublings_nodup 1 32).imp ?_⟩, inner 1 _ _, ?_⟩
  · intro a b hab x hx y hy e
    obtain ⟨l1, _, h1⟩ := List.mem_flatMap.1 hx
    obtain ⟨l2, _, h2⟩ := List.mem_flatMap.1 hy
    rw [e] at h1
    exact hab ((mem_bothPolicies h1).1.symm.trans (mem_bothPolicies h2).1)
  · intro x hx y hy e
    obtain ⟨_, _, hx⟩ := List.mem_flatMap.1 hx
    obtain ⟨l1, hl1, h1⟩ := List.mem_flatMap.1 hx
    obtain ⟨l2, hl2, h2⟩ := List.mem_flatMap.1 hy
    rw [e] at h1
    have e12 : l1 = l2 := (mem_bothPolicies h1).2.symm.trans (mem_bothPolicies h2).2
    have b1 := (mem_doublings.1 hl1).2.1
    obtain ⟨_, _, k, hk⟩ := mem_doublings.1 hl2
    have : (if pg < 65536 then 65536 else pg) ≤ l2 := by
      rw [hk]; exact Nat.le_mul_of_pos_right _ (Nat.two_pow_pos k)
    split at this <;> omega

/-- C113: how many fill tests there are, for a page of `2 ^ j` bytes. -/
theorem fill_runs_length (j : Nat) : (fillRuns (2 ^ j)).length = 10 * (16 - j) + 2 * (22 - max j 16) := by
  have hmax : (if 2 ^ j < 65536 then 65536 else 2 ^ j) = 2 ^ max j 16 := by
    split
    · rename_i h
      have : j < 16 := (Nat.pow_lt_pow_iff_right (a := 2) (by omega)).1 (h : 2 ^ j < 2 ^ 16)
      rw [show max j 16 = 16 by omega]
    · rename_i h
      have : ¬ j < 16 := fun hj => h (Nat.pow_lt_pow_right (by omega) hj : 2 ^ j < 2 ^ 16)
      rw [show max j 16 = j by omega]
  have h1 : (doublings 1 32).length = 5 := doublings_length 0 5
  have h2 : (doublings (2 ^ j) 65536).length = 16 - j := doublings_length j 16
  have h3 : (doublings (2 ^ max j 16) (4096 * 1024)).length = 22 - max j 16 := doublings_length _ 22
  unfold fillRuns
  rw [List.length_append, hmax, length_flatMap_const _ _ (2 * (16 - j)), length_flatMap_const _ _ 2, h1, h3]
  · omega
  · intro a _; rfl
  · intro a _
    rw [length_flatMap_const _ _ 2 (fun _ _ => rfl), h2, Nat.mul_comm]

/-- C113: the driver accepts mempool_test exactly if every check holds (fill tests: 16 checks each, robust tests: 6 per policy). -/
theorem mempool_test_success (j : Nat) (fill : FillRun → List Bool) (hfill : ∀ r, (fill r).length = 16)
    (robust : Bool → List Bool) (hrob : ∀ b, (robust b).length = 6) (fork : Bool → Bool) :
    ∃ code s, program (.noPlan :: oks (mempoolChecks (2 ^ j) fill robust fork)) {} = .exit code s ∧
      (mempoolChecks (2 ^ j) fill robust fork).length = 16 * (10 * (16 - j) + 2 * (22 - max j 16)) + 14 ∧
      (Success (verdict s.out (code8 code)) ↔
        (∀ r ∈ fillRuns (2 ^ j), ∀ b ∈ fill r, b = true) ∧ (∀ c, ∀ b ∈ robust c, b = true) ∧ ∀ c, fork c = true) := by
  have hlen : (mempoolChecks (2 ^ j) fill robust fork).length = 16 * (10 * (16 - j) + 2 * (22 - max j 16)) + 14 := by
    unfold mempoolChecks
    rw [List.length_append, List.length_append, List.length_append, length_flatMap_const _ _ 16 fun r _ => hfill r,
      fill_runs_length, hrob, hrob]
    simp
    omega
  have hc : checks false (oks (mempoolChecks (2 ^ j) fill robust fork)) = (mempoolChecks (2 ^ j) fill robust fork).map .plain := by
    have := checks_oks (mempoolChecks (2 ^ j) fill robust fork) []; simpa [checks] using this
  have hb : Body false (oks (mempoolChecks (2 ^ j) fill robust fork)) := by
    have := body_oks (mempoolChecks (2 ^ j) fill robust fork) [] trivial; simpa using this
  have hl : (checks false (oks (mempoolChecks (2 ^ j) fill robust fork))).length < 2 ^ 31 := by
    rw [hc, List.length_map, hlen]; omega
  obtain ⟨code, s, h1, -⟩ := unplanned_run _ hb hl
  refine ⟨code, s, h1, hlen, ?_⟩
  rw [unplanned_success_iff _ hb hl code s h1, hc, good_plain]
  unfold mempoolChecks
  constructor
  · intro h
    refine ⟨fun r hr b hb => h b ?_, fun c b hb => h b ?_, fun c => h _ ?_⟩
    · exact List.mem_append_left _ (List.mem_append_left _ (List.mem_flatMap.2 ⟨r, hr, hb⟩))
    · refine List.mem_append_left _ (List.mem_append_right _ ?_)
      cases c
      · exact List.mem_append_left _ hb
      · exact List.mem_append_right _ hb
    · refine List.mem_append_right _ ?_
      cases c <;> simp
  · rintro ⟨h1, h2, h3⟩ b hb
    rcases List.mem_append.1 hb with hb | hb
    · rcases List.mem_append.1 hb with hb | hb
      · obtain ⟨r, hr, hb⟩ := List.mem_flatMap.1 hb
        exact h1 r hr b hb
      · rcases List.mem_append.1 hb with hb | hb
        · exact h2 _ b hb
        · exact h2 _ b hb
    · rcases List.mem_cons.1 hb with rfl | hb
      · exact h3 _
      · rw [List.mem_singleton.1 hb]; exact h3 _

/-- C113: if the program ends early - an abort of the library or of a fill test, a signal, `_exit` because the pool of the fork check could
not be created - the driver reports a failure, even if all checks so far held and the exit status were 0. -/
theorem mempool_test_early (bs : List Bool) (h : bs.length < 2 ^ 31) (code : Nat) :
    ∃ s, calls (.noPlan :: oks bs) {} = .run s ∧ ¬ Success (verdict s.out code) := by
  have hc : checks false (oks bs) = bs.map .plain := by
    have := checks_oks bs []; simpa [checks] using this
  have hb : Body false (oks bs) := by
    have := body_oks bs [] trivial; simpa using this
  obtain ⟨s', h1, _, _, h4, _⟩ := calls_body (oks bs) 0 0
    { havePlan := true, noPlan := true, inited := true } hb (by simp) rfl rfl (by dsimp only; rw [hc]; simpa using h)
  refine ⟨s', ?_, ?_⟩
  · simp only [calls, call, Bool.false_eq_true, if_false]
    exact h1
  · unfold verdict
    rw [success_iff]
    rintro ⟨e, _⟩
    apply e
    unfold finish
    have hseen : ((s'.out).foldl see {}).seen = .no := by
      rw [h4]
      exact (foldl_lines_count 0 _ {}).2.1
    rw [if_pos hseen]
    simp

/-- C113: a check that fails (a pool that could not be created, line 73) is noticed, whether the program goes on to its end or not. -/
theorem failed_check_noticed (bs : List Bool) (h : bs.length < 2 ^ 31) (hf : false ∈ bs) :
    (∃ code s, program (.noPlan :: oks bs) {} = .exit code s ∧ ¬ Success (verdict s.out (code8 code))) ∧
    ∀ code, ∃ s, calls (.noPlan :: oks bs) {} = .run s ∧ ¬ Success (verdict s.out code) := by
  refine ⟨?_, fun code => mempool_test_early bs h code⟩
  have hc : checks false (oks bs) = bs.map .plain := by
    have := checks_oks bs []; simpa [checks] using this
  have hb : Body false (oks bs) := by
    have := body_oks bs [] trivial; simpa using this
  have hl : (checks false (oks bs)).length < 2 ^ 31 := by rw [hc, List.length_map]; exact h
  obtain ⟨code, s, h1, -⟩ := unplanned_run _ hb hl
  refine ⟨code, s, h1, fun hs => ?_⟩
  rw [unplanned_success_iff _ hb hl code s h1, hc, good_plain] at hs
  exact absurd (hs false hf) (by decide)

/-- C113, finding F54: on systems with pages of 64 kB or more, no fill test uses more than one range. -/
theorem one_range_only (pg : Nat) (h : 65536 ≤ pg) (r : FillRun) (hr : r ∈ fillRuns pg) : r.ranges = 1 := by
  rcases (fill_runs pg (by omega) r).1 hr with ⟨_, h2, k, e⟩ | ⟨h1, _⟩
  · have := Nat.le_mul_of_pos_right pg (Nat.two_pow_pos k)
    omega
  · exact h1

/-- Pages of 4 kB: 52 fill tests, 846 checks. -/
example : (fillRuns 4096).length = 52 ∧ (⟨true, 16, 32768⟩ : FillRun) ∈ fillRuns 4096 ∧ (⟨false, 1, 2097152⟩ : FillRun) ∈ fillRuns 4096 ∧
    (⟨true, 2, 65536⟩ : FillRun) ∉ fillRuns 4096 := by
  refine ⟨fill_runs_length 12, (fill_runs 4096 (by omega) _).2 (Or.inl ⟨⟨4, by omega, rfl⟩, by simp, 3, rfl⟩),
    (fill_runs 4096 (by omega) _).2 (Or.inr ⟨rfl, by simp, 5, rfl⟩), fun h => ?_⟩
  rcases (fill_runs 4096 (by omega) _).1 h with ⟨_, h, _⟩ | ⟨h, _⟩
  · simp at h
  · simp at h

/-- All 846 checks hold: success; one of them fails: no success. -/
example : (∃ code s, program (.noPlan :: oks (mempoolChecks 4096 (fun _ => List.replicate 16 true) (fun _ => List.replicate 6 true) fun _ => true)) {} =
      .exit code s ∧ Success (verdict s.out (code8 code))) ∧
    ∃ code s, program (.noPlan :: oks (mempoolChecks 4096 (fun _ => List.replicate 16 true) (fun _ => List.replicate 6 true) fun c => !c)) {} =
      .exit code s ∧ ¬ Success (verdict s.out (code8 code)) := by
  constructor
  · obtain ⟨code, s, h1, _, h2⟩ := mempool_test_success 12 (fun _ => List.replicate 16 true) (fun _ => by simp)
      (fun _ => List.replicate 6 true) (fun _ => by simp) fun _ => true
    exact ⟨code, s, h1, h2.2 ⟨fun _ _ b hb => List.eq_of_mem_replicate hb, fun _ b hb => List.eq_of_mem_replicate hb, fun _ => rfl⟩⟩
  · obtain ⟨code, s, h1, _, h2⟩ := mempool_test_success 12 (fun _ => List.replicate 16 true) (fun _ => by simp)
      (fun _ => List.replicate 6 true) (fun _ => by simp) fun c => !c
    exact ⟨code, s, h1, fun h => by have := (h2.1 h).2.2 true; cases this⟩

/-- The seventh check of the first fill test fails, and the program dies. -/
example : false ∈ List.replicate 6 true ++ [false] ∧ (List.replicate 6 true ++ [false]).length < 2 ^ 31 := by decide

/-- Pages of 64 kB: 12 fill tests, each with one range. -/
example : (fillRuns 65536).length = 12 ∧ (⟨true, 1, 65536⟩ : FillRun) ∈ fillRuns 65536 :=
  ⟨fill_runs_length 16, (fill_runs 65536 (by omega) _).2 (Or.inr ⟨rfl, by simp, 0, rfl⟩)⟩

end Verif.Tap
