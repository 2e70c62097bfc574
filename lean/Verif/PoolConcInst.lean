import Verif.PoolConcRace
import Verif.PoolConcBoundProps
import Verif.PoolSetConcEx

/-!
# The theorems about concurrent use of pools and pool sets, applied to concrete executions
-/

namespace Verif.PoolConc
open Verif Verif.Mem Verif.Mempool

attribute [local instance] le64

theorem calm_init (split : Bool) : ∃ s, CReach bigC split s ∧ Calm bigC 0 s ∧ s.live = [] := by
  have hrc : ∃ r m, (rangeCreate bigC ⟨[], 0, 0⟩ raceMem { base := some 16384 }).2 = some (r, m) ∧ r.nextUnused = 0 := ⟨_, _, rfl, rfl⟩
  obtain ⟨r, m, hrc, hnu⟩ := hrc
  refine ⟨_, CReach.create raceMem { base := some 16384 } r m (fun _ _ h => by cases h) ⟨fun b e => ?_, fun _ _ _ h => by cases h⟩ hrc,
    ⟨fun _ => rfl, fun _ => rfl, rfl, rfl, r, [], rfl, hnu⟩, rfl⟩
  cases e
  exact ⟨by decide, by decide, by decide, fun r hr => (by cases hr), fun x hx => hx⟩

/-- Thread 5 got item `q` (zeroed); thread 9's `malloc_init` of 100 bytes is about to return item `p`. -/
theorem ex_two_items (split : Bool) : ∃ s s' p q, CReach bigC split s ∧
    CStep bigC split s (.returned 9 (.init (fun i => BitVec.ofNat 8 i) 100) p) s' ∧ s.live = [q] ∧ p ≠ q ∧ s'.live = [p, q] ∧
    (∀ t, s'.th t = .idle) ∧ ∀ t, s'.pend t = none := by
  obtain ⟨s0, h0, hc0, hl0⟩ := calm_init split
  have hsafe : FaultSafe bigC split := Or.inr (Or.inr (by decide))
  obtain ⟨s1, s2, q, h1, hs1, hl1, hc2⟩ := calm_alloc bigC_valid hsafe h0 hc0 (by decide) 5 .zero (by decide)
  obtain ⟨s3, s4, p, h3, hs3, hl3, hc4⟩ := calm_alloc bigC_valid hsafe (CReach.step h1 hs1) hc2 (by decide) 9
    (.init (fun i => BitVec.ofNat 8 i) 100) (by decide)
  have hlive := (conc_content bigC_valid hsafe h1 hs1).2.1
  have hl : s3.live = [q] := by rw [hl3, hlive, hl1, hl0]
  have hne := (conc_content bigC_valid hsafe h3 hs3).1
  have hlive' := (conc_content bigC_valid hsafe h3 hs3).2.1
  rw [hl] at hne hlive'
  exact ⟨s3, s4, p, q, h3, hs3, hl, fun e => hne (by simp [e]), hlive', hc4.idle, hc4.pend⟩

/-- `conc_exclusive`. -/
example : ∃ s p q, CReach bigC true s ∧ p ∈ s.live ∧ q ∈ s.live ∧ p ≠ q ∧ cpuAddr bigC p 0 + 99 ≠ cpuAddr bigC q 0 + 5 := by
  obtain ⟨s, s', p, q, h, hs, _, hne, hl, _⟩ := ex_two_items true
  have hp : p ∈ s'.live := by simp [hl]
  have hq : q ∈ s'.live := by simp [hl]
  exact ⟨s', p, q, CReach.step h hs, hp, hq, hne, fun e =>
    hne ((conc_exclusive bigC_valid (CReach.step h hs)).2 p q hp hq 0 0 99 5 (by decide) (by decide) (by decide) (by decide) e).1⟩

/-- `conc_exclusive_calls`: while thread 9 frees item `p`, no other thread fills or frees it. -/
example : ∃ s p, CReach bigC true s ∧ s.th 9 = .wantFree p ∧ p ∉ s.live ∧ s.th 5 ≠ .wantFree p := by
  obtain ⟨s, s', p, q, h, hs, _, hne, hl, hi, hp⟩ := ex_two_items true
  have h2 := CReach.step (CReach.step h hs) (CStep.free 9 p (hi 9) (hp 9) (by simp [hl]) (fun u d hd => by rw [hp u] at hd; cases hd))
  obtain ⟨h3, h4⟩ := conc_exclusive_calls (t := 9) (p := p) bigC_valid h2 (Or.inr (Or.inl (upd_self s'.th 9 _)))
  exact ⟨_, p, h2, upd_self s'.th 9 _, h3, (h4 5 (by decide)).2.1⟩

/-- `conc_lock_exclusive`, `conc_lock`, `conc_no_abort`, `conc_lock_released`: thread 0 has the lock, thread 1 waits. -/
example : waitS.lock = some 0 ∧ (∀ fill k, waitS.th 1 ≠ .inAlloc fill k) ∧ waitS.th 1 ≠ .dead ∧
    ∃ labs s', CTrace raceC false waitS labs s' ∧ s'.lock = none := by
  have h := conc_lock_exclusive raceC_valid wait_reach (t := 0) (Or.inl ⟨_, _, rfl⟩)
  obtain ⟨labs, s', ht, hl, _⟩ := conc_lock_released raceC_valid (Or.inl rfl) wait_reach h.1
  exact ⟨(conc_lock raceC_valid (Or.inl rfl) wait_reach 0).1 (Or.inl ⟨_, _, rfl⟩), (h.2 1 (by decide)).1,
    conc_no_abort raceC_valid (Or.inl rfl) wait_reach 1, labs, s', ht, hl⟩

/-- `conc_undisturbed` and `conc_undisturbed_faults`: thread 9's return leaves item `q` alone. -/
example : ∃ s s' p q, CReach bigC true s ∧ CStep bigC true s (.returned 9 (.init (fun i => BitVec.ofNat 8 i) 100) p) s' ∧
    q ∈ s.live ∧ q ∈ s'.live ∧ s'.mem.read 4096 (cpuAddr bigC q 0 + 7) = s.mem.read 4096 (cpuAddr bigC q 0 + 7) := by
  obtain ⟨s, s', p, q, h, hs, hl, _⟩ := ex_two_items true
  have hq : q ∈ s.live := by simp [hl]
  obtain ⟨h1, h2⟩ := conc_undisturbed bigC_valid bigC_safe h hs hq
  refine ⟨s, s', p, q, h, hs, hq, h1 (fun t e => by cases e), ?_⟩
  rcases h2 0 7 (by decide) (by decide) with ⟨t, b, e, _⟩ | ⟨_, e⟩
  · cases e
  · exact e
example : ∃ s s' p q, CReach raceC true s ∧ CStep raceC true s (.freeCall 3 q) s' ∧ p ∈ s.live ∧ p ≠ q ∧ p ∈ s'.live := by
  obtain ⟨s, h, hl, hth, hpd⟩ : ∃ s, CReach raceC true s ∧ s.live = [8200, 8192] ∧ s.th 3 = .idle ∧ ∀ t, s.pend t = none := by
    have h1 := CReach.step race_second (CStep.snapStore 0 8192 0 0 3 rfl rfl List.mem_cons_self (by decide) (by decide) rfl rfl)
    have h2 := CReach.step h1 (CStep.writeFill 1 raceFill 8200 12296 7#8 _ rfl rfl (fun _ => rfl))
    have h3 := CReach.step h2 (CStep.readFill 1 raceFill 8200 8200 _ rfl rfl)
    have h4 := CReach.step h3 (CStep.install 0 racePend rfl)
    refine ⟨_, CReach.step h4 (CStep.returned 1 raceFill 8200 rfl rfl), rfl, rfl, fun t => ?_⟩
    by_cases ht : t = 0
    · subst ht; rfl
    · show upd (upd _ 0 _) 0 _ t = _
      rw [upd_ne _ ht, upd_ne _ ht]
      simp [raceS, upd, ht]
  have hs := CStep.free (c := raceC) (split := true) 3 8192 hth (hpd 3) (by simp [hl]) (fun u d hd => by rw [hpd u] at hd; cases hd)
  obtain ⟨h1, _⟩ := conc_undisturbed_faults raceC_valid h hs (p := 8200) (by simp [hl])
  exact ⟨s, _, 8200, 8192, h, hs, by simp [hl], by decide, h1 (fun t e => by cases e)⟩

/-- `conc_private_memory`, `conc_malloc_init_view`, `cow_faults_partial`: thread 5 stores 0xEE at offset 7 of CPU 0's
instance of item `p`; offset 8 keeps the init value. -/
example : ∃ s s' s'' p, CReach bigC false s ∧ CStep bigC false s (.returned 9 (.init (fun i => BitVec.ofNat 8 i) 100) p) s' ∧
    CTrace bigC false s' [.stored 5 p 0 7 0xEE#8] s'' ∧ s''.mem.read 4096 (cpuAddr bigC p 0 + 7) = 0xEE#8 ∧
    s''.mem.read 4096 (cpuAddr bigC p 0 + 8) = 8#8 ∧ s'.th 5 ≠ .dead := by
  obtain ⟨s, s', p, q, h, hs, _, _, hl, hi, hp⟩ := ex_two_items false
  have hst : CTrace bigC false s' [.stored 5 p 0 7 0xEE#8] _ :=
    .cons (CStep.store 5 p 0 7 0xEE#8 (hi 5) (hp 5) (by simp [hl]) (by decide) (by decide) (fun e => by cases e)) (.nil _)
  have hnf : ∀ t, Lab.freeCall t p ∉ [Lab.stored 5 p 0 7 0xEE#8] := fun t e => by simp at e
  refine ⟨s, s', _, p, h, hs, hst, ?_, ?_, ?_⟩
  · exact ((conc_private_memory bigC_valid (Or.inl rfl) (CReach.step h hs) hst (by simp [hl]) hnf).2 0 7 (by decide) (by decide)).trans
      (by simp [lastStored])
  · exact (conc_malloc_init_view bigC_valid (Or.inl rfl) h hs hst hnf (i := 0) (o := 8) (by decide) (by decide) (by decide)).trans
      (by simp [lastStored])
  · exact ((cow_faults_partial bigC_valid (Or.inl rfl) h hs hst hnf (by decide)).2 5).2

/-- `conc_zmalloc_view`: right after a zmalloc returns. -/
example : ∃ s s' p, CReach bigC true s ∧ CStep bigC true s (.returned 5 .zero p) s' ∧ s'.mem.read 4096 (cpuAddr bigC p 0 + 4000) = 0#8 := by
  obtain ⟨s0, h0, hc0, hl0⟩ := calm_init true
  obtain ⟨s1, s2, q, h1, hs1, hl1, hc2⟩ := calm_alloc bigC_valid bigC_safe h0 hc0 (by decide) 5 .zero (by decide)
  exact ⟨s1, s2, q, h1, hs1, conc_zmalloc_view bigC_valid bigC_safe h1 hs1 (.nil _) (fun t e => by cases e) (by decide) (by decide)⟩

/-- `conc_op_bounded` and `conc_can_step`. -/
example : ∃ s', OwnSteps raceC false 0 waitS 1 s' ∧ 1 ≤ opBound raceC := by
  have hs : OwnSteps raceC false 0 waitS 1 _ := .own ⟨by show TSt.inAlloc _ _ ≠ _; simp, by show TSt.inAlloc _ _ ≠ _; simp⟩
    (CStep.take 0 .zero (raceRange 8) 0 8192 ⟨[raceRange 8], 0, 1⟩ (raceRange 8) 0 8192
      { pool := ⟨[raceRange 8], 0, 1⟩, mem := raceMem1 } rfl rfl) (Or.inl (by show TSt.filling _ _ _ ≠ TSt.inAlloc _ _; simp)) (.nil _)
  exact ⟨_, hs, conc_op_bounded raceC_valid wait_reach hs⟩
example : ∃ u, u ≠ 1 ∧ waitS.lock = some u := by
  rcases conc_can_step raceC_valid (Or.inl rfl) wait_reach (t := 1)
    ⟨by show TSt.wantAlloc _ ≠ _; simp, by show TSt.wantAlloc _ ≠ _; simp⟩ with _ | ⟨u, hu, hl, _⟩
  · exact ⟨0, by decide, rfl⟩
  · exact ⟨u, hu, hl⟩

end Verif.PoolConc

namespace Verif.PoolSet
open Verif Verif.Mem Verif.Mempool

attribute [local instance] le64

/-- `set_one_per_size`: a pool of 16-byte items can only be in entry 4. -/
example : ∃ st e1, SReach 4096 st ∧ st.set 4 = some e1 ∧ ∀ o e, st.set o = some e → e.c.itemLen = 16 → o = 4 := by
  obtain ⟨st, e1, e2, h, s1, s2, c1, c2, r1, r2, henv⟩ := ex_set
  exact ⟨st, e1, h, s1, fun o e he hl => set_one_per_size h o 4 e e1 he s1 (by rw [hl, c1]; rfl)⟩

/-- `set_malloc_init_partial` and `set_malloc_init_repaired`, with 12 bytes of 7. -/
example : ∃ st envs o p t' m' e, SReach 4096 st ∧ percpuMallocInit (fun _ => 7#8) 12#64 envs st.table st.mem = .ok (.ptr o p, t', m') ∧
    st.set o = some e ∧ ¬ ∀ cpu, cpu < e.c.ncpu → ∀ i, i < 12 → m'.read 4096 (cpuAddr e.c p cpu + i) = 7#8 := by
  obtain ⟨st, e1, e2, h, s1, s2, c1, c2, r1, r2, henv⟩ := ex_set
  have l1 : e1.c.itemLen = 16 := by rw [c1]; rfl
  obtain ⟨o, p, t', m', hm⟩ := (set_malloc_succeeds_iff h henv true (some fun _ => 7#8) 12#64).1.2
    ⟨4, e1, s1, by unfold Fits; rw [l1]; decide, r1⟩
  obtain ⟨e, a1, _, a3⟩ := set_malloc_init_partial h henv _ _ _ _ _ _ hm
  refine ⟨st, _, o, p, t', m', e, h, hm, a1, fun hn => ?_⟩
  have := a3.1 hn 0 (by decide)
  exact absurd this (by decide)
example : ∃ st envs o p t' m' e, SReach 4096 st ∧ setMalloc false (some fun _ => 7#8) 12#64 envs st.table st.mem = .ok (.ptr o p, t', m') ∧
    st.set o = some e ∧ ∀ cpu, cpu < e.c.ncpu → m'.read 4096 (cpuAddr e.c p cpu + 11) = 7#8 := by
  obtain ⟨st, e1, e2, h, s1, s2, c1, c2, r1, r2, henv⟩ := ex_set
  have l1 : e1.c.itemLen = 16 := by rw [c1]; rfl
  obtain ⟨o, p, t', m', hm⟩ := (set_malloc_succeeds_iff h henv false (some fun _ => 7#8) 12#64).1.2
    ⟨4, e1, s1, by unfold Fits; rw [l1]; decide, r1⟩
  obtain ⟨e, a1, _, a3⟩ := set_malloc_init_repaired h henv _ _ _ _ _ _ hm
  exact ⟨st, _, o, p, t', m', e, h, hm, a1, fun cpu hcpu => a3 cpu hcpu 11 (by decide)⟩

/-- `set_destroy_spec`: three pools, all destroyed. -/
example : (setDestroy (fun _ => 0) (fun o => if o = 3 ∨ o = 5 ∨ o = 9 then some (exZero, ⟨[], 0, 0⟩) else none)).1 = 0 := by
  have := (set_destroy_spec (fun _ => 0) (fun o => if o = 3 ∨ o = 5 ∨ o = 9 then some (exZero, ⟨[], 0, 0⟩) else none) (by
    intro o ho
    have h1 : minEntry = 3 := by decide
    have h2 : 8 * wb = 64 := by decide
    rw [if_neg (by omega)])).2.2.2 (fun _ _ => rfl)
  rw [this]

/-- `conc_set_safe`, `conc_set_pools`, `conc_set_bounded`: the execution of `ex_exec`, in which a call fails. -/
example : ∃ σ ℓ c, Exec 4096 σ ℓ 10 ∧ Spans σ 1 c 1 10 (.null .ENOMEM) ∧ (σ 10).thr 1 ≠ .crashed ∧
    ownSteps ℓ 1 1 10 ≤ 2 * (64 - minOrder c.len) + 1 ∧
    ∀ o1 o2 e1 e2, (σ 10).st.set o1 = some e1 → (σ 10).st.set o2 = some e2 → e1.c.itemLen = e2.c.itemLen → o1 = o2 := by
  obtain ⟨σ, ℓ, c, _, _, h, hs, _⟩ := ex_exec
  exact ⟨σ, ℓ, c, h, hs, (conc_set_safe h 10 (by decide) 1).1, conc_set_bounded h (by decide) (by decide) hs.start hs.run,
    (conc_set_pools h 10 (by decide)).2.1⟩

/-- `conc_set_solo`: a call of 12 bytes on the two pools of `ex_set`. -/
example : ∃ s s' r t' m', SReach 4096 s.st ∧ setMalloc true none 12#64 (fun _ => { base := none }) s.st.table s.st.mem = .ok (r, t', m') ∧
    Solo 4096 3 s s' ∧ s'.thr 3 = .done ⟨true, none, 12#64⟩ r := by
  obtain ⟨st, e1, e2, h, s1, s2, c1, c2, r1, r2, henv⟩ := ex_set
  let s : CSt := ⟨st, fun t => if t = 3 then .search ⟨true, none, 12#64⟩ (minOrder 12#64) else .idle⟩
  obtain ⟨s', r, t', m', e, hsolo, hd, _⟩ := conc_set_solo (s := s) h henv (t := 3) (c := ⟨true, none, 12#64⟩) rfl
  exact ⟨s, s', r, t', m', h, e, hsolo, hd⟩

/-- `conc_set_disjoint`: two pools with live items. -/
example : ∃ (st : SState) (e1 e2 : Entry) (p q : Nat), SReach 4096 st ∧ e1.c = exRobust ∧ e2.c = exZero ∧ p ∈ e1.live ∧ q ∈ e2.live ∧
    cpuAddr e1.c p 0 + 9 ≠ cpuAddr e2.c q 1 + 5 := by
  obtain ⟨w, e1, e2, hw, he, c1, c2, l1, l2⟩ := ex_two_live
  obtain ⟨p, hp⟩ := List.exists_mem_of_ne_nil _ l1
  obtain ⟨q, hq⟩ := List.exists_mem_of_ne_nil _ l2
  have hr := SReach.create _ hw
  refine ⟨_, e1, e2, p, q, hr, c1, c2, hp, hq, conc_set_disjoint (σ := fun _ => ⟨_, fun _ => .idle⟩) (ℓ := fun _ => .call 0) (n := 0)
    ⟨hr, fun _ => rfl, fun i hi => absurd hi (by omega)⟩ 0 (by omega) e1 e2 ?_ ?_ p q hp hq 0 1 (by rw [c1]; decide)
    (by rw [c2]; decide) (fun e => ?_) 9 5 (by rw [c1]; decide) (by rw [c2]; decide)⟩
  · show e1 ∈ w.entries ++ _
    simp [he]
  · show e2 ∈ w.entries ++ _
    simp [he]
  · injection e with _ e
    injection e with _ e
    cases e

/-- `conc_set_enomem_moment_partial`. -/
example : ∃ σ ℓ c e', Exec 4096 σ ℓ 4 ∧ Spans σ 1 c 1 4 (.null .ENOMEM) ∧ (σ 4).st.set 12 = some e' ∧ AllUsed e' := by
  obtain ⟨σ, ℓ, c, e, h, hs, h1, h2, h3, h4⟩ := ex_exec_quiet
  obtain ⟨e', a, b⟩ := conc_set_enomem_moment_partial h (by omega) hs h1 h2 12 e h3 h4
  exact ⟨σ, ℓ, c, e', h, hs, a, b⟩

end Verif.PoolSet
