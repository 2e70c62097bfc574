import Verif.RseqFenceCountProps
import Verif.RseqFenceEx
/-
An execution for C95: a call on list a, a switch with its barrier, a call on list b.
-/

namespace Verif.Rseq

/-- The manager's loop so far; only thread 0 acts, its calls add 1, and `k` of them returned 0. -/
def ExM (es : List (Ev 8)) (s : State 8) (p : MPhase 8) (k : Nat) : Prop :=
  Mgr exT exLists false .cpuId 0 exTwoMem es s p ∧ (∀ e ∈ es, e.who = 0) ∧
  (∀ e ∈ es, ∀ f, e.lab = .invoke f → f.op.amount = 1#64) ∧ wins es 0 = k

theorem ExM.step {es : List (Ev 8)} {s s' : State 8} {p : MPhase 8} {k : Nat} {lab : Lab 8}
    (h : ExM es s p k) (hs : Step exT s 0 lab s') (hu : lab ≠ .user)
    (hc : ∀ f, lab = .invoke f → ∃ m, f = frame0 0 .cpuId 3#32 exDeref m) :
    ExM (⟨s, 0, lab, s'⟩ :: es) s' p (k + if Ev.won ⟨s, 0, lab, s'⟩ = true then 1 else 0) := by
  obtain ⟨h1, h2, h3, h4⟩ := h
  refine ⟨h1.step hs ⟨?_, fun h => absurd h hu, fun h => absurd h hu, fun h => absurd h hu⟩
    (fun h => absurd h hu), ?_, ?_, ?_⟩
  · intro f hf
    obtain ⟨m, rfl⟩ := hc f hf
    exact exWorker
  · intro e he
    rcases List.mem_cons.1 he with rfl | he
    · rfl
    · exact h2 e he
  · intro e he
    rcases List.mem_cons.1 he with rfl | he
    · intro f hf
      obtain ⟨m, rfl⟩ := hc f hf
      rfl
    · exact h3 e he
  · simp [wins, List.countP_cons] at h4 ⊢
    rw [h4]

theorem won_not_ret {s s' : State 8} {t : Nat} {lab : Lab 8} (h : lab ≠ .ret) :
    Ev.won ⟨s, t, lab, s'⟩ = false := by
  unfold Ev.won
  dsimp only
  split
  · exact absurd rfl h
  · rfl

theorem ExM.quiet {es : List (Ev 8)} {s s' : State 8} {p : MPhase 8} {k : Nat} {lab : Lab 8}
    (h : ExM es s p k) (hs : Step exT s 0 lab s') (hu : lab ≠ .user) (hr : lab ≠ .ret)
    (hc : ∀ f, lab = .invoke f → ∃ m, f = frame0 0 .cpuId 3#32 exDeref m) :
    ExM (⟨s, 0, lab, s'⟩ :: es) s' p k := by
  have := h.step hs hu hc
  rw [won_not_ret hr] at this
  exact this

/-- A worker's call by thread 0, registered on CPU 3. -/
theorem ExM.call {es : List (Ev 8)} {s : State 8} {p : MPhase 8} {k : Nat} (h : ExM es s p k)
    (hr : (s.th 0).run = true) (htop : (s.th 0).top = none) (hreg : (s.th 0).reg = true)
    (hc : (s.th 0).cpuId = 3#32) :
    ∃ s' es', ExM es' s' p (k + 1) ∧ (∃ cs, s'.th = upd s.th 0 { s.th 0 with cs := cs }) ∧
      s'.mem = (pseudo false exDeref s.mem).2 := by
  obtain ⟨s', cs, ⟨es', a1⟩, b1, b2⟩ := alone_call (T := exT) (n := 8) (by decide) (t := 0) (s := s)
    (P := fun s => ∃ es, ExM es s p k) (Q := fun s => ∃ es, ExM es s p (k + 1))
    0 .cpuId 3#32 exDeref rfl rfl trivial trivial hr htop hreg 0 (pseudo false exDeref s.mem).2
    (by rw [if_pos (by exact hc)]; rfl)
    (fun s' hs => ⟨_, h.quiet hs (by simp) (by simp) fun f hf => ⟨_, by injection hf with hf; exact hf.symm⟩⟩)
    (fun s s' ⟨es, hs⟩ h => ⟨_, hs.quiet h (by simp) (by simp) (by simp)⟩)
    (fun s s' f ⟨es, hs⟩ q1 q2 _ _ _ _ h => by
      have := hs.step h (by simp) (by simp)
      have hw : Ev.won ⟨s, 0, .ret, s'⟩ = true := by
        unfold Ev.won
        dsimp only
        rw [q1]
        simp [q2]
      rw [hw] at this
      exact ⟨_, this⟩)
  exact ⟨s', es', a1, ⟨cs, b1⟩, b2⟩

theorem exTwo_zero : ∀ b c, exLists.cpus c → ldw false exTwoMem (exLists.node b c) = 0#64 := by
  intro b c hc
  rcases hc with rfl | rfl <;> cases b <;> decide +kernel

theorem exTwo_a : ldw false exTwoMem exLists.ptr = exLists.base false := by decide +kernel

/-- **The test runs**: a call on list a, the check, the switch, the barrier, the read, a call on list b; the
manager is about to check list a again, where it expects 1. -/
theorem ex_manager : ∃ es s, ExM es s (.ready true 3#32 1#64) 2 ∧ s.mem = exM3 ∧
    ∀ t, (s.th t).top = none ∧ (s.th t).saved = [] := by
  have z : ExM [] (init exTwoMem) (.ready false 4#32 0#64) 0 :=
    ⟨.start (.inr rfl), by simp, by simp, rfl⟩
  have h1 := z.quiet (Step.resume (t := 0) 3#32 1#32 rfl (by intro u _ h; simp [thread0] at h)) (by simp)
    (by simp) (by simp)
  have h1 : ExM _ (st1 exTwoMem false 3#32 1#32) _ _ := h1
  have e : (st1 exTwoMem false 3#32 1#32 : State 8).set 0 { (st1 exTwoMem false 3#32 1#32 : State 8).th 0 with
      reg := true, cpuId := ((st1 exTwoMem false 3#32 1#32 : State 8).th 0).kcpu,
      mmCid := ((st1 exTwoMem false 3#32 1#32 : State 8).th 0).kcid } = st1 exTwoMem true 3#32 1#32 := by
    simp only [State.set, st1, th1]
    congr 1
    funext u
    unfold upd
    split <;> simp
  have h2 := h1.quiet
    (Step.register (t := 0) (by simp [st1, upd, th1]) (by simp [st1, upd, th1, thread0])
      (by simp [st1, upd, th1, thread0]) (by simp [st1, upd, th1])) (by simp) (by simp) (by simp)
  rw [e] at h2
  obtain ⟨s1, e1, c1, ⟨cs, ht1⟩, hm1⟩ := h2.call (by simp [st1, upd, th1]) (by simp [st1, upd, th1, thread0])
    (by simp [st1, upd, th1]) (by simp [st1, upd, th1])
  have hm1 : s1.mem = exM1 := hm1
  have hr1 : (s1.th 0).run = true := by rw [ht1]; simp [st1, upd, th1]
  have htop1 : (s1.th 0).top = none := by rw [ht1]; simp [st1, upd, th1, thread0]
  have hsv1 : (s1.th 0).saved = [] := by rw [ht1]; simp [st1, upd, th1, thread0]
  have hreg1 : (s1.th 0).reg = true := by rw [ht1]; simp [st1, upd, th1]
  have ho1 : ∀ u, u ≠ 0 → s1.th u = thread0 := by
    intro u hu; rw [ht1]; simp [st1, upd, hu]
  -- the switch
  obtain ⟨sb, hsb, hmb, htb⟩ : ∃ sb : State 8, sb = { s1 with mem := exM2 } ∧ sb.mem = exM2 ∧ sb.th = s1.th :=
    ⟨_, rfl, rfl, rfl⟩
  have stb : Step exT s1 0 .user sb := by rw [hsb]; exact .user _ hr1 htop1
  have c2 := c1.1.switch (c' := 3#32) (by rw [hm1]; decide +kernel) stb
    (nice_switch (by rw [hmb, hm1]; rfl)) (by rw [hmb]; decide +kernel) (.inl rfl)
  -- the barrier
  obtain ⟨x, hx, hmx, htx⟩ : ∃ x : State 8, x = sb.set 0 { sb.th 0 with run := false } ∧ x.mem = sb.mem ∧
      x.th 0 = { sb.th 0 with run := false } := ⟨_, rfl, rfl, by simp [State.set, upd]⟩
  have stx : Step exT sb 0 .preempt x := by rw [hx]; exact .preempt (by rw [htb]; exact hr1)
  have hox : ∀ u, (x.th u).run = false := by
    intro u
    by_cases hu : u = 0
    · subst hu; rw [htx]
    · rw [stx.other (Ne.symm hu), htb, ho1 u hu]; rfl
  have ste : Step exT x 0 .resume _ := .resume 3#32 1#32 (hox 0) (by
    intro u _ h; rw [hox u] at h; simp at h)
  obtain ⟨se, hse, hme, he1, he2, he3, he4, he5⟩ : ∃ se : State 8, se = x.set 0 { x.th 0 with
      run := true, top := fixTop exT (x.th 0), cs := fixCs (x.th 0), kcpu := 3#32, kcid := 1#32
      cpuId := if (x.th 0).reg = true then 3#32 else (x.th 0).cpuId
      mmCid := if (x.th 0).reg = true then 1#32 else (x.th 0).mmCid
      ev := (x.th 0).ev + 1 } ∧ se.mem = x.mem ∧ (se.th 0).run = true ∧ (se.th 0).top = none ∧
      (se.th 0).reg = true ∧ (se.th 0).cpuId = 3#32 ∧ (se.th 0).saved = [] := by
    have q1 : (x.th 0).reg = true := by rw [htx, htb]; exact hreg1
    have q2 : (x.th 0).top = none := by rw [htx, htb]; exact htop1
    have q3 : (x.th 0).saved = [] := by rw [htx, htb]; exact hsv1
    refine ⟨_, rfl, rfl, ?_, ?_, ?_, ?_, ?_⟩
    · simp [State.set, upd]
    · simp [State.set, upd, fixTop, q2]
    · simp [State.set, upd, q1]
    · simp [State.set, upd, q1]
    · simp [State.set, upd, q3]
  rw [← hse] at ste
  have hbar : BarrierFor exT .cpuId 3#32 sb [⟨x, 0, .resume, se⟩, ⟨sb, 0, .preempt, x⟩] se :=
    ⟨[⟨sb, 0, .preempt, x⟩], x, [⟨x, 0, .resume, se⟩], rfl, Run.nil.cons stx, Run.nil.cons ste, by
      intro t ht; rw [hox t] at ht; simp at ht⟩
  have c3 := (c2.fence hbar (by
      intro e he
      simp only [List.mem_cons, List.not_mem_nil, or_false] at he
      rcases he with rfl | rfl <;> exact nice_of (by simp) (by simp)) (by
      intro e he
      simp only [List.mem_cons, List.not_mem_nil, or_false] at he
      rcases he with rfl | rfl <;> simp)).read
  have hv : ldw false se.mem (exLists.node (!true) 3#32) = 1#64 := by
    rw [hme, hmx, hmb]; decide +kernel
  have c4 : ExM ([⟨x, 0, .resume, se⟩, ⟨sb, 0, .preempt, x⟩] ++ ⟨s1, 0, .user, sb⟩ :: e1) se
      (.ready true 3#32 1#64) 1 := by
    refine ⟨by rw [← hv]; exact c3, ?_, ?_, ?_⟩
    · intro e he
      simp only [List.cons_append, List.nil_append, List.mem_cons] at he
      rcases he with rfl | rfl | rfl | he
      · rfl
      · rfl
      · rfl
      · exact c1.2.1 e he
    · intro e he
      simp only [List.cons_append, List.nil_append, List.mem_cons] at he
      rcases he with rfl | rfl | rfl | he
      · simp
      · simp
      · simp
      · exact c1.2.2.1 e he
    · have := c1.2.2.2
      simp only [wins, List.cons_append, List.nil_append, List.countP_cons, won_not_ret (lab := .resume) (by simp),
        won_not_ret (lab := .preempt) (by simp), won_not_ret (lab := .user) (by simp)] at this ⊢
      simpa using this
  obtain ⟨s2, e2, c5, ⟨cs2, ht2⟩, hm2⟩ := c4.call he1 he2 he3 he4
  refine ⟨e2, s2, c5, by rw [hm2, hme, hmx, hmb]; rfl, fun t => ?_⟩
  rw [ht2]
  by_cases ht : t = 0
  · subst ht; simp [upd, he2, he5]
  · have : se.th t = thread0 := by
      rw [ste.other (Ne.symm ht), stx.other (Ne.symm ht), htb, ho1 t ht]
    simp [upd, ht, this, thread0]

/-- All hypotheses of the theorems of C95 hold in this execution; both lists have counted one increment. -/
example : ∃ es s, Mgr exT exLists false .cpuId 0 exTwoMem es s (.ready true 3#32 1#64) ∧
    ldw false s.mem (exLists.node (!true) 3#32) = 1#64 ∧
    exLists.total false [3#32, 4#32] s.mem = BitVec.ofNat (8 * 8) (1 * 2) ∧
    exLists.total false [3#32, 4#32] s.mem = 2#64 ∧
    exLists.total false [3#32, 4#32] s.mem = exLists.total false [3#32, 4#32] exTwoMem + lsum Ev.credit es +
      tsum (fun t => dpend (s.th t)) 2 := by
  obtain ⟨es, s, ⟨h1, h2, h3, h4⟩, hm, hq⟩ := ex_manager
  obtain ⟨r1, r2, -⟩ := h1.inv (by decide) exLists_ok exListMem_holds exTwo_a exTwo_zero
  have hcp : ∀ c, exLists.cpus c ↔ c ∈ [3#32, 4#32] := by intro c; simp [exLists]
  refine ⟨es, s, h1, membarrier_test_passes (by decide) exLists_ok exListMem_holds exTwo_a exTwo_zero h1, ?_, ?_, ?_⟩
  · refine membarrier_total (threads := 1) (reps := 2) (by decide) exLists_ok exListMem_holds (by decide) hcp
      exTwo_zero r1 r2 (fun e he => by rw [h2 e he]; decide) h3 ?_ ?_ fun t _ => hq t
    · intro t ht
      obtain rfl : t = 0 := by omega
      exact h4
    · unfold wins
      rw [List.countP_eq_zero]
      intro e he
      rw [h2 e he]; simp
  · rw [hm]; decide +kernel
  · exact lists_count_exact (by decide) exLists_ok exListMem_holds (by decide) hcp r1 r2
      fun e he => by rw [h2 e he]; decide

end Verif.Rseq
