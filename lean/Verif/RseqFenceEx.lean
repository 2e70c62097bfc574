import Verif.RseqFenceProps
import Verif.RseqSolo
/-
Executions for C62: the test's protocol runs, and without the barrier the "inactive" list is modified.
-/

namespace Verif.Rseq

/-- The pointer at 0x1000, per-CPU heads in strides of 64 bytes from 0x2000 (list b) and 0x3000 (list a), the
nodes at 0x5000 and 0x6000; CPUs 3 and 4. -/
def exLists : TwoLists 8 where
  ptr := 0x1000#64
  base b := if b = true then 0x2000#64 else 0x3000#64
  off c := c.setWidth 64 * 64#64
  node b c := (if b = true then 0x5000#64 else 0x6000#64) + c.setWidth 64 * 16#64
  cpus c := c = 3#32 ∨ c = 4#32

theorem inWord8 {a x : W 8} : InWord a x ↔ (x - a).toNat < 8 := Iff.rfl

theorem exLists_ok : exLists.OK where
  ptr_node := by
    intro b c x hc h1 h2
    rcases hc with rfl | rfl <;> cases b <;> simp [exLists, inWord8] at h1 h2 <;> bv_omega
  head_node := by
    intro b c b' c' x hc hc' h1 h2
    rcases hc with rfl | rfl <;> rcases hc' with rfl | rfl <;> cases b <;> cases b' <;>
      simp [exLists, inWord8] at h1 h2 <;> bv_omega
  node_node := by
    intro b c b' c' x hc hc' hne h1 h2
    rcases hc with rfl | rfl <;> rcases hc' with rfl | rfl <;> cases b <;> cases b' <;>
      simp at hne <;> simp [exLists, inWord8] at h1 h2 <;> bv_omega

/-- List a active, heads set, counters zero. -/
def exTwoMem : Mem 8 :=
  stw false (stw false (stw false (stw false (stw false (fun _ => 0#8) 0x1000#64 0x3000#64)
    0x20c0#64 0x5030#64) 0x2100#64 0x5040#64) 0x30c0#64 0x6030#64) 0x3100#64 0x6040#64

theorem exListMem_holds : exLists.Holds false exTwoMem where
  heads := by
    intro b c hc
    rcases hc with rfl | rfl <;> cases b <;> decide +kernel
  active := ⟨false, by decide +kernel⟩

def exDeref : Op 8 := .addLoadLoadAddStore 0x1000#64 0xc0#64 1#64

/-- The only site. -/
def exDerefSite : Site 8 where
  arch := .x86_64
  kind := .addLoadLoadAddStore
  rel := false
  be := false
  al := exAl
  csa := 0x8000#64
  prog := x86_64_addLoadLoadAddStore exAl false 0x8000#64
  ok := rfl

abbrev exT : Nat → Site 8 := fun _ => exDerefSite

theorem exWorker {m : Mem 8} : exLists.Worker exT false .cpuId (frame0 0 .cpuId 3#32 exDeref m) :=
  ⟨⟨1#64, rfl⟩, .inl rfl, rfl, rfl⟩

/-- Events that are neither calls nor other code are nice. -/
theorem nice_of {L : TwoLists n} {T : Nat → Site n} {be : Bool} {fl : Fld} {e : Ev n}
    (h1 : ∀ f, e.lab ≠ .invoke f) (h2 : e.lab ≠ .user) : L.Nice T be fl e :=
  ⟨fun f h => absurd h (h1 f), fun h => absurd h h2, fun h => absurd h h2, fun h => absurd h h2⟩

/-- The manager's store of `&list_b`. -/
theorem nice_switch {T : Nat → Site 8} {fl : Fld} {s s' : State 8} {t : Nat}
    (h : s'.mem = stw false s.mem 0x1000#64 0x2000#64) : exLists.Nice T false fl ⟨s, t, .user, s'⟩ where
  call := by intro f h; cases h
  heads := by
    intro _ b c a hc ha
    show s'.mem a = s.mem a
    rw [h]
    refine stw_other _ _ _ _ _ fun h1 => ?_
    rcases hc with rfl | rfl <;> cases b <;> simp [exLists, inWord8] at h1 ha <;> bv_omega
  nodes := by
    intro _ b c a hc ha
    show s'.mem a = s.mem a
    rw [h]
    exact stw_other _ _ _ _ _ fun h1 => exLists_ok.ptr_node b c a hc h1 ha
  ptr := by
    intro _
    refine ⟨true, ?_⟩
    show ldw false s'.mem 0x1000#64 = 0x2000#64
    rw [h, ldw_stw_same]

/-- A worker's instruction does not change the pointer. -/
theorem exec_keeps_ptr (hn : 4 ≤ n) {L : TwoLists n} {T : Nat → Site n} {be : Bool} {fl : Fld} {m0 : Mem n}
    (hL : L.OK) (hm : L.Holds be m0) {s s' : State n} {es : List (Ev n)} (h : Run T (init m0) es s)
    (hN : ∀ e ∈ es, L.Nice T be fl e) {t : Nat} (hs : Step T s t .exec s') :
    ldw be s'.mem L.ptr = ldw be s.mem L.ptr := by
  obtain ⟨-, i2, i3⟩ := lists_hold hn hL hm h hN
  refine ldw_agree fun x hx => ?_
  apply Decidable.byContradiction
  intro hc
  obtain ⟨f, i, hf, -⟩ := race_store_confined hn (h.reach .init) hs hc
  have hw := (i3 t).1 f hf
  obtain ⟨b, hb⟩ := worker_store hn h i2 hf hw hs hc
  exact hL.ptr_node b _ x hw.2.1 hx hb

/-- Thread 0 gets CPU 3 and registers. -/
theorem ex_start (m0 : Mem 8) : ∃ es, Run exT (init m0) es (st1 m0 true 3#32 1#32) ∧
    ∀ e ∈ es, exLists.Nice exT false .cpuId e := by
  have h1 : Run exT (init m0) _ (st1 m0 false 3#32 1#32) := Run.nil.cons
    (Step.resume (t := 0) 3#32 1#32 rfl (by intro u _ h; simp [thread0] at h))
  have e : (st1 m0 false 3#32 1#32 : State 8).set 0 { (st1 m0 false 3#32 1#32 : State 8).th 0 with
      reg := true, cpuId := ((st1 m0 false 3#32 1#32 : State 8).th 0).kcpu,
      mmCid := ((st1 m0 false 3#32 1#32 : State 8).th 0).kcid } = st1 m0 true 3#32 1#32 := by
    simp only [State.set, st1, th1]
    congr 1
    funext u
    unfold upd
    split <;> simp
  have h2 := h1.cons
    (Step.register (t := 0) (by simp [st1, upd, th1]) (by simp [st1, upd, th1, thread0])
      (by simp [st1, upd, th1, thread0]) (by simp [st1, upd, th1]))
  rw [e] at h2
  refine ⟨_, h2, ?_⟩
  intro e he
  simp only [List.mem_cons, List.not_mem_nil, or_false] at he
  rcases he with rfl | rfl <;> exact nice_of (by simp) (by simp)

/-- The counter of CPU 3 in list `b`. -/
def ctr (b : Bool) (s : State 8) : W 8 := ldw false s.mem (exLists.node b 3#32)

/-- A worker's call by thread 0, registered on CPU 3. -/
theorem ex_worker {s0 s : State 8} {es0 es : List (Ev 8)} {P : W 8}
    (h0 : Run exT (init exTwoMem) es0 s0) (hN0 : ∀ e ∈ es0, exLists.Nice exT false .cpuId e)
    (h : Run exT s0 es s) (hN : ∀ e ∈ es, exLists.Nice exT false .cpuId e ∧
      ldw false e.s.mem 0x1000#64 = P) (hP : ldw false s.mem 0x1000#64 = P)
    (hr : (s.th 0).run = true) (htop : (s.th 0).top = none) (hreg : (s.th 0).reg = true)
    (hc : (s.th 0).cpuId = 3#32) :
    ∃ s' es', Run exT s0 es' s' ∧ (∀ e ∈ es', exLists.Nice exT false .cpuId e ∧
      ldw false e.s.mem 0x1000#64 = P) ∧ ldw false s'.mem 0x1000#64 = P ∧
      (∃ cs, s'.th = upd s.th 0 { s.th 0 with cs := cs }) ∧ s'.mem = (pseudo false exDeref s.mem).2 := by
  have keep : ∀ s s' : State 8, (∃ es, Run exT s0 es s ∧ (∀ e ∈ es, exLists.Nice exT false .cpuId e ∧
      ldw false e.s.mem 0x1000#64 = P) ∧ ldw false s.mem 0x1000#64 = P) → ∀ lab, Step exT s 0 lab s' →
      ((∃ m, lab = .invoke (frame0 0 .cpuId 3#32 exDeref m)) ∨ lab = .exec ∨ lab = .ret) →
      ∃ es, Run exT s0 es s' ∧ (∀ e ∈ es, exLists.Nice exT false .cpuId e ∧
      ldw false e.s.mem 0x1000#64 = P) ∧ ldw false s'.mem 0x1000#64 = P := by
    rintro s s' ⟨es, h1, h2, h3⟩ lab hs hl
    refine ⟨_, h1.cons hs, ?_, ?_⟩
    · intro e he
      rcases List.mem_cons.1 he with rfl | he
      · refine ⟨?_, h3⟩
        rcases hl with ⟨m, rfl⟩ | rfl | rfl
        · exact ⟨fun f hf => (by injection hf with hf; rw [← hf]; exact exWorker), (fun h => by cases h),
            (fun h => by cases h), (fun h => by cases h)⟩
        · exact nice_of (by simp) (by simp)
        · exact nice_of (by simp) (by simp)
      · exact h2 e he
    · rcases hl with ⟨m, rfl⟩ | rfl | rfl
      · rw [hs.mem_same (by simp) (by simp)]; exact h3
      · have hh := h0.trans h1
        have := exec_keeps_ptr (fl := .cpuId) (by decide) exLists_ok exListMem_holds hh (by
          intro e he
          rcases List.mem_append.1 he with he | he
          · exact (h2 e he).1
          · exact hN0 e he) hs
        rw [← h3]; exact this
      · rw [hs.mem_same (by simp) (by simp)]; exact h3
  obtain ⟨s', cs, ⟨es', a1, a2, a3⟩, b1, b2⟩ := alone_call (T := exT) (n := 8) (by decide) (t := 0) (s := s)
    (P := fun s => ∃ es, Run exT s0 es s ∧ (∀ e ∈ es, exLists.Nice exT false .cpuId e ∧
      ldw false e.s.mem 0x1000#64 = P) ∧ ldw false s.mem 0x1000#64 = P)
    (Q := fun s => ∃ es, Run exT s0 es s ∧ (∀ e ∈ es, exLists.Nice exT false .cpuId e ∧
      ldw false e.s.mem 0x1000#64 = P) ∧ ldw false s.mem 0x1000#64 = P)
    0 .cpuId 3#32 exDeref rfl rfl trivial trivial hr htop hreg 0 (pseudo false exDeref s.mem).2
    (by rw [if_pos (by exact hc)]; rfl)
    (fun s' hs => keep s s' ⟨es, h, hN, hP⟩ _ hs (.inl ⟨_, rfl⟩))
    (fun s s' hs h => keep s s' hs _ h (.inr (.inl rfl)))
    (fun s s' f hs _ _ _ _ _ _ h => keep s s' hs _ h (.inr (.inr rfl)))
  exact ⟨s', es', a1, a2, a3, ⟨cs, b1⟩, b2⟩

/-- Memory after a call, after the switch, and after another call. -/
def exM1 : Mem 8 := (pseudo false exDeref exTwoMem).2
def exM2 : Mem 8 := stw false exM1 0x1000#64 0x2000#64
def exM3 : Mem 8 := (pseudo false exDeref exM2).2

/-- **The protocol runs.**  A worker's call increments list a's counter; the thread switches the pointer and
the barrier interrupts its CPU; the next call increments list b's counter.  All hypotheses of
`inactive_list_stable` hold. -/
theorem ex_barrier : ∃ es0 sb es se es' s, Run exT (init exTwoMem) es0 sb ∧
    BarrierFor exT .cpuId 3#32 sb es se ∧ Run exT se es' s ∧
    (∀ e ∈ es' ++ (es ++ es0), exLists.Nice exT false .cpuId e) ∧
    (∀ e ∈ es' ++ es, ldw false e.s.mem exLists.ptr = exLists.base true) ∧
    ctr false se = 1#64 ∧ ctr true se = 0#64 ∧ ctr false s = 1#64 ∧ ctr true s = 1#64 := by
  obtain ⟨ea, ha, hNa⟩ := ex_start exTwoMem
  obtain ⟨s1, eb, hb, hNb, -, ⟨cs, ht1⟩, hm1⟩ := ex_worker (P := 0x3000#64) ha hNa .nil (by simp)
    (by show ldw false exTwoMem _ = _; decide +kernel) (by simp [st1, upd, th1]) (by simp [st1, upd, th1, thread0])
    (by simp [st1, upd, th1]) (by simp [st1, upd, th1])
  have hm1 : s1.mem = exM1 := hm1
  have hr1 : (s1.th 0).run = true := by rw [ht1]; simp [st1, upd, th1]
  have htop1 : (s1.th 0).top = none := by rw [ht1]; simp [st1, upd, th1, thread0]
  have hreg1 : (s1.th 0).reg = true := by rw [ht1]; simp [st1, upd, th1]
  have ho1 : ∀ u, u ≠ 0 → (s1.th u).run = false := by
    intro u hu; rw [ht1]; simp [st1, upd, hu, thread0]
  -- the switch
  obtain ⟨sb, hsb, hmb, htb⟩ : ∃ sb : State 8, sb = { s1 with mem := exM2 } ∧ sb.mem = exM2 ∧ sb.th = s1.th :=
    ⟨_, rfl, rfl, rfl⟩
  have stb : Step exT s1 0 .user sb := by rw [hsb]; exact .user _ hr1 htop1
  have h0 := (ha.trans hb).cons stb
  have hN0 : ∀ e ∈ (⟨s1, 0, .user, sb⟩ :: (eb ++ ea) : List (Ev 8)), exLists.Nice exT false .cpuId e := by
    intro e he
    rcases List.mem_cons.1 he with rfl | he
    · exact nice_switch (by rw [hmb, hm1]; rfl)
    · rcases List.mem_append.1 he with he | he
      · exact (hNb e he).1
      · exact hNa e he
  have hPb : ldw false sb.mem 0x1000#64 = 0x2000#64 := by rw [hmb]; decide +kernel
  -- the barrier
  obtain ⟨x, hx, hmx, htx⟩ : ∃ x : State 8, x = sb.set 0 { sb.th 0 with run := false } ∧ x.mem = sb.mem ∧
      x.th 0 = { sb.th 0 with run := false } := ⟨_, rfl, rfl, by simp [State.set, upd]⟩
  have stx : Step exT sb 0 .preempt x := by rw [hx]; exact .preempt (by rw [htb]; exact hr1)
  have hox : ∀ u, (x.th u).run = false := by
    intro u
    by_cases hu : u = 0
    · subst hu; rw [htx]
    · rw [stx.other (Ne.symm hu), htb]; exact ho1 u hu
  have ste : Step exT x 0 .resume _ := .resume 3#32 1#32 (hox 0) (by
    intro u _ h; rw [hox u] at h; simp at h)
  obtain ⟨se, hse, hme, he1, he2, he3, he4⟩ : ∃ se : State 8, se = x.set 0 { x.th 0 with
      run := true, top := fixTop exT (x.th 0), cs := fixCs (x.th 0), kcpu := 3#32, kcid := 1#32
      cpuId := if (x.th 0).reg = true then 3#32 else (x.th 0).cpuId
      mmCid := if (x.th 0).reg = true then 1#32 else (x.th 0).mmCid
      ev := (x.th 0).ev + 1 } ∧ se.mem = x.mem ∧ (se.th 0).run = true ∧ (se.th 0).top = none ∧
      (se.th 0).reg = true ∧ (se.th 0).cpuId = 3#32 := by
    have q1 : (x.th 0).reg = true := by rw [htx, htb]; exact hreg1
    have q2 : (x.th 0).top = none := by rw [htx, htb]; exact htop1
    refine ⟨_, rfl, rfl, ?_, ?_, ?_, ?_⟩
    · simp [State.set, upd]
    · simp [State.set, upd, fixTop, q2]
    · simp [State.set, upd, q1]
    · simp [State.set, upd, q1]
  rw [← hse] at ste
  have hbar : BarrierFor exT .cpuId 3#32 sb [⟨x, 0, .resume, se⟩, ⟨sb, 0, .preempt, x⟩] se :=
    ⟨[⟨sb, 0, .preempt, x⟩], x, [⟨x, 0, .resume, se⟩], rfl, Run.nil.cons stx, Run.nil.cons ste, by
      intro t ht; rw [hox t] at ht; simp at ht⟩
  have hNbar : ∀ e ∈ ([⟨x, 0, .resume, se⟩, ⟨sb, 0, .preempt, x⟩] : List (Ev 8)),
      exLists.Nice exT false .cpuId e ∧ ldw false e.s.mem 0x1000#64 = 0x2000#64 := by
    intro e he
    simp only [List.mem_cons, List.not_mem_nil, or_false] at he
    rcases he with rfl | rfl
    · exact ⟨nice_of (by simp) (by simp), by show ldw false x.mem _ = _; rw [hmx]; exact hPb⟩
    · exact ⟨nice_of (by simp) (by simp), hPb⟩
  obtain ⟨s2, ec, hc, hNc, -, -, hm2⟩ := ex_worker (P := 0x2000#64) (h0.trans hbar.run) (by
      intro e he
      rcases List.mem_append.1 he with he | he
      · exact (hNbar e he).1
      · exact hN0 e he) .nil (by simp) (by rw [hme, hmx]; exact hPb) he1 he2 he3 he4
  have hm2 : s2.mem = exM3 := by rw [hm2, hme, hmx, hmb]; rfl
  refine ⟨_, sb, _, se, ec, s2, h0, hbar, hc, ?_, ?_, ?_, ?_, ?_, ?_⟩
  · intro e he
    rcases List.mem_append.1 he with he | he
    · exact (hNc e he).1
    · rcases List.mem_append.1 he with he | he
      · exact (hNbar e he).1
      · exact hN0 e he
  · intro e he
    rcases List.mem_append.1 he with he | he
    · exact (hNc e he).2
    · exact (hNbar e he).2
  · unfold ctr; rw [hme, hmx, hmb]; decide +kernel
  · unfold ctr; rw [hme, hmx, hmb]; decide +kernel
  · unfold ctr; rw [hm2]; decide +kernel
  · unfold ctr; rw [hm2]; decide +kernel

/-- Registers of a worker just before the final addition, and what the addition does. -/
def exL6 : LSt 8 := (run exDerefSite.prog 3#32 6 (entry exInv exDeref 3#32, exTwoMem)).1
def exM6 : Mem 8 := (run exDerefSite.prog 3#32 6 (entry exInv exDeref 3#32, exTwoMem)).2

/-- **The barrier is needed.**  All threads act as in the test; thread 1 switches the pointer while thread 0
is about to execute its final addition; without the barrier the inactive list changes. -/
theorem ex_no_barrier : ∃ es0 sb e s, Run exT (init exTwoMem) es0 sb ∧ Run exT sb [e] s ∧
    (∀ e' ∈ e :: es0, exLists.Nice exT false .cpuId e') ∧
    ldw false sb.mem exLists.ptr = exLists.base true ∧ ctr false sb = 0#64 ∧ ctr false s = 1#64 := by
  obtain ⟨ea, ha, hNa⟩ := ex_start exTwoMem
  have hb : Step exT (st1 exTwoMem true 3#32 1#32) 0 (.invoke (frame0 0 .cpuId 3#32 exDeref exTwoMem))
      ((st1 exTwoMem true 3#32 1#32).set 0 { (st1 exTwoMem true 3#32 1#32 : State 8).th 0 with
        top := some (frame0 0 .cpuId 3#32 exDeref exTwoMem) }) := by
    refine .invoke _ ?_ ?_ ⟨rfl, rfl, rfl, rfl, rfl, entry_setup (by decide) .x86_64 exDeref 3#32, trivial,
      trivial⟩ ?_
    · simp [st1, upd, th1]
    · simp [st1, upd, th1, thread0]
    · intro h; simp [st1, upd, th1] at h
  obtain ⟨s1, f1, cs, ⟨eb, hb1, hN1⟩, ht1, hl1, hpid1, -, -, -, hm1⟩ := solo_rel (T := exT) (t := 0)
    (P := fun s => ∃ es, Run exT (init exTwoMem) es s ∧ ∀ e ∈ es, exLists.Nice exT false .cpuId e)
    (fv := 3#32) (p := exDerefSite.prog)
    (by
      rintro s s' ⟨es, h1, h2⟩ hs
      refine ⟨_, h1.cons hs, fun e he => ?_⟩
      rcases List.mem_cons.1 he with rfl | he
      · exact nice_of (by simp) (by simp)
      · exact h2 e he) 6 _ (frame0 0 .cpuId 3#32 exDeref exTwoMem) exL6 exM6
    ⟨_, ha.cons hb, fun e he => by
      rcases List.mem_cons.1 he with rfl | he
      · exact ⟨fun f hf => (by injection hf with hf; rw [← hf]; exact exWorker), (fun h => by cases h),
          (fun h => by cases h), (fun h => by cases h)⟩
      · exact hNa e he⟩
    (by simp [State.set, upd, st1, th1]) (by simp [State.set, upd]) rfl
    (by simp [State.set, upd, st1, th1, Thread.fv, frame0]) rfl
  -- thread 1 gets CPU 4 and switches the pointer
  have h0 : s1.th 0 = { th1 true 3#32 1#32 with top := some f1, cs := cs } := by
    rw [ht1]; simp [State.set, upd, st1]
  have h1 : s1.th 1 = thread0 := by rw [ht1]; simp [State.set, upd, st1]
  have ho : ∀ u, u ≠ 0 → (s1.th u).run = false := by
    intro u hu; rw [ht1]; simp [State.set, upd, st1, hu, thread0]
  have str : Step exT s1 1 .resume _ := .resume 4#32 2#32 (ho 1 (by decide)) (by
    intro u _ hr
    by_cases hu : u = 0
    · subst hu; rw [h0]; simp [th1]
    · rw [ho u hu] at hr; simp at hr)
  obtain ⟨s2, hs2, hm2, ht2, hr2, htop2⟩ : ∃ s2 : State 8, s2 = s1.set 1 { s1.th 1 with
      run := true, top := fixTop exT (s1.th 1), cs := fixCs (s1.th 1), kcpu := 4#32, kcid := 2#32
      cpuId := if (s1.th 1).reg = true then 4#32 else (s1.th 1).cpuId
      mmCid := if (s1.th 1).reg = true then 2#32 else (s1.th 1).mmCid
      ev := (s1.th 1).ev + 1 } ∧ s2.mem = s1.mem ∧ s2.th 0 = s1.th 0 ∧ (s2.th 1).run = true ∧
      (s2.th 1).top = none := by
    refine ⟨_, rfl, rfl, str.other (by decide), ?_, ?_⟩
    · simp [State.set, upd]
    · simp [State.set, upd, fixTop, h1, thread0]
  rw [← hs2] at str
  obtain ⟨sb, hsb, hmb, htb⟩ : ∃ sb : State 8, sb = { s2 with mem := stw false exM6 0x1000#64 0x2000#64 } ∧
      sb.mem = stw false exM6 0x1000#64 0x2000#64 ∧ sb.th = s2.th := ⟨_, rfl, rfl, rfl⟩
  have stb : Step exT s2 1 .user sb := by rw [hsb]; exact .user _ hr2 htop2
  -- thread 0 executes its final addition
  have htop : (sb.th 0).top = some f1 := by rw [htb, ht2, h0]
  have ste : Step exT sb 0 .exec _ := .exec f1 6 (.addM (exAl .inc) rcx)
    (exec exDerefSite.prog ((sb.th 0).fv f1.fld) 6 (.addM (exAl .inc) rcx) exL6
      (stw false exM6 0x1000#64 0x2000#64)).1
    (exec exDerefSite.prog ((sb.th 0).fv f1.fld) 6 (.addM (exAl .inc) rcx) exL6
      (stw false exM6 0x1000#64 0x2000#64)).2
    (by rw [htb, ht2, h0]; rfl) htop (by rw [hl1]; decide +kernel) rfl (by rw [hl1, hmb])
  refine ⟨_, sb, _, _, (hb1.cons str).cons stb, Run.nil.cons ste, ?_, ?_, ?_, ?_⟩
  · intro e he
    simp only [List.mem_cons] at he
    rcases he with rfl | rfl | rfl | he
    · exact nice_of (by simp) (by simp)
    · exact nice_switch (by rw [hmb, hm2, hm1])
    · exact nice_of (by simp) (by simp)
    · exact hN1 e he
  · rw [hmb]; decide +kernel
  · unfold ctr; rw [hmb]; decide +kernel
  · show ldw false (exec exDerefSite.prog ((sb.th 0).fv f1.fld) 6 (.addM (exAl .inc) rcx) exL6
      (stw false exM6 0x1000#64 0x2000#64)).2 _ = _
    have : ∀ fv, (exec exDerefSite.prog fv 6 (.addM (exAl .inc) rcx) exL6
      (stw false exM6 0x1000#64 0x2000#64)).2 = (exec exDerefSite.prog 0#32 6 (.addM (exAl .inc) rcx) exL6
      (stw false exM6 0x1000#64 0x2000#64)).2 := fun fv => rfl
    rw [this]
    decide +kernel

end Verif.Rseq
