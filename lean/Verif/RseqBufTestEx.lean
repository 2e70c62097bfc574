import Verif.RseqBufTestProps
import Verif.RseqBufEx
/-
Executions of the buffer tests that meet the hypotheses of the theorems of `RseqBufTestProps.lean`: one thread pops the
pointer 0x11 on CPU 3 and pushes it on CPU 4.
-/

namespace Verif.Rseq

abbrev exTReach := TestReach bufSites exB exBufMem exBufs 1

/-- A state in which the thread is about to return 0 from a call of `op`. -/
def ExReturns (op : Op 8) (G : Bufs 8) (H : Hold) : Prop :=
  ∃ a f, exTReach a G H ∧ frameAt (a.th 0) 0 = some f ∧ f.l.pc = .ret 0 ∧ f.op = op

/-- One call by the thread of the test, outside of signal handlers. -/
theorem ex_test_call {s : State 8} {G : Bufs 8} {H : Hold} (h : exTReach s G H) (c : BitVec 32) (pid : Nat)
    (op : Op 8) (hkind : (bufSites pid).kind = op.kind) (hcall : CallOK (bufSites pid).arch exAl op)
    (htidy : Tidy op)
    (hop : BufCall exB G 0 0 (frame0 pid .cpuId c op s.mem))
    (hte : TestCall exB 1 H s 0 (frame0 pid .cpuId c op s.mem)) (m' : Mem 8)
    (hres : (0, m') = pseudo false op s.mem) (hr : (s.th 0).run = true)
    (htop : (s.th 0).top = none) (hsv : (s.th 0).saved = []) (hreg : (s.th 0).reg = true)
    (hid : (s.th 0).cpuId = c) :
    ∃ s' cs, (∃ G' H', G' = bufOp (G.start 0 0 (itemOf exB s.mem (frame0 pid .cpuId c op s.mem))) 0 0
        (frame0 pid .cpuId c op s.mem) ∧
        H' = upd H 0 (if isPush (frame0 pid .cpuId c op s.mem) then none else G'.got 0 0) ∧
        exTReach s' G' H' ∧ ExReturns op G' H') ∧
      s'.th = upd s.th 0 { s.th 0 with cs := cs } ∧ s'.mem = m' := by
  have hal : (bufSites pid).al = exAl := by
    unfold bufSites
    split
    · rfl
    · split <;> rfl
  obtain ⟨G1, hG1⟩ : ∃ G1, G1 = G.start 0 0 (itemOf exB s.mem (frame0 pid .cpuId c op s.mem)) := ⟨_, rfl⟩
  rw [← hG1]
  obtain ⟨G2, hG2⟩ : ∃ G2, G2 = bufOp G1 0 0 (frame0 pid .cpuId c op s.mem) := ⟨_, rfl⟩
  rw [← hG2]
  obtain ⟨H2, hH2⟩ : ∃ H2, H2 = upd H 0 (if isPush (frame0 pid .cpuId c op s.mem) then none else G2.got 0 0) :=
    ⟨_, rfl⟩
  suffices hh : ∃ s' cs, (exTReach s' G2 H2 ∧ ExReturns op G2 H2) ∧
      s'.th = upd s.th 0 { s.th 0 with cs := cs } ∧ s'.mem = m' by
    obtain ⟨s', cs, q1, q2⟩ := hh
    exact ⟨s', cs, ⟨G2, H2, rfl, hH2, q1⟩, q2⟩
  refine alone_call (T := bufSites)
    (P := fun s1 => ∃ f, (s1.th 0).top = some f ∧ (s1.th 0).saved = [] ∧ f.op = op ∧ f.cpu = c ∧
      ((f.commits = 0 ∧ exTReach s1 G1 H) ∨ (f.commits = 1 ∧ exTReach s1 G2 H2)))
    (t := 0) (s := s) (by decide) pid .cpuId c op hkind hal (by rw [hal]; exact hcall) htidy hr htop hreg 0 m'
    (by rw [if_pos (show (s.th 0).fv .cpuId = c from hid), bufSites_be]; exact hres) ?_ ?_ ?_
  · intro s' hs
    have hd : (s.th 0).saved.length = 0 := by rw [hsv]; rfl
    have := TestReach.step h hs (fun f hf => by injection hf with hf; subst hf; rw [hd]; exact ⟨hop, hte⟩)
      (fun hf => by simp at hf)
    simp only [bufStep, holdStep, committing, hd] at this
    rw [← hG1] at this
    cases hs with
    | invoke _ _ _ hst =>
      refine ⟨_, by simp only [State.set, updT_same], by simp only [State.set, updT_same]; exact hsv, rfl, rfl,
        .inl ⟨hst.commits, this⟩⟩
  · rintro a b ⟨f, hf, hsa, f1, f2, hor⟩ hs
    have hd : (a.th 0).saved.length = 0 := by rw [hsa]; rfl
    obtain ⟨f', i, g, k1, k2, k3, k4, k5, k6, k7⟩ := exec_top hs
    rw [hf] at k1; injection k1 with k1; subst k1
    have hstep : ∀ G1 H1, exTReach a G1 H1 → exTReach b (bufStep exB bufSites a G1 0 .exec)
        (holdStep bufSites a (bufStep exB bufSites a G1 0 .exec) H1 0 .exec) := fun G1 H1 h1 =>
      TestReach.step h1 hs (fun f hf => by simp at hf) (fun hf => by simp at hf)
    refine ⟨g, k3, k4.trans hsa, k5.trans f1, k6.trans f2, ?_⟩
    rw [k7]
    by_cases hcm : i + 1 = (bufSites f.pid).prog.commit
    · rw [if_pos hcm]
      have hcom := committing_eq (T := bufSites) hf k2 hcm
      rcases hor with ⟨q1, q2⟩ | ⟨q1, q2⟩
      · refine .inr ⟨by rw [q1], ?_⟩
        have heq : bufStep exB bufSites a G1 0 .exec = G2 := by
          rw [hG2]
          simp only [bufStep, hcom, hd]
          unfold bufOp
          rw [f1, f2]
          rfl
        have heqH : holdStep bufSites a G2 H 0 .exec = H2 := by
          rw [hH2]
          simp only [holdStep, hcom]
          rw [isPush_congr (show (frame0 pid .cpuId c op s.mem).op = f.op from f1.symm)]
        have := hstep G1 H q2
        rwa [heq, heqH] at this
      · exfalso
        have hI := (((q2.breach.inv (by decide) bufSites_be exB_ok exBufs_init).reach).reach (by decide)).inv
          (by decide)
        have := (commit_pseudo (by decide) hI hs hcom).2
        omega
    · rw [if_neg hcm]
      have hcn : committing bufSites a 0 .exec = none := by
        cases hx : committing bufSites a 0 .exec with
        | none => rfl
        | some g' =>
          obtain ⟨-, r1, i', r2, r3⟩ := committing_some hx
          rw [hf] at r1; injection r1 with r1; subst r1
          rw [k2] at r2; injection r2 with r2; subst r2
          exact absurd r3 hcm
      have hq : ∀ G1, bufStep exB bufSites a G1 0 .exec = G1 := fun G1 => by simp only [bufStep, hcn]
      have hq2 : ∀ G1 H1, holdStep bufSites a G1 H1 0 .exec = H1 := fun G1 H1 => by simp only [holdStep, hcn]
      rcases hor with ⟨q1, q2⟩ | ⟨q1, q2⟩
      · have := hstep _ _ q2; rw [hq, hq2] at this; exact .inl ⟨q1, this⟩
      · have := hstep _ _ q2; rw [hq, hq2] at this; exact .inr ⟨q1, this⟩
  · rintro a b f ⟨f', hf', hsa, f1, f2, hor⟩ hf hpc hop' hfld hcpu _ hs
    rw [hf] at hf'; injection hf' with hf'; subst hf'
    rcases hor with ⟨q1, q2⟩ | ⟨q1, q2⟩
    · exfalso
      have := (buffer_returns (by decide) bufSites_be exB_ok exBufs_init q2.breach (d := (a.th 0).saved.length)
        (by rw [frameAt_top rfl]; exact hf) hpc).1
      rw [q1] at this; simp at this
    · have := TestReach.step q2 hs (fun f hf => by simp at hf) (fun hf => by simp at hf)
      simp only [bufStep, holdStep, committing] at this
      exact ⟨this, a, f, q2, by rw [frameAt_top (by rw [hsa]; rfl)]; exact hf, hpc, hop'⟩

theorem ex_on_test {s : State 8} {G : Bufs 8} {H : Hold} (h : exTReach s G H) (c : BitVec 32)
    (hoth : ∀ u, u ≠ 0 → (s.th u).run = true → (s.th u).kcpu ≠ c ∧ (s.th u).kcid ≠ c)
    (h0 : s.th 0 = thread0) :
    ∃ s', exTReach s' G H ∧ s'.th = upd s.th 0 (th1 true c c) ∧ s'.mem = s.mem := by
  have h1 := TestReach.step h (Step.resume (t := 0) c c (by rw [h0]; rfl) hoth) (fun f hf => by simp at hf)
    (fun hf => by simp at hf)
  have h2 := TestReach.step h1 (Step.register (t := 0) (by simp [State.set, upd])
    (by simp [State.set, upd, fixTop, h0, thread0]) (by simp [State.set, upd, h0, thread0])
    (by simp [State.set, upd, h0, thread0])) (fun f hf => by simp at hf) (fun hf => by simp at hf)
  refine ⟨_, h2, ?_, rfl⟩
  funext u
  simp only [State.set]
  by_cases e : u = 0
  · subst e; simp [updT_same, th1, thread0, fixTop, fixCs, h0]
  · rw [updT_other _ _ e, updT_other _ _ e, updT_other _ _ e]

/-- The thread has popped the pointer. -/
theorem ex_test_pop : ∃ s G H, exTReach s G H ∧ H 0 = some (wordItem (n := 8) false 0x11#64) ∧
    (∀ t, t ≠ 0 → H t = none) ∧
    s.mem = stw false exBufMem 0x1000#64 0#64 ∧ (s.th 0).run = true ∧ (s.th 0).top = none ∧
    (s.th 0).saved = [] ∧ (s.th 0).reg = true ∧ (∀ u, u ≠ 0 → s.th u = thread0) ∧
    ExReturns (.cbneCbneStore 0x1000#64 1#64 0x2000#64 0x11#64 0#64) G H := by
  have h0 : exTReach _ _ _ := TestReach.init
  obtain ⟨s1, h1, e1, m1⟩ := ex_on_test h0 3#32 (fun u _ h => by simp [thread0] at h) rfl
  have r1 := TestReach.read (c := 3#32) h1 (t := 0) (by simp [e1, upd, th1]) (by simp [e1, upd, th1, thread0])
    (by simp [exB])
  rw [show (s1.th 0).saved.length = 0 by simp [e1, upd, th1, thread0],
    show ldw exB.be s1.mem (exB.offset 3#32) = 1#64 by rw [m1]; decide] at r1
  obtain ⟨s2, cs2, ⟨G2, H2, hG2, hH2, h2, hret⟩, e2, m2⟩ := ex_test_call r1 3#32 1
    (.cbneCbneStore 0x1000#64 1#64 0x2000#64 0x11#64 0#64) rfl trivial trivial
    ⟨rfl, 1#64, by simp [Bufs.read, frame0], .inr (.inl ⟨rfl, by decide, 0x11#64, rfl⟩)⟩
    ⟨by decide, by simp [e1, upd, th1, thread0], rfl⟩
    _ (by simp only [pseudo]; rw [if_neg (by rw [m1]; decide), if_neg (by rw [m1]; decide)])
    (by simp [e1, upd, th1]) (by simp [e1, upd, th1, thread0]) (by simp [e1, upd, th1, thread0])
    (by simp [e1, upd, th1]) (by simp [e1, upd, th1])
  have hg1 : exBufs.buf 3#32 = [wordItem (n := 8) false 0x11#64] := rfl
  refine ⟨s2, _, _, h2, ?_, ?_, by rw [m2, m1], by simp [e2, e1, upd, th1], by simp [e2, e1, upd, th1, thread0],
    by simp [e2, e1, upd, th1, thread0], by simp [e2, e1, upd, th1], fun u hu => ?_, hret⟩
  · rw [hH2, hG2, updT_same]
    simp [isPush, frame0, bufOp, Bufs.pop, Bufs.start, Bufs.read, hg1]
  · intro t ht; rw [hH2, updT_other _ _ ht]
  · rw [e2, updT_other _ _ hu, e1, updT_other _ _ hu]

/-- It has pushed it on CPU 4. -/
theorem ex_test_push : ∃ s G H, exTReach s G H ∧ (∀ t, H t = none) ∧
    s.mem = stw false (stw false (stw false exBufMem 0x1000#64 0#64) 0x2100#64 0x11#64) 0x1100#64 1#64 := by
  obtain ⟨s, G, H, h3, hH, hH', m3, a1, a2, a3, a4, a5, -⟩ := ex_test_pop
  have h4 := TestReach.step h3 (Step.preempt (t := 0) a1) (fun f hf => by simp at hf)
    (fun hf => by simp at hf)
  obtain ⟨s4, hs4, e4, m4⟩ : ∃ s4 : State 8, s4 = s.set 0 { s.th 0 with run := false } ∧
      s4.th = upd s.th 0 { s.th 0 with run := false } ∧ s4.mem = s.mem := ⟨_, rfl, rfl, rfl⟩
  rw [← hs4] at h4
  have h5 := TestReach.step h4 (Step.resume (t := 0) 4#32 4#32 (by simp [e4, upd]) (by
    intro u hu hr
    rw [e4, updT_other _ _ hu, a5 u hu] at hr
    simp [thread0] at hr)) (fun f hf => by simp at hf) (fun hf => by simp at hf)
  simp only [bufStep, holdStep, committing] at h5
  obtain ⟨s5, hs5, m5, b1, b2, b3, b4, b5⟩ : ∃ s5 : State 8, s5 = s4.set 0 { s4.th 0 with
        run := true, top := fixTop bufSites (s4.th 0), cs := fixCs (s4.th 0), kcpu := 4#32, kcid := 4#32
        cpuId := if (s4.th 0).reg = true then 4#32 else (s4.th 0).cpuId
        mmCid := if (s4.th 0).reg = true then 4#32 else (s4.th 0).mmCid
        ev := (s4.th 0).ev + 1 } ∧ s5.mem = s.mem ∧
      ((s5.th 0).run = true ∧ (s5.th 0).top = none ∧ (s5.th 0).saved = [] ∧ (s5.th 0).reg = true ∧
        (s5.th 0).cpuId = 4#32) := by
    refine ⟨_, rfl, m4, ?_⟩
    simp [State.set, e4, upd, fixTop, a2, a3, a4]
  rw [← hs5] at h5
  have r5 := TestReach.read (c := 4#32) h5 (t := 0) b1 b2 (by simp [exB])
  rw [m3] at m5
  rw [show (s5.th 0).saved.length = 0 by rw [b3]; rfl,
    show ldw exB.be s5.mem (exB.offset 4#32) = 0#64 by rw [m5]; decide] at r5
  obtain ⟨s6, cs6, ⟨G6, H6, hG6, hH6, h6, -⟩, e6, m6⟩ := ex_test_call r5 4#32 0
    (.cbneStoreStore 0x1100#64 0#64 0x2100#64 0x11#64 1#64) rfl trivial
    (fun x h => ex_tidy 0x2100#64 0x1100#64 (by decide) (by decide) x h)
    ⟨rfl, 0#64, by simp [Bufs.read, frame0], .inl ⟨rfl, show (0#64 : W 8) ≠ num (n := 8) 2 by decide, 0x11#64, rfl⟩⟩
    ⟨by decide, b3, by rw [hH]; exact ⟨rfl, rfl⟩⟩
    _ (by simp only [pseudo]; rw [if_neg (by rw [m5]; decide)]) b1 b2 b3 b4 b5
  refine ⟨s6, _, _, h6, fun t => ?_, by rw [m6, m5]⟩
  by_cases e : t = 0
  · subst e; rw [hH6, updT_same]; rfl
  · rw [hH6, updT_other _ _ e]; exact hH' t e

/-- The pop about to return: the thread has what it returns. -/
example : ∃ s G H f, exTReach s G H ∧ frameAt (s.th 0) 0 = some f ∧ f.l.pc = .ret 0 ∧ isPush f = false ∧
    H 0 = some (wordItem (n := 8) false 0x11#64) := by
  obtain ⟨_, G, H, -, -, -, -, -, -, -, -, -, s, f, h, h1, h2, h3⟩ := ex_test_pop
  exact ⟨s, G, H, f, h, h1, h2, by unfold isPush; rw [h3],
    (buffer_test_items (by decide) bufSites_be exB_ok exBufs_init h h1 h2).2.2.2.1 _ _ _ _ _ h3 rfl⟩

/-- While the thread has the pointer, neither buffer is full. -/
example : ∃ s G H, exTReach s G H ∧ H 0 = some (wordItem (n := 8) false 0x11#64) ∧
    ∀ c ∈ exB.cpus, ldw exB.be s.mem (exB.offset c) ≠ num (n := 8) (exB.cap c) := by
  obtain ⟨s, G, H, h, hH, -⟩ := ex_test_pop
  exact ⟨s, G, H, h, hH, fun c hc => buffer_test_no_abort (by decide) bufSites_be exB_ok exBufs_init (by decide) h hH
    hc (show 1 ≤ 2 by decide)⟩

/-- The end of the pointer test: the node 0x11 has its data at 0x11; the sum is found. -/
example : ∃ s G H, exTReach s G H ∧ ∃ m',
    forCpus (fun c => ptrLoop false (exB.offset c) (exB.array c) 0#64 2) [3#32, 4#32] s.mem 0#64 =
      some (m', (ldw false exBufMem 0x11#64).signExtend 64) := by
  obtain ⟨s, G, H, h, hH, hm⟩ := ex_test_push
  have hl : exB.cpus.flatMap (fun c => if c = 3#32 then [0x11#64] else []) = [0x11#64] := by decide
  obtain ⟨m', e, -⟩ := buffer_test_final (doff := 0#64) (nodes := fun c => if c = 3#32 then [0x11#64] else [])
    (k := 2) (by decide) bufSites_be exB_ok exBufs_init (by decide) rfl (by
      intro c hc
      simp only [exB, List.mem_cons, List.not_mem_nil, or_false] at hc
      rcases hc with rfl | rfl <;> rfl)
    (by rw [hl]; intro x hx; rw [List.mem_singleton.1 hx]; decide)
    (by
      rw [hl]
      intro c hc x a hx ha hw
      rw [List.mem_singleton.1 hx] at ha
      simp only [exB, List.mem_cons, List.not_mem_nil, or_false] at hc
      unfold InWord at ha hw
      rcases hc with rfl | rfl
      · rw [show exB.offset 3#32 = 0x1000#64 from rfl] at hw; bv_omega
      · rw [show exB.offset 4#32 = 0x1100#64 from rfl] at hw; bv_omega)
    h hH
    (by rw [hl]; intro x hx; rw [List.mem_singleton.1 hx, hm]; decide)
    (by rw [hl]; decide)
  refine ⟨s, G, H, h, m', ?_⟩
  rw [hl] at e
  rw [show (ldw false exBufMem 0x11#64).signExtend 64 =
    itemSum (fun x => (ldw exB.be exBufMem (x + 0#64)).signExtend 64) [0x11#64] by
      simp only [itemSum, List.foldr_cons, List.foldr_nil, BitVec.add_zero]; rfl]
  exact e

/-- The end of the copying test on the same execution, with the local `item` at 0x4000. -/
example (val : List Byte → BitVec 64) : ∃ s G H, exTReach s G H ∧ ∃ m',
    forCpus (fun c => copyLoop false (exB.offset c) (exB.array c) 8 0x4000#64 val 2) [3#32, 4#32] s.mem 0#64 =
      some (m', val (wordItem (n := 8) false 0x11#64)) := by
  obtain ⟨s, G, H, h, hH, hm⟩ := ex_test_push
  have hl : exB.cpus.flatMap exBufs.buf = [wordItem (n := 8) false 0x11#64] := rfl
  obtain ⟨m', e, -⟩ := memcpy_buffer_test_final (item := 0x4000#64) (k := 2) (by decide) bufSites_be exB_ok exBufs_init
    (by decide) (by
      refine ⟨fun c hc a ha hw => ?_, fun c hc a ha hw => ?_⟩
      · simp only [exB, List.mem_cons, List.not_mem_nil, or_false] at hc
        unfold InWord at hw
        have ha : (a - 0x4000#64).toNat < 8 := ha
        rcases hc with rfl | rfl
        · rw [show exB.offset 3#32 = 0x1000#64 from rfl] at hw; bv_omega
        · rw [show exB.offset 4#32 = 0x1100#64 from rfl] at hw; bv_omega
      · simp only [exB, List.mem_cons, List.not_mem_nil, or_false] at hc
        have ha : (a - 0x4000#64).toNat < 8 := ha
        rcases hc with rfl | rfl
        · have hw : (a - 0x2000#64).toNat < 16 := hw
          bv_omega
        · have hw : (a - 0x2100#64).toNat < 16 := hw
          bv_omega) val h hH (by rw [hl]; decide)
  refine ⟨s, G, H, h, m', ?_⟩
  rw [hl] at e
  have h1 : itemSum val [wordItem (n := 8) false 0x11#64] = val (wordItem (n := 8) false 0x11#64) := by
    simp [itemSum]
  rw [h1] at e
  exact e

end Verif.Rseq
