import Verif.RseqPoolDrainProps
import Verif.RseqPoolSpinDrainProps
import Verif.RseqPoolBufEx
import Verif.RseqPoolTestEx

/-! Examples for C107: a thread that holds a node can put it back; a thread preempted in a helper can go on. -/

namespace Verif.Joint

open Mempool (Config Ghost Hist cpuAddr InRegion RangeEnv)
open Rseq (State Bufs Site Op W Hold)
attribute [local instance] le64

/-- A thread has taken the last node of the buffer of CPU 1; from there the test can end and pass. -/
theorem ex_buf_can_end : ∃ (s0 : Mempool.State) (g1 : Ghost) (s : State wb) (G : Bufs wb) (H : Hold) (g : Ghost),
    testSetup (BitVec.ofNat _ (3 * wb)) true 4096 2 true true
      { base := some 1048576 } exMem { base := none } = some (exTest 5, 1048576, s0) ∧
    BufPool Rseq.bufSites false .cpuId (exTest 5) 1048576 wb exPPriv exPData 1 exPG g1 s G H g ∧
    H 0 = some (Rseq.wordItem (n := wb) false 0x900030#64) ∧
    ∃ (s' : State wb) (G' : Bufs wb) (H' : Hold) (g' : Ghost) (m' : Rseq.Mem wb) (g2 : Ghost),
      BufFrom Rseq.bufSites false .cpuId (exTest 5) 1048576 wb exPPriv exPData 1 s G H g s' G' H' g' ∧
      (∀ t, H' t = none) ∧ (∀ u, Rseq.Idle (s'.th u)) ∧
      Rseq.forCpus (fun k => Rseq.ptrLoopM false (bufOffset (exTest 5) 1048576 k) (bufArray (exTest 5) 1048576 k) 0#64 5)
        (cpus (exTest 5)) (view (exTest 5) g'.s.mem) 0#64 = some (m', 6#64) ∧ m' = view (exTest 5) g2.s.mem ∧
      testEnd (exTest 5) 1048576 6#64 6#64 (fun _ => true) g2.s = .passes := by
  obtain ⟨s0, hs, hb⟩ := ex_buf_setup
  have hbe : ∀ q, (Rseq.bufSites q).prog.be = false := bufSites_le
  have hn : (exTest 5).ncpu ≤ 2 ^ 32 := by decide
  have hl : 3 * wb ≤ (exTest 5).itemLen := by decide
  obtain ⟨hg, -, -, -, -, hz⟩ := testSetup_spec (c := exTest 5) (p := 1048576) (by decide) ⟨12, by decide⟩ exMem_wf
    ex_buf_env hs
  have hp : 1048576 ∈ (⟨s0, [1048576], []⟩ : Ghost).live := .head _
  have hH : BufHeap (exTest 5) ⟨s0, [1048576], []⟩ exArr (2 * 2) wb exPPriv := ex_buf_heap hb (by decide) (by decide)
  have hN : BufNodes (exTest 5) ⟨s0, [1048576], []⟩ exArr (2 * 2) exPPriv exPNode 2 := ex_buf_nodes hb
  obtain ⟨m0, f1, ⟨hinit, hD⟩, ⟨g1, w1, v1⟩, hmain⟩ := buffer_test_pool (T := Rseq.bufSites) (fld := .cpuId) (N := 1) hbe
    ⟨12, by decide⟩ (by decide) exMem_wf ex_buf_env hs (by decide) hH hN (by decide)
  obtain ⟨j1, j2, j3⟩ := w1.hist hg hp
  have hp1 : 1048576 ∈ g1.live := j2 ▸ hp
  have hH1 : BufHeap (exTest 5) g1 exArr (2 * 2) wb exPPriv := bufHeap_writes hg hp hH w1
  have hK : exPB.OK := buf_layout_ok j1 hp1 hn hl hH1
  rw [v1] at hinit hD
  have hdata : ∀ a, exPData a → Outside (exTest 5) g1 a.toNat ∧ (∀ k ∈ cpus (exTest 5), ¬ (a - exArr k).toNat < 2 * 2 * wb) ∧
      ∀ t d, ¬ exPPriv t d a := fun a ⟨x, hx, ha⟩ => ⟨w1.outside hg hp (hN.out x a hx ha), hN.arr x a hx ha, hN.priv x a hx ha⟩
  let R : State wb → Bufs wb → Hold → Prop := fun s G H => ∃ g, BufPool Rseq.bufSites false .cpuId (exTest 5) 1048576 wb
    exPPriv exPData 1 exPG g1 s G H g ∧ BufHeap (exTest 5) g exArr (2 * 2) wb exPPriv
  have hRS : ∀ s G H, R s G H → Rseq.TestReach Rseq.bufSites exPB (view (exTest 5) g1.s.mem) exPG 1 s G H :=
    fun s G H ⟨g, h, _⟩ => (h.sound hbe j1 hp1 hn hl hH1 hinit hD hdata).2.2.2.1
  have inv := fun s G H (h : R s G H) => (hRS s G H h).breach.inv wb_ge hbe hK hinit
  have hR : ∀ s G H t lab s', R s G H → Rseq.Step Rseq.bufSites s t lab s' → lab ≠ .user →
      (∀ f, lab = .invoke f → Rseq.BufCall exPB G t (s.th t).saved.length f ∧ Rseq.TestCall exPB 1 H s t f) →
      R s' (Rseq.bufStep exPB Rseq.bufSites s G t lab)
        (Rseq.holdStep Rseq.bufSites s (Rseq.bufStep exPB Rseq.bufSites s G t lab) H t lab) :=
    buf_closed hbe j1 hp1 hn hl hH1 hinit hD hdata
  have hread : ∀ s G H t k, R s G H → (s.th t).run = true → (s.th t).top = none → k ∈ cpus (exTest 5) →
      R s (G.read t (s.th t).saved.length k (Rseq.ldw false s.mem (bufOffset (exTest 5) 1048576 k))) H :=
    fun s G H t k ⟨g, h, hh⟩ hr ht hk => ⟨g, h.read hr ht hk, hh⟩
  have h0 : R { mem := view (exTest 5) g1.s.mem, th := fun _ => Rseq.thread0 } exPG (fun _ => none) := ⟨g1, .init, hH1⟩
  -- thread 0 starts on CPU 1 and registers
  have h1 := hR _ _ _ 0 _ _ h0 (Rseq.Step.resume (t := 0) 1#32 1#32 rfl (fun u _ h => by simp [Rseq.thread0] at h)) (by simp)
    (fun f hf => by simp at hf)
  have h2 := hR _ _ _ 0 _ _ h1 (Rseq.Step.register (t := 0) (by simp [State.set, Rseq.upd])
    (by simp [State.set, Rseq.upd, Rseq.fixTop, Rseq.thread0]) (by simp [State.set, Rseq.upd, Rseq.thread0])
    (by simp [State.set, Rseq.upd, Rseq.thread0])) (by simp) (fun f hf => by simp at hf)
  simp only [Rseq.committing, Rseq.bufStep, Rseq.holdStep] at h1 h2
  obtain ⟨s2, h2, e2⟩ : ∃ s2 : State wb, R s2 exPG (fun _ => none) ∧
      s2.th = Rseq.upd (fun _ => Rseq.thread0) 0 (Rseq.th1 true 1#32 1#32) := by
    refine ⟨_, h2, ?_⟩
    funext u
    simp only [State.set]
    by_cases e : u = 0
    · subst e; simp [Rseq.updT_same, Rseq.th1, Rseq.thread0, Rseq.fixTop, Rseq.fixCs]
    · rw [Rseq.updT_other _ _ e, Rseq.updT_other _ _ e, Rseq.updT_other _ _ e]
  clear h0 h1
  -- it takes the last node of the buffer of CPU 1
  obtain ⟨l1, l2⟩ := (inv _ _ _ h2).holds 1#32 (by decide)
  have l1 : Rseq.ldw false s2.mem (bufOffset (exTest 5) 1048576 1#32) = 2#64 := l1
  have hr2 := hread _ _ _ 0 1#32 h2 (by simp [e2, Rseq.upd, Rseq.th1]) (by simp [e2, Rseq.upd, Rseq.th1, Rseq.thread0])
    (by decide)
  rw [l1, show (s2.th 0).saved.length = 0 by simp [e2, Rseq.upd, Rseq.th1, Rseq.thread0]] at hr2
  obtain ⟨x, hx⟩ : ∃ x, Rseq.ldw false s2.mem (0xb10000#64 + (2#64 - 1#64) * Rseq.num (n := wb) wb) = x := ⟨_, rfl⟩
  have hxi : Rseq.wordItem (n := wb) false x = Rseq.wordItem (n := wb) false 0x900030#64 := by
    rw [← hx, ← Rseq.bytes_ldw]
    exact l2.2 1 _ rfl
  obtain ⟨s3, cs3, ⟨G3, H3, hG3, hH3, h3⟩, e3, m3⟩ := solo_buf_call hbe hK hinit R hRS hR hr2 1#32 1
    (.cbneCbneStore (bufOffset (exTest 5) 1048576 1#32) 2#64 (0xb10000#64 + (2#64 - 1#64) * Rseq.num (n := wb) wb) x
      (2#64 - 1#64)) rfl rfl trivial trivial
    ⟨rfl, 2#64, rfl, .inr (.inl ⟨rfl, by decide, x, rfl⟩)⟩
    ⟨by decide, by simp [e2, Rseq.upd, Rseq.th1, Rseq.thread0], rfl⟩
    _ (by
      simp only [Rseq.pseudo]
      rw [if_neg (by exact not_not_intro l1), if_neg (by exact not_not_intro hx)])
    (by simp [e2, Rseq.upd, Rseq.th1]) (by simp [e2, Rseq.upd, Rseq.th1, Rseq.thread0])
    (by simp [e2, Rseq.upd, Rseq.th1, Rseq.thread0])
    (by simp [e2, Rseq.upd, Rseq.th1]) (by simp [e2, Rseq.upd, Rseq.th1])
  have k3 : H3 0 = some (Rseq.wordItem (n := wb) false 0x900030#64) := by rw [hH3, hG3]; rfl
  clear hG3 hH3
  obtain ⟨g, h3, hHg⟩ := h3
  have hcan : Rseq.CanCall Rseq.bufSites .cpuId .cbneStoreStore := Rseq.canCall wb_ge (p := 0) rfl rfl
  obtain ⟨s', G', H', g', q1, q2, q3, q4⟩ := buffer_test_can_end (B := 2) hbe ⟨12, by decide⟩ (by decide) exMem_wf ex_buf_env hs
    (by decide) hH hN (by decide) hcan f1 w1 v1 h3 hHg
  obtain ⟨m', g2, r1, -, r2, r3⟩ := q4 5 (by decide)
  exact ⟨s0, g1, s3, G3, H3, g, hs, h3, k3, s', G', H', g', m', g2, q1, q2, q3, r1, r2, r3 _⟩

/-- Thread 0 is preempted in its first call of the increment helper; from there the test of two threads with three
iterations each can end and pass. -/
theorem ex_inc_can_end : ∃ (s0 : Mempool.State) (s : State wb) (done : Nat → Nat) (g : Ghost),
    testSetup (BitVec.ofNat _ wb) true 4096 2 true true { base := some 1048576 } exMem
      { base := none } = some (exTest 3, 1048576, s0) ∧
    exIP ⟨s0, [1048576], []⟩ s done g ∧ (s.th 0).top.isSome = true ∧ (s.th 0).run = false ∧
    ∃ (s' : State wb) (done' : Nat → Nat) (g' : Ghost),
      IncFrom (fun _ => exCtrSite) .cpuId (exTest 3) 1048576 2 s done g s' done' g' ∧ (∀ t, t < 2 → done' t = 3) ∧
      (∀ u, Rseq.Idle (s'.th u)) ∧
      testEnd (exTest 3) 1048576 (Rseq.sumCounts false (view (exTest 3) g'.s.mem) (ctr (exTest 3) 1048576 0) (cpus (exTest 3)))
        (3#64 * 2#64) (fun _ => true) g'.s = .passes := by
  obtain ⟨s0, hs⟩ := ex_inc_setup
  have hcan : Rseq.CanCall (fun _ => exCtrSite : Nat → Site wb) .cpuId .addStore := Rseq.canCall wb_ge (p := 0) rfl rfl
  have h0 : exIP ⟨s0, [1048576], []⟩ _ _ _ := IncPool.init
  obtain ⟨s1, h1, e1, m1⟩ := ex_ip_on h0 rfl 0 (by decide) 1#32 (fun u _ h => by simp [Rseq.thread0] at h) rfl
  obtain ⟨f, f1, f2, f3, f4⟩ := hcan (.addStore (ctr (exTest 3) 1048576 0 1#32) 1#_) 1#32 s1.mem rfl trivial trivial
  have h2 := IncPool.step h1 (Rseq.Step.invoke (t := 0) f (by simp [e1, Rseq.upd, Rseq.th1])
    (by simp [e1, Rseq.upd, Rseq.th1, Rseq.thread0]) f1 (by simp [e1, Rseq.upd, Rseq.th1])) (by decide) (by simp)
    (fun f' hf => by
      injection hf with hf
      subst hf
      exact ⟨f4, by rw [f3]; decide, by rw [f3]; exact f2⟩) .refl m1
  have h3 := IncPool.step h2 (Rseq.Step.preempt (t := 0) (by simp [State.set, e1, Rseq.upd, Rseq.th1])) (by decide) (by simp)
    (fun f' hf => by simp at hf) .refl m1
  simp only [Rseq.finished] at h3
  obtain ⟨s', done', g', q1, q2, q3, q4⟩ := inc_test_can_end (N := 2) (reps := 3) ex_ip_be ⟨12, by decide⟩ (by decide)
    exMem_wf ex_inc_env hs hcan h3 (by
      intro t ht
      have two : t = 0 ∨ t = 1 := by omega
      rcases two with rfl | rfl <;>
        simp [Rseq.calls, State.set, Rseq.upd, e1, Rseq.th1, Rseq.thread0]) (by decide)
  exact ⟨s0, _, _, _, hs, h3, by simp [State.set, Rseq.upd], by simp [State.set, Rseq.upd], s', done', g', q1, q2, q3, q4 _⟩

/-- Thread 0 has taken the lock of CPU 1 and is preempted before the increment; from there the test of two threads with
three iterations each can end and pass. -/
theorem ex_spin_can_end : ∃ (s0 : Mempool.State) (s : State wb) (P : Rseq.Loops wb) (g : Ghost),
    testSetup (BitVec.ofNat _ (2 * wb)) true 4096 2 true true { base := some 1048576 } exMem
      { base := none } = some (exTest 4, 1048576, s0) ∧
    exSP ⟨s0, [1048576], []⟩ s P g ∧ P.ph 0 0 = .got 1#32 ∧ (s.th 0).run = false ∧
    ∃ (s' : State wb) (P' : Rseq.Loops wb) (g' : Ghost),
      SpinFrom (fun _ => exLockSite) .cpuId false (exTest 4) 1048576 2 s P g s' P' g' ∧ (∀ t, t < 2 → P'.done t = 3) ∧
      (∀ u, Rseq.Idle (s'.th u)) ∧
      testEnd (exTest 4) 1048576 (Rseq.sumCounts false (view (exTest 4) g'.s.mem) (spinCount (exTest 4) 1048576) (cpus (exTest 4)))
        (3#64 * 2#64) (fun _ => true) g'.s = .passes := by
  obtain ⟨s0, hs⟩ := ex_spin_setup
  obtain ⟨hg, -, -, -, -, hzero⟩ := testSetup_spec (c := exTest 4) (p := 1048576) (by decide) ⟨12, by decide⟩ exMem_wf
    ex_spin_env hs
  have hp : 1048576 ∈ (⟨s0, [1048576], []⟩ : Ghost).live := .head _
  have hz : ∀ k ∈ cpus (exTest 4), Rseq.ldw false (view (exTest 4) s0.mem) (spinLock (exTest 4) 1048576 k) = 0#_ :=
    fun k hk => zero_word hg hp (by decide) (off := 0) (by decide) hzero hk
  have tot := fun {s P g} (h : exSP ⟨s0, [1048576], []⟩ s P g) =>
    spin_pool_total ex_sp_be (c := exTest 4) hg hp (by decide) (by decide) hz h
  have hcan : Rseq.CanCall (fun _ => exLockSite : Nat → Site wb) .cpuId .cbneStore := Rseq.canCall wb_ge (p := 0) rfl rfl
  have h0 : exSP ⟨s0, [1048576], []⟩ _ _ _ := SpinPool.init
  obtain ⟨s1, h1, e1, m1⟩ := ex_sp_on h0 rfl 0 1#32 (fun u _ h => by simp [Rseq.thread0] at h) rfl
  have hx1 : s1.th 0 = Rseq.th1 true 1#32 1#32 := by rw [e1, Rseq.updT_same]
  obtain ⟨f0, f1, f2, f3, f4⟩ := hcan (.cbneStore (spinLock (exTest 4) 1048576 1#32) 0#_ 1#_) 1#32 s1.mem rfl trivial trivial
  have hf1 := hz 1#32 (by decide)
  obtain ⟨s2, cs, ⟨g2, h2⟩, e2, -⟩ := Rseq.alone_frame (T := fun _ => exLockSite) (t := 0) (s := s1) (f0 := f0)
    (P := fun s => (∃ g, exSP ⟨s0, [1048576], []⟩ s { ph := fun _ _ => .idle, done := fun _ => 0 } g) ∧ (s.th 0).saved.length = 0 ∧
      ∀ f, (s.th 0).top = some f → f.cpu = 1#32)
    (Q := fun s => ∃ g, exSP ⟨s0, [1048576], []⟩ s (Rseq.Loops.at { ph := fun _ _ => .idle, done := fun _ => 0 } 0 0 (.got 1#32)) g)
    wb_ge f1 (by rw [hx1]; rfl) (by rw [hx1]; rfl) (by rw [hx1]; rfl)
    (by rw [f4, f3, hx1]; rfl) (r := 0) (m' := Rseq.stw false s1.mem (spinLock (exTest 4) 1048576 1#32) 1#_)
    (by
      rw [f2]
      simp only [Rseq.pseudo]
      rw [if_neg (by exact not_not_intro (m1 ▸ hf1))]
      rfl)
    (fun s' hs => by
      obtain ⟨g', -, h'⟩ := (tot h1).1 0 _ s' hs (by simp) (fun f hf => by
        injection hf with hf
        subst hf
        exact ⟨rfl, f4, by rw [f3]; decide, by rw [f3]; exact f2⟩)
      refine ⟨⟨g', h'⟩, ?_⟩
      cases hs with
      | invoke =>
        simp only [State.set, Rseq.updT_same]
        exact ⟨by rw [hx1]; rfl, fun f hf => by injection hf with hf; subst hf; exact f3⟩)
    (fun a b ha hs => by
      obtain ⟨⟨g1, k1⟩, k2⟩ := ha
      obtain ⟨g', -, h'⟩ := (tot k1).1 0 _ b hs (by simp) (fun f hf => by simp at hf)
      refine ⟨⟨g', h'⟩, ?_⟩
      cases hs with
      | exec f i ins l' m' hr ht _ _ _ =>
        simp only [Rseq.updT_same]
        exact ⟨k2.1, fun g hg => by injection hg with hg; subst hg; exact k2.2 f ht⟩)
    (fun a b f ha hf hpc hs => by
      obtain ⟨⟨g1, k1⟩, k2⟩ := ha
      obtain ⟨g', -, h'⟩ := (tot k1).1 0 _ b hs (by simp) (fun f hf => by simp at hf)
      unfold Rseq.Loops.call at h'
      rw [hf] at h'
      dsimp only at h'
      rw [if_pos hpc, k2.1, k2.2 f hf] at h'
      exact ⟨g', h'⟩)
  have hx2 : s2.th 0 = { Rseq.th1 true 1#32 1#32 with cs := cs } := by rw [e2, Rseq.updT_same, hx1]
  have hst := Rseq.Step.preempt (T := fun _ => exLockSite) (s := s2) (t := 0) (by rw [hx2]; rfl)
  obtain ⟨g3, -, h3⟩ := (tot h2).1 0 _ _ hst (by simp) (fun f hf => by simp at hf)
  obtain ⟨s3, P3, h3, hs3, hP3⟩ : ∃ (s3 : State wb) (P3 : Rseq.Loops wb), exSP ⟨s0, [1048576], []⟩ s3 P3 g3 ∧
      s3 = s2.set 0 { s2.th 0 with run := false } ∧
      P3 = Rseq.Loops.at { ph := fun _ _ => .idle, done := fun _ => 0 } 0 0 (.got 1#32) := ⟨_, _, h3, rfl, rfl⟩
  have hx3 : s3.th 0 = { Rseq.th1 true 1#32 1#32 with cs := cs, run := false } := by
    rw [hs3]; simp only [State.set, Rseq.updT_same, hx2]
  have hy3 : ∀ u, u ≠ 0 → s3.th u = Rseq.thread0 := fun u hu => by
    rw [hs3]; simp only [State.set]; rw [Rseq.updT_other _ _ hu, e2, Rseq.updT_other _ _ hu, e1, Rseq.updT_other _ _ hu]
  have hph : ∀ u d, ¬ (u = 0 ∧ d = 0) → P3.ph u d = .idle := fun u d h => by
    rw [hP3]; exact (Rseq.ph_at _ _ _ _ _ _).trans (if_neg h)
  have hph0 : P3.ph 0 0 = .got 1#32 := by rw [hP3]; exact (Rseq.ph_at _ _ _ _ _ _).trans (if_pos ⟨rfl, rfl⟩)
  have hdone : ∀ u, P3.done u = 0 := fun u => by rw [hP3]; rfl
  have htame : Rseq.Tame 2 s3 P3 := by
    refine ⟨fun u hu => ⟨?_, fun d => hph u d (by omega)⟩, fun t d hd => hph t d (by omega)⟩
    rw [hy3 u (by omega)]
    exact ⟨rfl, rfl, rfl⟩
  obtain ⟨s', P', g', q1, q2, q3, -, -, q4⟩ := spinlock_test_can_end (N := 2) (reps := 3) ex_sp_be ⟨12, by decide⟩ (by decide)
    exMem_wf ex_spin_env hs hcan h3 htame (by
      intro t ht
      rw [hdone]
      by_cases e : t = 0
      · subst e
        rw [hx3]
        show 0 + ((if (none : Option (Rseq.Frame wb)).isSome = true then 1 else (P3.ph 0 0).owes) + 0) ≤ 3
        rw [hph0]
        decide
      · rw [hy3 t e]
        show 0 + ((if (none : Option (Rseq.Frame wb)).isSome = true then 1 else (P3.ph t 0).owes) + 0) ≤ 3
        rw [hph t 0 (fun h => e h.1)]
        decide) (by decide)
  exact ⟨s0, s3, P3, g3, hs, h3, hph0, by rw [hx3], s', P', g', q1, q2, q3, q4 _⟩

end Verif.Joint
