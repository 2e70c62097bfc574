import Verif.RseqPoolListDrainProps
import Verif.RseqPoolListEx

/-! Example for C107: the list test, left while a thread holds a node and is in a signal handler. -/

namespace Verif.Joint

open Mempool (Config Ghost Hist cpuAddr InRegion RangeEnv)
open Rseq (State Stacks Site Op W)
attribute [local instance] le64

/-- A thread takes the first node of the list of CPU 1, migrates, and is interrupted by a signal; from there the test can
end and pass. -/
theorem ex_list_can_end : ∃ (s0 : Mempool.State) (g1 : Ghost) (s : State wb) (G : Stacks wb) (g : Ghost),
    testSetup (BitVec.ofNat _ wb) true 4096 2 true true
      { base := some 1048576 } exMem { base := none } = some (exTest 3, 1048576, s0) ∧
    Rseq.listSetup exPK nodeData exPNode 2 (view (exTest 3) s0.mem) = some (view (exTest 3) g1.s.mem, 6#64) ∧
    ListPool Rseq.listSites exPK (exTest 3) 1048576 (Stacks.fresh (Rseq.listNodes exPNode 2)) g1 s G g ∧
    G.own 0x900030#64 = some (0, 0) ∧ (s.th 0).saved = [none] ∧
    ∃ (s' : State wb) (G' : Stacks wb) (g' : Ghost) (m' : Rseq.Mem wb) (g2 : Ghost),
      ListFrom Rseq.listSites exPK (exTest 3) 1048576 s G g s' G' g' ∧ (∀ x, G'.own x = none) ∧
      (∀ u, Rseq.Idle (s'.th u)) ∧
      Rseq.popAll false nodeNext nodeData (ctr (exTest 3) 1048576 0) 5 (cpus (exTest 3)) (view (exTest 3) g'.s.mem) 0#64 =
        some (m', 6#64) ∧ m' = view (exTest 3) g2.s.mem ∧
      testEnd (exTest 3) 1048576 6#64 6#64 (fun _ => true) g2.s = .passes := by
  obtain ⟨s0, hs, hb⟩ := ex_list_setup
  have hbe : ∀ q, (Rseq.listSites q).prog.be = false := Rseq.listSites_be
  have hn : (exTest 3).ncpu ≤ 2 ^ 32 := by decide
  obtain ⟨hg, -, -, -, -, -⟩ := testSetup_spec (c := exTest 3) (p := 1048576) (by decide) ⟨12, by decide⟩ exMem_wf
    ex_inc_env hs
  have hp : 1048576 ∈ (⟨s0, [1048576], []⟩ : Ghost).live := .head _
  have hH : Heap (exTest 3) ⟨s0, [1048576], []⟩ exPNode 2 exPPriv := ex_heap hb
  obtain ⟨m0, f1, ⟨g1, w1, v1⟩, hmain⟩ := list_test_pool (T := Rseq.listSites) (fld := .cpuId) hbe ⟨12, by decide⟩
    (by decide) exMem_wf ex_inc_env hs hH (by decide)
  obtain ⟨j1, j2, j3⟩ := w1.hist hg hp
  have hp1 : 1048576 ∈ g1.live := j2 ▸ hp
  have hH1 : Heap (exTest 3) g1 exPNode 2 exPPriv := ex_heap (by rw [j3]; exact hb)
  have hK := layout_ok (be := false) (fld := .cpuId) j1 hp1 hn hH1
  have hz : ∀ k ∈ exPK.cpus, Rseq.ldw false (view (exTest 3) s0.mem) (ctr (exTest 3) 1048576 0 k) = 0#_ := by
    obtain ⟨-, -, -, e2, -, hz⟩ := testSetup_spec (c := exTest 3) (p := 1048576) (by decide) ⟨12, by decide⟩ exMem_wf
      ex_inc_env hs
    exact fun k hk => zero_word hg hp hn (off := 0) (by decide) hz hk
  have hinit : Rseq.StackInit exPK (view (exTest 3) g1.s.mem) (Stacks.fresh (Rseq.listNodes exPNode 2)) := by
    obtain ⟨m1, q1, q2, -⟩ := Rseq.list_setup (layout_ok (be := false) (fld := .cpuId) hg hp hn hH) (nodup_cpus hn)
      (data_apart (be := false) (fld := .cpuId) hg hp hn hH) (nodes_ok (be := false) (fld := .cpuId) (p := 1048576) hH) hz
    rw [f1] at q1
    cases q1
    rw [← v1]
    exact q2
  let R : State wb → Stacks wb → Prop := fun s G => ∃ g, ListPool Rseq.listSites exPK (exTest 3) 1048576
    (Stacks.fresh (Rseq.listNodes exPNode 2)) g1 s G g ∧ Heap (exTest 3) g exPNode 2 exPPriv
  have hRS : ∀ s G, R s G → Rseq.SReach Rseq.listSites exPK (view (exTest 3) g1.s.mem)
      (Stacks.fresh (Rseq.listNodes exPNode 2)) s G := fun s G ⟨g, h, _⟩ => (h.sound j1 hp1 hn).2.2.2
  have hR : ∀ s G t lab s', R s G → Rseq.Step Rseq.listSites s t lab s' → lab ≠ .user →
      (∀ f, lab = .invoke f → Rseq.ListCall exPK G s.mem t (s.th t).saved.length f) →
      R s' (Rseq.applyOp G t (s.th t).saved.length (Rseq.committing Rseq.listSites s t lab)) := by
    rintro s G t lab s' ⟨g, h, hh⟩ hst hl hi
    obtain ⟨g', -, h1, h2⟩ := (list_pool_total hbe j1 hp1 hn hH1 hinit h hh).1 t lab s' hst hl hi
    exact ⟨g', h2, h1⟩
  have inv := fun s G (h : R s G) => (hRS s G h).inv wb_ge hbe hK hinit
  have h0 : R { mem := view (exTest 3) g1.s.mem, th := fun _ => Rseq.thread0 } (Stacks.fresh (Rseq.listNodes exPNode 2)) :=
    ⟨g1, .init, hH1⟩
  -- thread 0 starts on CPU 1 and registers
  have h1 := hR _ _ 0 _ _ h0 (Rseq.Step.resume (t := 0) 1#32 1#32 rfl (fun u _ h => by simp [Rseq.thread0] at h)) (by simp)
    (fun f hf => by simp at hf)
  have h2 := hR _ _ 0 _ _ h1 (Rseq.Step.register (t := 0) (by simp [State.set, Rseq.upd])
    (by simp [State.set, Rseq.upd, Rseq.fixTop, Rseq.thread0]) (by simp [State.set, Rseq.upd, Rseq.thread0])
    (by simp [State.set, Rseq.upd, Rseq.thread0])) (by simp) (fun f hf => by simp at hf)
  simp only [Rseq.committing, Rseq.applyOp] at h1 h2
  obtain ⟨s2, hs2⟩ : ∃ s2 : State wb, R s2 (Stacks.fresh (Rseq.listNodes exPNode 2)) ∧
      s2.th = Rseq.upd (fun _ => Rseq.thread0) 0 (Rseq.th1 true 1#32 1#32) := by
    refine ⟨_, h2, ?_⟩
    funext u
    simp only [State.set]
    by_cases e : u = 0
    · subst e; simp [Rseq.updT_same, Rseq.th1, Rseq.thread0, Rseq.fixTop, Rseq.fixCs]
    · rw [Rseq.updT_other _ _ e, Rseq.updT_other _ _ e, Rseq.updT_other _ _ e]
  clear h0 h1 h2
  obtain ⟨h2, e2⟩ := hs2
  -- it takes the first node of the list of CPU 1
  have l2 : Rseq.IsList false nodeNext s2.mem (Rseq.ldw false s2.mem (ctr (exTest 3) 1048576 0 1#32))
      [0x900030#64, 0x900020#64] := (inv _ _ h2).list 1#32 (by decide)
  obtain ⟨s3, cs3, h3, e3, m3⟩ := solo_list_call hbe hK hinit R hRS hR h2 0 1#32 1
    (.cbeqStoreAddLoadStore (ctr (exTest 3) 1048576 0 1#32) 0#_ nodeNext 0xa00000#64) rfl rfl trivial
    (fun x h1 h2 => hK.head_priv 1#32 (by decide) 0 0 x h2 ⟨rfl, rfl, h1⟩)
    ⟨rfl, (by decide : 1#32 ∈ cpus (exTest 3)), .inr ⟨0xa00000#64, rfl, fun a ha => ⟨rfl, rfl, ha⟩⟩⟩
    _ (by
      simp only [Rseq.pseudo]
      rw [if_neg (by
        show Rseq.ldw false s2.mem _ ≠ _
        rw [l2.1]; decide)])
    (by simp [e2, Rseq.upd, Rseq.th1]) (by simp [e2, Rseq.upd, Rseq.th1, Rseq.thread0])
    (by simp [e2, Rseq.upd, Rseq.th1, Rseq.thread0])
    (by simp [e2, Rseq.upd, Rseq.th1]) (by simp [e2, Rseq.upd, Rseq.th1])
  -- it migrates
  have h4 := hR _ _ 0 _ _ h3 (Rseq.Step.preempt (t := 0) (by simp [e3, e2, Rseq.upd, Rseq.th1])) (by simp)
    (fun f hf => by simp at hf)
  have h5 := hR _ _ 0 _ _ h4 (Rseq.Step.resume (t := 0) 0#32 0#32 (by simp [State.set, Rseq.upd]) (by
    intro u hu hr
    simp only [State.set] at hr
    rw [Rseq.updT_other _ _ hu, e3, Rseq.updT_other _ _ hu, e2, Rseq.updT_other _ _ hu] at hr
    simp [Rseq.thread0] at hr)) (by simp) (fun f hf => by simp at hf)
  simp only [Rseq.committing] at h4 h5
  obtain ⟨s5, G5, h5, ⟨r1, r2, r3, r4, r5⟩, o5, a5, b5, c5⟩ : ∃ (s5 : State wb) (G5 : Stacks wb), R s5 G5 ∧
      ((s5.th 0).run = true ∧ (s5.th 0).top = none ∧ (s5.th 0).saved = [] ∧ (s5.th 0).reg = true ∧
        (s5.th 0).cpuId = 0#32) ∧
      G5.own 0x900030#64 = some (0, 0) ∧ G5.stk 1#32 = [0x900020#64] ∧ G5.stk 0#32 = [0x900010#64, 0x900000#64] ∧
      ∀ x, x ≠ 0x900030#64 → G5.own x = none := by
    refine ⟨_, _, h5, ⟨by simp [State.set, Rseq.upd], by simp [e3, e2, Rseq.upd, State.set, Rseq.fixTop, Rseq.th1, Rseq.thread0],
      by simp [e3, e2, Rseq.upd, State.set, Rseq.th1, Rseq.thread0], by simp [e3, e2, Rseq.upd, State.set, Rseq.th1],
      by simp [e3, e2, Rseq.upd, State.set, Rseq.th1]⟩, rfl, rfl, rfl, ?_⟩
    intro x hx
    show (if x = 0x900030#64 then _ else _) = none
    rw [if_neg hx]
    rfl
  clear h4
  -- a signal handler starts
  have h6 := hR _ _ 0 _ _ h5 (Rseq.Step.signal (t := 0) r1) (by simp) (fun f hf => by simp at hf)
  simp only [Rseq.committing, Rseq.applyOp] at h6
  obtain ⟨s6, h6, r6⟩ : ∃ s6 : State wb, R s6 G5 ∧ (s6.th 0).saved = [none] :=
    ⟨_, h6, by simp only [State.set, Rseq.updT_same, r3, Rseq.fixTop, r2]⟩
  obtain ⟨g, p6, q6⟩ := h6
  obtain ⟨s', G', g', t1, t2, t3, t4⟩ := list_test_can_end (T := Rseq.listSites) (fld := .cpuId) hbe ⟨12, by decide⟩
    (by decide) exMem_wf ex_inc_env hs hH (by decide) (Rseq.canCall wb_ge (p := 0) rfl rfl) w1 (by rw [f1, v1]) p6 q6
    (fun x t d hx => by
      by_cases e : x = 0x900030#64
      · subst e
        rw [o5] at hx
        injection hx with hx
        injection hx with h1 h2
        omega
      · rw [c5 x e] at hx; cases hx)
  obtain ⟨m', g2, u1, -, u2, u3⟩ := t4 5 (by decide)
  exact ⟨s0, g1, s6, G5, g, hs, by rw [f1, v1], p6, o5, r6, s', G', g', m', g2, t1, t2, t3, u1, u2, u3 _⟩

end Verif.Joint
