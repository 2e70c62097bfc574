import Verif.RseqPoolListProps
import Verif.RseqPoolTestEx
import Verif.RseqStackEx

/-! Example for C105: the list test with two CPUs and two nodes each; a thread moves a node from one list to the
other. -/

namespace Verif.Joint

open Mempool (Config Ghost Hist cpuAddr InRegion RangeEnv)
open Rseq (State Stacks Site Op W)
attribute [local instance] le64

/-- One list call by a registered running thread that is alone, for any set `R` of executions of the list test that is
closed under the steps of the helpers. -/
theorem solo_list_call {T : Nat → Site wb} {K : Rseq.ListLayout wb} {m0 : Rseq.Mem wb} {G0 : Stacks wb}
    (hbe : ∀ q, (T q).prog.be = K.be) (hK : K.OK) (h0 : Rseq.StackInit K m0 G0) (R : State wb → Stacks wb → Prop)
    (hRS : ∀ s G, R s G → Rseq.SReach T K m0 G0 s G)
    (hR : ∀ s G t lab s', R s G → Rseq.Step T s t lab s' → lab ≠ .user →
      (∀ f, lab = .invoke f → Rseq.ListCall K G s.mem t (s.th t).saved.length f) →
      R s' (Rseq.applyOp G t (s.th t).saved.length (Rseq.committing T s t lab)))
    {s : State wb} {G : Stacks wb} (h : R s G) (t : Nat) (c : BitVec 32) (pid : Nat)
    (op : Op wb) (hal : (T pid).al = Rseq.exAl) (hkind : (T pid).kind = op.kind)
    (hcall : Rseq.CallOK (T pid).arch Rseq.exAl op) (htidy : Rseq.Tidy op)
    (hop : Rseq.ListCall K G s.mem t 0 (Rseq.frame0 pid .cpuId c op s.mem)) (m' : Rseq.Mem wb)
    (hres : (0, m') = Rseq.pseudo K.be op s.mem) (hr : (s.th t).run = true)
    (htop : (s.th t).top = none) (hsv : (s.th t).saved = []) (hreg : (s.th t).reg = true)
    (hid : (s.th t).cpuId = c) :
    ∃ s' cs, R s' (Rseq.applyOp G t 0 (some (Rseq.frame0 pid .cpuId c op s.mem))) ∧
      s'.th = Rseq.upd s.th t { s.th t with cs := cs } ∧ s'.mem = m' := by
  refine Rseq.alone_call (T := T)
    (P := fun s1 => ∃ f, (s1.th t).top = some f ∧ (s1.th t).saved = [] ∧ f.op = op ∧ f.cpu = c ∧
      ((f.commits = 0 ∧ R s1 G) ∨
       (f.commits = 1 ∧ R s1 (Rseq.applyOp G t 0 (some (Rseq.frame0 pid .cpuId c op s.mem))))))
    (t := t) (s := s) (by decide) pid .cpuId c op hkind hal (by rw [hal]; exact hcall) htidy hr htop hreg 0 m'
    (by rw [if_pos (show (s.th t).fv .cpuId = c from hid), hbe]; exact hres) ?_ ?_ ?_
  · intro s' hs
    have hd : (s.th t).saved.length = 0 := by rw [hsv]; rfl
    have := hR _ _ _ _ _ h hs (by simp) (fun f hf => by injection hf with hf; subst hf; rw [hd]; exact hop)
    cases hs with
    | invoke _ _ _ hst =>
      refine ⟨_, by simp only [State.set, Rseq.updT_same], by simp only [State.set, Rseq.updT_same]; exact hsv, rfl, rfl,
        .inl ⟨hst.commits, this⟩⟩
  · rintro a b ⟨f, hf, hsa, f1, f2, hor⟩ hs
    have hd : (a.th t).saved.length = 0 := by rw [hsa]; rfl
    have hP : ∀ G1, R a G1 → Rseq.PReach T m0 a :=
      fun G1 h => ((hRS _ _ h).inv (by decide) hbe hK h0).reach
    obtain ⟨f', i, g, k1, k2, k3, k4, k5, k6, k7⟩ := Rseq.exec_top hs
    rw [hf] at k1; injection k1 with k1; subst k1
    have hstep : ∀ G1, R a G1 → R b (Rseq.applyOp G1 t 0 (Rseq.committing T a t .exec)) := fun G1 h1 => by
      have := hR _ _ _ _ _ h1 hs (by simp) (fun f hf => by simp at hf)
      rw [hd] at this
      exact this
    refine ⟨g, k3, k4.trans hsa, k5.trans f1, k6.trans f2, ?_⟩
    rw [k7]
    by_cases hcm : i + 1 = (T f.pid).prog.commit
    · rw [if_pos hcm]
      rw [Rseq.committing_eq hf k2 hcm] at hstep
      have Z := (T f.pid).facts
      have hz : Rseq.zone (T f.pid).prog f.l.pc = .body := by
        rw [k2]
        have := Z.sc; have := Z.cc; have := Z.ca; have := Z.an; have := Z.nl
        rcases Rseq.zone_at_cases Z (i := i) with h'|h'|h'|h'|h'|h'|h' <;>
          first | exact h'.1 | omega
      rcases hor with ⟨q1, q2⟩ | ⟨q1, q2⟩
      · refine .inr ⟨by rw [q1], ?_⟩
        have heq : Rseq.applyOp G t 0 (some f) = Rseq.applyOp G t 0 (some (Rseq.frame0 pid .cpuId c op s.mem)) := by
          simp only [Rseq.applyOp]
          rw [f1, f2]
          rfl
        rw [← heq]
        exact hstep G q2
      · exfalso
        have hI := (hP _ q2).inv (by decide)
        have := (((hI.th t).top f hf).rng (.inr hz)).commits
        omega
    · rw [if_neg hcm]
      have hcn : Rseq.committing T a t .exec = none := by
        cases hx : Rseq.committing T a t .exec with
        | none => rfl
        | some g' =>
          obtain ⟨-, r1, i', r2, r3⟩ := Rseq.committing_some hx
          rw [hf] at r1; injection r1 with r1; subst r1
          rw [k2] at r2; injection r2 with r2; subst r2
          exact absurd r3 hcm
      rw [hcn] at hstep
      rcases hor with ⟨q1, q2⟩ | ⟨q1, q2⟩
      · exact .inl ⟨q1, hstep G q2⟩
      · exact .inr ⟨q1, hstep _ q2⟩
  · rintro a b f ⟨f', hf', hsa, f1, f2, hor⟩ hf hpc hop' hfld hcpu _ hs
    rw [hf] at hf'; injection hf' with hf'; subst hf'
    rcases hor with ⟨q1, q2⟩ | ⟨q1, q2⟩
    · exfalso
      have := (Rseq.returns_effect (by decide) hbe hK h0 (hRS _ _ q2) (d := (a.th t).saved.length)
        (by rw [Rseq.frameAt_top rfl]; exact hf) hpc).1
      rw [q1] at this; simp at this
    · exact hR _ _ _ _ _ q2 hs (by simp) (fun f hf => by simp at hf)

/-- What `malloc` returned. -/
def exPNode (k : BitVec 32) (j : Nat) : W wb :=
  if k = 0#32 then (if j = 1 then 0x900000#64 else 0x900010#64) else (if j = 1 then 0x900020#64 else 0x900030#64)

/-- The local variable of thread 0. -/
def exPPriv (t d : Nat) (a : W wb) : Prop := t = 0 ∧ d = 0 ∧ Rseq.InWord (n := wb) 0xa00000#64 a

theorem ex_list_setup : ∃ s0, testSetup (BitVec.ofNat _ wb) true 4096 2 true true { base := some 1048576 } exMem
      { base := none } = some (exTest 3, 1048576, s0) ∧ ∀ r ∈ s0.pool.ranges, r.base = 1048576 :=
  ⟨_, rfl, fun r hr => (congrArg (·.base) (List.mem_singleton.1 hr)).trans rfl⟩

theorem ex_node {x : W wb} (h : IsNode (exTest 3) exPNode 2 x) : ∃ i, i < 4 ∧ x = BitVec.ofNat 64 (0x900000 + 16 * i) := by
  obtain ⟨k, hk, j, h1, h2, rfl⟩ := h
  have hk : k = 0#32 ∨ k = 1#32 := by simpa [cpus, exTest, List.range_succ] using hk
  have hj : j = 1 ∨ j = 2 := by omega
  rcases hk with rfl | rfl <;> rcases hj with rfl | rfl
  · exact ⟨0, by decide, rfl⟩
  · exact ⟨1, by decide, rfl⟩
  · exact ⟨2, by decide, rfl⟩
  · exact ⟨3, by decide, rfl⟩

theorem ex_in_node {x a : W wb} {i : Nat} (hi : i < 4) (hx : x = BitVec.ofNat 64 (0x900000 + 16 * i)) (h : InNode x a) :
    0x900000 + 16 * i ≤ a.toNat ∧ a.toNat < 0x900000 + 16 * i + 16 := by
  have hi : i = 0 ∨ i = 1 ∨ i = 2 ∨ i = 3 := by omega
  have hb : ∀ (b a : BitVec 64), b.toNat < 0x900040 → (a - b).toNat < 8 → b.toNat ≤ a.toNat ∧ a.toNat < b.toNat + 8 := by
    intro b a h1 h2
    bv_omega
  rcases h with h | h <;> rcases hi with rfl | rfl | rfl | rfl <;> subst hx
  · have := hb 0x900000#64 a (by decide) h; simp at this; omega
  · have := hb 0x900010#64 a (by decide) h; simp at this; omega
  · have := hb 0x900020#64 a (by decide) h; simp at this; omega
  · have := hb 0x900030#64 a (by decide) h; simp at this; omega
  · have := hb 0x900008#64 a (by decide) h; simp at this; omega
  · have := hb 0x900018#64 a (by decide) h; simp at this; omega
  · have := hb 0x900028#64 a (by decide) h; simp at this; omega
  · have := hb 0x900038#64 a (by decide) h; simp at this; omega

theorem ex_in_word {b a : W wb} (h1 : b.toNat < 0xf00000) (h2 : Rseq.InWord b a) :
    b.toNat ≤ a.toNat ∧ a.toNat < b.toNat + 8 := by
  have hb : ∀ (b a : BitVec 64), b.toNat < 0xf00000 → (a - b).toNat < 8 → b.toNat ≤ a.toNat ∧ a.toNat < b.toNat + 8 := by
    intro b a h1 h2
    bv_omega
  exact hb b a h1 h2

theorem ex_outside {g : Ghost} (hb : ∀ r ∈ g.s.pool.ranges, r.base = 1048576) {x : Nat}
    (h : x < 1048576 ∨ 1048576 + 65536 * 3 ≤ x) : Outside (exTest 3) g x := by
  intro r hr hx
  have e : Mempool.rangeLen (exTest 3) = 65536 * 3 := rfl
  unfold InRegion at hx
  rw [hb r hr, e] at hx
  omega

theorem ex_heap {g : Ghost} (hb : ∀ r ∈ g.s.pool.ranges, r.base = 1048576) :
    Heap (exTest 3) g exPNode 2 exPPriv where
  apart := by
    intro k hk k' hk' j j' h1 h2 h1' h2' a ha ha'
    have kk : ∀ k ∈ cpus (exTest 3), k = 0#32 ∨ k = 1#32 := fun k hk => by
      simpa [cpus, exTest, List.range_succ] using hk
    have hj : j = 1 ∨ j = 2 := by omega
    have hj' : j' = 1 ∨ j' = 2 := by omega
    have key : ∀ k j, (k = 0#32 ∨ k = 1#32) → (j = 1 ∨ j = 2) → InNode (exPNode k j) a →
        0x900000 + 16 * (2 * k.toNat + (j - 1)) ≤ a.toNat ∧ a.toNat < 0x900000 + 16 * (2 * k.toNat + (j - 1)) + 16 := by
      intro k j h1 h2 h
      rcases h1 with rfl | rfl <;> rcases h2 with rfl | rfl <;>
        exact ex_in_node (by decide) rfl h
    have e1 := key k j (kk k hk) hj ha
    have e2 := key k' j' (kk k' hk') hj' ha'
    rcases kk k hk with rfl | rfl <;> rcases kk k' hk' with rfl | rfl <;> simp at e1 e2 ⊢ <;> omega
  nonnull := fun h => by
    obtain ⟨i, hi, e⟩ := ex_node h
    have hi : i = 0 ∨ i = 1 ∨ i = 2 ∨ i = 3 := by omega
    rcases hi with rfl | rfl | rfl | rfl <;> exact absurd e (by decide)
  node_out := fun x a hx ha => by
    obtain ⟨i, hi, e⟩ := ex_node hx
    have := ex_in_node hi e ha
    exact ex_outside hb (by omega)
  priv_out := fun t d a h => by
    have := ex_in_word (b := 0xa00000#64) (by decide) h.2.2
    simp at this
    exact ex_outside hb (by omega)
  node_priv := fun x t d a hx ha h => by
    obtain ⟨i, hi, e⟩ := ex_node hx
    have h1 := ex_in_node hi e ha
    have h2 := ex_in_word (b := 0xa00000#64) (by decide) h.2.2
    simp at h2
    omega
  priv_priv := fun t d t' d' a h h' => ⟨h.1.trans h'.1.symm, h.2.1.trans h'.2.1.symm⟩
  null_out := fun a h => by
    have := ex_in_word (b := 8#64) (by decide) h
    simp at this
    exact ex_outside hb (by omega)
  null_priv := fun t d a h h' => by
    have h1 := ex_in_word (b := 0xa00000#64) (by decide) h'.2.2
    have h2 := ex_in_word (b := 8#64) (by decide) h
    simp at h1 h2
    omega
  null_node := fun x a hx ha h => by
    obtain ⟨i, hi, e⟩ := ex_node hx
    have h1 := ex_in_node hi e ha
    have h2 := ex_in_word (b := 8#64) (by decide) h
    simp at h2
    omega

abbrev exPK : Rseq.ListLayout wb := listLayout false .cpuId (exTest 3) 1048576 exPNode 2 exPPriv

/-- The abstract lists after the setup: two nodes each, the last one allocated first. -/
theorem ex_fresh : (Stacks.fresh (Rseq.listNodes (n := wb) exPNode 2)).stk 1#32 = [0x900030#64, 0x900020#64] ∧
    (Stacks.fresh (Rseq.listNodes (n := wb) exPNode 2)).stk 0#32 = [0x900010#64, 0x900000#64] := ⟨rfl, rfl⟩

/-- A thread takes the first node of the list of CPU 1, migrates, and puts it into the list of CPU 0; the test ends
with the sum 2 * (1 + 2) and passes. -/
theorem ex_list_test : ∃ (s0 : Mempool.State) (m0 : Rseq.Mem wb) (g1 : Ghost) (s : State wb) (G : Stacks wb) (g : Ghost)
    (m' : Rseq.Mem wb) (g2 : Ghost), testSetup (BitVec.ofNat _ wb) true 4096 2 true true
      { base := some 1048576 } exMem { base := none } = some (exTest 3, 1048576, s0) ∧
    Rseq.listSetup exPK nodeData exPNode 2 (view (exTest 3) s0.mem) = some (m0, 6#64) ∧
    m0 = view (exTest 3) g1.s.mem ∧
    ListPool Rseq.listSites exPK (exTest 3) 1048576 (Stacks.fresh (Rseq.listNodes exPNode 2)) g1 s G g ∧
    G.stk 1#32 = [0x900020#64] ∧ G.stk 0#32 = [0x900030#64, 0x900010#64, 0x900000#64] ∧
    Rseq.popAll false nodeNext nodeData (ctr (exTest 3) 1048576 0) 5 (cpus (exTest 3)) (view (exTest 3) g.s.mem) 0#64 =
      some (m', 6#64) ∧ m' = view (exTest 3) g2.s.mem ∧
    testEnd (exTest 3) 1048576 6#64 6#64 (fun _ => true) g2.s = .passes := by
  obtain ⟨s0, hs, hb⟩ := ex_list_setup
  have hbe : ∀ q, (Rseq.listSites q).prog.be = false := Rseq.listSites_be
  have hn : (exTest 3).ncpu ≤ 2 ^ 32 := by decide
  obtain ⟨hg, -, -, -, -, -⟩ := testSetup_spec (c := exTest 3) (p := 1048576) (by decide) ⟨12, by decide⟩ exMem_wf
    ex_inc_env hs
  have hp : 1048576 ∈ (⟨s0, [1048576], []⟩ : Ghost).live := .head _
  have hH : Heap (exTest 3) ⟨s0, [1048576], []⟩ exPNode 2 exPPriv := ex_heap hb
  obtain ⟨m0, f1, ⟨g1, w1, v1⟩, hmain⟩ := list_test_pool (T := Rseq.listSites) (fld := .cpuId) hbe ⟨12, by decide⟩
    (by decide) exMem_wf ex_inc_env hs hH (by decide)
  obtain ⟨j1, j2, j3⟩ := w1.hist hg hp
  have hp1 : 1048576 ∈ g1.live := j2 ▸ hp
  have hH1 : Heap (exTest 3) g1 exPNode 2 exPPriv := ex_heap (by rw [j3]; exact hb)
  have hK := layout_ok (be := false) (fld := .cpuId) j1 hp1 hn hH1
  have hz : ∀ k ∈ exPK.cpus, Rseq.ldw false (view (exTest 3) s0.mem) (ctr (exTest 3) 1048576 0 k) = 0#_ := by
    obtain ⟨-, -, -, e2, -, hz⟩ := testSetup_spec (c := exTest 3) (p := 1048576) (by decide) ⟨12, by decide⟩ exMem_wf
      ex_inc_env hs
    exact fun k hk => zero_word hg hp hn (off := 0) (by decide) hz hk
  have hinit : Rseq.StackInit exPK (view (exTest 3) g1.s.mem) (Stacks.fresh (Rseq.listNodes exPNode 2)) := by
    obtain ⟨m1, q1, q2, -⟩ := Rseq.list_setup (layout_ok (be := false) (fld := .cpuId) hg hp hn hH) (nodup_cpus hn)
      (data_apart (be := false) (fld := .cpuId) hg hp hn hH) (nodes_ok (be := false) (fld := .cpuId) (p := 1048576) hH) hz
    rw [f1] at q1
    cases q1
    rw [← v1]
    exact q2
  let R : State wb → Stacks wb → Prop := fun s G => ∃ g, ListPool Rseq.listSites exPK (exTest 3) 1048576
    (Stacks.fresh (Rseq.listNodes exPNode 2)) g1 s G g ∧ Heap (exTest 3) g exPNode 2 exPPriv
  have hRS : ∀ s G, R s G → Rseq.SReach Rseq.listSites exPK (view (exTest 3) g1.s.mem)
      (Stacks.fresh (Rseq.listNodes exPNode 2)) s G := fun s G ⟨g, h, _⟩ => (h.sound j1 hp1 hn).2.2.2
  have hR : ∀ s G t lab s', R s G → Rseq.Step Rseq.listSites s t lab s' → lab ≠ .user →
      (∀ f, lab = .invoke f → Rseq.ListCall exPK G s.mem t (s.th t).saved.length f) →
      R s' (Rseq.applyOp G t (s.th t).saved.length (Rseq.committing Rseq.listSites s t lab)) := by
    rintro s G t lab s' ⟨g, h, hh⟩ hst hl hi
    obtain ⟨g', -, h1, h2⟩ := (list_pool_total hbe j1 hp1 hn hH1 hinit h hh).1 t lab s' hst hl hi
    exact ⟨g', h2, h1⟩
  have inv := fun s G (h : R s G) => (hRS s G h).inv wb_ge hbe hK hinit
  have h0 : R { mem := view (exTest 3) g1.s.mem, th := fun _ => Rseq.thread0 } (Stacks.fresh (Rseq.listNodes exPNode 2)) :=
    ⟨g1, .init, hH1⟩
  -- thread 0 starts on CPU 1 and registers
  have h1 := hR _ _ 0 _ _ h0 (Rseq.Step.resume (t := 0) 1#32 1#32 rfl (fun u _ h => by simp [Rseq.thread0] at h)) (by simp)
    (fun f hf => by simp at hf)
  have h2 := hR _ _ 0 _ _ h1 (Rseq.Step.register (t := 0) (by simp [State.set, Rseq.upd])
    (by simp [State.set, Rseq.upd, Rseq.fixTop, Rseq.thread0]) (by simp [State.set, Rseq.upd, Rseq.thread0])
    (by simp [State.set, Rseq.upd, Rseq.thread0])) (by simp) (fun f hf => by simp at hf)
  simp only [Rseq.committing, Rseq.applyOp] at h1 h2
  obtain ⟨s2, hs2⟩ : ∃ s2 : State wb, R s2 (Stacks.fresh (Rseq.listNodes exPNode 2)) ∧
      s2.th = Rseq.upd (fun _ => Rseq.thread0) 0 (Rseq.th1 true 1#32 1#32) := by
    refine ⟨_, h2, ?_⟩
    funext u
    simp only [State.set]
    by_cases e : u = 0
    · subst e; simp [Rseq.updT_same, Rseq.th1, Rseq.thread0, Rseq.fixTop, Rseq.fixCs]
    · rw [Rseq.updT_other _ _ e, Rseq.updT_other _ _ e, Rseq.updT_other _ _ e]
  clear h0 h1 h2
  obtain ⟨h2, e2⟩ := hs2
  -- it takes the first node of the list of CPU 1
  have l2 : Rseq.IsList false nodeNext s2.mem (Rseq.ldw false s2.mem (ctr (exTest 3) 1048576 0 1#32))
      [0x900030#64, 0x900020#64] := (inv _ _ h2).list 1#32 (by decide)
  obtain ⟨s3, cs3, h3, e3, m3⟩ := solo_list_call hbe hK hinit R hRS hR h2 0 1#32 1
    (.cbeqStoreAddLoadStore (ctr (exTest 3) 1048576 0 1#32) 0#_ nodeNext 0xa00000#64) rfl rfl trivial
    (fun x h1 h2 => hK.head_priv 1#32 (by decide) 0 0 x h2 ⟨rfl, rfl, h1⟩)
    ⟨rfl, (by decide : 1#32 ∈ cpus (exTest 3)), .inr ⟨0xa00000#64, rfl, fun a ha => ⟨rfl, rfl, ha⟩⟩⟩
    _ (by
      simp only [Rseq.pseudo]
      rw [if_neg (by
        show Rseq.ldw false s2.mem _ ≠ _
        rw [l2.1]; decide)])
    (by simp [e2, Rseq.upd, Rseq.th1]) (by simp [e2, Rseq.upd, Rseq.th1, Rseq.thread0])
    (by simp [e2, Rseq.upd, Rseq.th1, Rseq.thread0])
    (by simp [e2, Rseq.upd, Rseq.th1]) (by simp [e2, Rseq.upd, Rseq.th1])
  -- it migrates
  have h4 := hR _ _ 0 _ _ h3 (Rseq.Step.preempt (t := 0) (by simp [e3, e2, Rseq.upd, Rseq.th1])) (by simp)
    (fun f hf => by simp at hf)
  have h5 := hR _ _ 0 _ _ h4 (Rseq.Step.resume (t := 0) 0#32 0#32 (by simp [State.set, Rseq.upd]) (by
    intro u hu hr
    simp only [State.set] at hr
    rw [Rseq.updT_other _ _ hu, e3, Rseq.updT_other _ _ hu, e2, Rseq.updT_other _ _ hu] at hr
    simp [Rseq.thread0] at hr)) (by simp) (fun f hf => by simp at hf)
  simp only [Rseq.committing] at h4 h5
  obtain ⟨s5, G5, h5, ⟨r1, r2, r3, r4, r5⟩, o5, a5, b5, c5⟩ : ∃ (s5 : State wb) (G5 : Stacks wb), R s5 G5 ∧
      ((s5.th 0).run = true ∧ (s5.th 0).top = none ∧ (s5.th 0).saved = [] ∧ (s5.th 0).reg = true ∧
        (s5.th 0).cpuId = 0#32) ∧
      G5.own 0x900030#64 = some (0, 0) ∧ G5.stk 1#32 = [0x900020#64] ∧ G5.stk 0#32 = [0x900010#64, 0x900000#64] ∧
      ∀ x, x ≠ 0x900030#64 → G5.own x = none := by
    refine ⟨_, _, h5, ⟨by simp [State.set, Rseq.upd], by simp [e3, e2, Rseq.upd, State.set, Rseq.fixTop, Rseq.th1, Rseq.thread0],
      by simp [e3, e2, Rseq.upd, State.set, Rseq.th1, Rseq.thread0], by simp [e3, e2, Rseq.upd, State.set, Rseq.th1],
      by simp [e3, e2, Rseq.upd, State.set, Rseq.th1]⟩, rfl, rfl, rfl, ?_⟩
    intro x hx
    show (if x = 0x900030#64 then _ else _) = none
    rw [if_neg hx]
    rfl
  clear h4
  -- it stores the head of the list of CPU 0 into `node->next`, and adds the node to that list
  obtain ⟨g5, p5, q5⟩ := h5
  obtain ⟨g6, -, q6, p6⟩ := (list_pool_total hbe j1 hp1 hn hH1 hinit p5 q5).2 0 0x900030#64
    (Rseq.ldw false s5.mem (ctr (exTest 3) 1048576 0 0#32)) r1 r2 (by rw [r3]; exact o5)
  have hnode : IsNode (exTest 3) exPNode 2 0x900030#64 := ⟨1#32, by decide, 2, by decide, by decide, rfl⟩
  obtain ⟨s7, cs7, ⟨g, h7, -⟩, e7, m7⟩ := solo_list_call hbe hK hinit R hRS hR (s := { s5 with mem := _ }) ⟨g6, p6, q6⟩ 0 0#32 0
    (.cbneStore (ctr (exTest 3) 1048576 0 0#32) (Rseq.ldw false s5.mem (ctr (exTest 3) 1048576 0 0#32)) 0x900030#64)
    rfl rfl trivial trivial
    ⟨rfl, (by decide : 0#32 ∈ cpus (exTest 3)), .inl ⟨_, _, rfl, o5, Rseq.ldw_stw_same _ _ _ _⟩⟩
    _ (by
      simp only [Rseq.pseudo]
      rw [if_neg (by
        rw [Classical.not_not]
        exact Rseq.ldw_stw_ne _ _ _ _ _ fun a h1 h2 => hK.head_next 0#32 (by decide) _ a hnode h1 h2)])
    r1 r2 r3 r4 r5
  obtain ⟨m', sum, t1, ⟨g2, w2, v2⟩, t2⟩ := hmain g1 w1 v1 h7 (fun x => by
    show (if x = 0x900030#64 then none else G5.own x) = none
    split
    · rfl
    · next hx => exact c5 x hx) 5 (by decide)
  have t3 := t2 g2 w2 v2 (fun _ => true)
  have hsum : sum = 6#64 := by
    refine Classical.byContradiction fun hne => ?_
    unfold testEnd at t3
    rw [if_neg hne] at t3
    cases t3
  rw [hsum] at t1 t3
  refine ⟨s0, m0, g1, s7, _, g, m', g2, hs, f1, v1, h7, ?_, ?_, t1, v2, t3⟩
  · show (if (1#32 : BitVec 32) = 0#32 then 0x900030#64 :: G5.stk 0#32 else G5.stk 1#32) = _
    rw [if_neg (by decide)]; exact a5
  · show (if (0#32 : BitVec 32) = 0#32 then 0x900030#64 :: G5.stk 0#32 else G5.stk 0#32) = _
    rw [if_pos rfl, b5]

end Verif.Joint
