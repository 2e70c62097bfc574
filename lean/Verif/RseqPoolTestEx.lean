import Verif.RseqPoolTestProps
import Verif.RseqSpinEx
import Verif.MempoolInstMore

/-! Examples for C104: runs of the spinlock test and of the increment test with two threads on two CPUs. -/

namespace Verif.Joint

open Mempool (Config Ghost Hist cpuAddr RangeEnv)
attribute [local instance] le64

/-- What the setup of the spinlock test creates: 16-byte items for two CPUs. -/
def exTest (order : Nat) : Config where
  pg := 4096
  order := order
  stride := 65536
  ncpu := 2
  cow := true
  robust := false
  poison := none
  maxRanges := 0
  initSet := false
  global := false

def exMem : Verif.Mem := ⟨fun _ => 0#8, fun _ => none⟩

theorem ex_spin_setup : ∃ s0, testSetup (BitVec.ofNat _ (2 * wb)) true 4096 2 true true { base := some 1048576 } exMem
    { base := none } = some (exTest 4, 1048576, s0) := ⟨_, rfl⟩

theorem ex_inc_setup : ∃ s0, testSetup (BitVec.ofNat _ wb) true 4096 2 true true { base := some 1048576 } exMem
    { base := none } = some (exTest 3, 1048576, s0) := ⟨_, rfl⟩

/-- The environment of the setup is a legal one. -/
theorem ex_spin_env : ∀ c s, Mempool.create (some testAttr) (BitVec.ofNat _ (2 * wb)) 4096 2 true true
      { base := some 1048576 } exMem = .pool c s →
    Mempool.EnvOK c [] exMem { base := some 1048576 } ∧ Mempool.EnvOK c s.pool.ranges s.mem { base := none } := by
  intro c s h
  have e : Mempool.create (some testAttr) (BitVec.ofNat _ (2 * wb)) 4096 2 true true { base := some 1048576 } exMem =
    .pool (exTest 4) _ := rfl
  rw [e] at h
  cases h
  exact ⟨Mempool.ex_env_at _ (by decide) (by decide) (by decide), Mempool.ex_env ..⟩

theorem ex_inc_env : ∀ c s, Mempool.create (some testAttr) (BitVec.ofNat _ wb) 4096 2 true true
      { base := some 1048576 } exMem = .pool c s →
    Mempool.EnvOK c [] exMem { base := some 1048576 } ∧ Mempool.EnvOK c s.pool.ranges s.mem { base := none } := by
  intro c s h
  have e : Mempool.create (some testAttr) (BitVec.ofNat _ wb) 4096 2 true true { base := some 1048576 } exMem =
    .pool (exTest 3) _ := rfl
  rw [e] at h
  cases h
  exact ⟨Mempool.ex_env_at _ (by decide) (by decide) (by decide), Mempool.ex_env ..⟩

theorem exMem_wf : exMem.WF := fun x q h => by cases h

/-- The call site of `rseq_load_cbne_store__ptr` on x86-64. -/
def exLockSite : Rseq.Site wb where
  arch := .x86_64
  kind := .cbneStore
  rel := false
  be := false
  al := Rseq.exAl
  csa := 0x8000#64
  prog := Rseq.x86_64_cbneStore Rseq.exAl false 0x8000#64
  ok := rfl

abbrev exSP (g0 : Ghost) := SpinPool (fun _ => exLockSite) .cpuId false (exTest 4) 1048576 2 g0

theorem ex_sp_be : ∀ q : Nat, ((fun _ => exLockSite : Nat → Rseq.Site wb) q).prog.be = false := fun _ => rfl

variable {g0 : Ghost}

/-- A thread starts on CPU `k` and registers. -/
theorem ex_sp_on {s : Rseq.State wb} {P : Rseq.Loops wb} {g : Ghost} (h : exSP g0 s P g) (hm : s.mem = view (exTest 4) g.s.mem)
    (t : Nat) (k : BitVec 32)
    (hoth : ∀ u, u ≠ t → (s.th u).run = true → (s.th u).kcpu ≠ k ∧ (s.th u).kcid ≠ k)
    (h0 : s.th t = Rseq.thread0) :
    ∃ s', exSP g0 s' P g ∧ s'.th = Rseq.upd s.th t (Rseq.th1 true k k) ∧ s'.mem = s.mem := by
  have h1 := SpinPool.step h (Rseq.Step.resume (t := t) k k (by rw [h0]; rfl) hoth) (by simp)
    (fun f hf => by simp at hf) .refl hm
  have h2 := SpinPool.step h1 (Rseq.Step.register (t := t) (by simp [Rseq.State.set, Rseq.upd])
    (by simp [Rseq.State.set, Rseq.upd, Rseq.fixTop, h0, Rseq.thread0])
    (by simp [Rseq.State.set, Rseq.upd, h0, Rseq.thread0])
    (by simp [Rseq.State.set, Rseq.upd, h0, Rseq.thread0])) (by simp) (fun f hf => by simp at hf) .refl hm
  refine ⟨_, h2, ?_, rfl⟩
  funext u
  simp only [Rseq.State.set]
  by_cases e : u = t
  · subst e; simp [Rseq.updT_same, Rseq.th1, Rseq.thread0, Rseq.fixTop, Rseq.fixCs, h0]
  · rw [Rseq.updT_other _ _ e, Rseq.updT_other _ _ e, Rseq.updT_other _ _ e]

/-- A thread that is alone executes one iteration of the loop. -/
theorem ex_sp_iter (hg : Hist (exTest 4) false g0) (hp : 1048576 ∈ g0.live)
    (hz : ∀ k ∈ cpus (exTest 4), Rseq.ldw false (view (exTest 4) g0.s.mem) (spinLock (exTest 4) 1048576 k) = 0#_)
    {s : Rseq.State wb} {P : Rseq.Loops wb} {g : Ghost} (h : exSP g0 s P g) (t : Nat) (htN : t < 2) (k : BitVec 32)
    (hk : k ∈ cpus (exTest 4))
    (hl : ∀ k ∈ cpus (exTest 4), Rseq.ldw false s.mem (spinLock (exTest 4) 1048576 k) = 0#_)
    (hr : (s.th t).run = true) (htop : (s.th t).top = none) (hsv : (s.th t).saved = [])
    (hreg : (s.th t).reg = true) (hid : (s.th t).cpuId = k) (hph : ∀ u, P.ph u 0 = .idle) :
    ∃ s' P' g' cs, exSP g0 s' P' g' ∧ s'.th = Rseq.upd s.th t { s.th t with cs := cs } ∧
      s'.mem = view (exTest 4) g'.s.mem ∧
      (∀ k ∈ cpus (exTest 4), Rseq.ldw false s'.mem (spinLock (exTest 4) 1048576 k) = 0#_) ∧
      (∀ u, P'.ph u 0 = .idle) ∧ ∀ u, P'.done u = if u = t then P.done u + 1 else P.done u := by
  have hA := spin_apart (c := exTest 4) hg hp (by decide) (by decide)
  have tot := fun {s P g} (h : exSP g0 s P g) =>
    spin_pool_total ex_sp_be (c := exTest 4) hg hp (by decide) (by decide) hz h
  obtain ⟨s2, cs, ⟨g2, h2⟩, e2, m2⟩ := Rseq.alone_call (T := fun _ => exLockSite)
    (P := fun s => (∃ g, exSP g0 s P g) ∧ (s.th t).saved = [])
    (Q := fun s => ∃ g, exSP g0 s (P.at t 0 (.got k)) g)
    wb_ge (t := t) (s := s) 0 .cpuId k (.cbneStore (spinLock (exTest 4) 1048576 k) 0#_ 1#_) rfl rfl trivial trivial
    hr htop hreg 0 (Rseq.stw false s.mem (spinLock (exTest 4) 1048576 k) 1#_)
    (by
      rw [if_pos (show (s.th t).fv .cpuId = k from hid)]
      simp only [Rseq.pseudo]
      rw [if_neg (by show ¬ Rseq.ldw false s.mem _ ≠ _; rw [hl k hk]; simp)]
      rfl)
    (fun s' hs => by
      obtain ⟨g', -, h'⟩ := (tot h).1 t _ s' hs (by simp) (fun f hf => by
        injection hf with hf
        subst hf
        exact ⟨by rw [hsv]; exact hph t, rfl, hk, rfl⟩)
      refine ⟨⟨g', h'⟩, ?_⟩
      cases hs with
      | invoke => simp only [Rseq.State.set, Rseq.updT_same]; exact hsv)
    (fun a b ha hs => by
      obtain ⟨⟨g1, h1⟩, hv⟩ := ha
      obtain ⟨g', -, h'⟩ := (tot h1).1 t _ b hs (by simp) (fun f hf => by simp at hf)
      exact ⟨⟨g', h'⟩, (Rseq.exec_saved hs).trans hv⟩)
    (fun a b f ha hf hpc hop hfld hcpu _ hs => by
      obtain ⟨⟨g1, h1⟩, hv⟩ := ha
      obtain ⟨g', -, h'⟩ := (tot h1).1 t _ b hs (by simp) (fun f hf => by simp at hf)
      unfold Rseq.Loops.call at h'
      rw [hf] at h'
      dsimp only at h'
      rw [hpc, hcpu, hv] at h'
      exact ⟨g', h'⟩)
  have r2 : (s2.th t).run = true := by rw [e2]; simp [Rseq.upd, hr]
  have t2 : (s2.th t).top = none := by rw [e2]; simp [Rseq.upd, htop]
  have v2 : (s2.th t).saved.length = 0 := by rw [e2]; simp [Rseq.upd, hsv]
  have h3 := SpinPool.load h2 (t := t) (k := k) r2 t2 (by rw [v2, Rseq.ph_at, if_pos ⟨rfl, rfl⟩])
  rw [v2] at h3
  obtain ⟨g4, -, h4⟩ := (tot h3).2.1 t k _ htN r2 t2 (by rw [v2, Rseq.ph_at, if_pos ⟨rfl, rfl⟩])
  rw [v2] at h4
  obtain ⟨g5, -, h5⟩ := (tot h4).2.2 t k r2 t2 (by
    show ((Rseq.Loops.at _ t 0 (.stored k)).count t).ph t (s2.th t).saved.length = _
    rw [v2]
    exact (Rseq.ph_at _ _ _ _ _ _).trans (if_pos ⟨rfl, rfl⟩))
  have v4 : ∀ mm, ((⟨mm, s2.th⟩ : Rseq.State wb).th t).saved.length = 0 := fun _ => v2
  rw [v4] at h5
  refine ⟨_, _, g5, cs, h5, e2, ?_, ?_, ?_, fun u => rfl⟩
  · exact (h5.sound hg hp (by decide) (by decide)).2.2.1
  · intro k' hk'
    by_cases e : k' = k
    · subst e; exact Rseq.ldw_stw_same ..
    · have d1 : ∀ x, Rseq.InWord (spinLock (exTest 4) 1048576 k') x → ¬ Rseq.InWord (spinLock (exTest 4) 1048576 k) x :=
        fun x hx hx' => e (hA.lock_lock k' hk' k hk x hx hx')
      show Rseq.ldw false (Rseq.stw false (Rseq.stw false s2.mem _ _) _ _) _ = _
      rw [Rseq.ldw_stw_ne _ _ _ _ _ d1, Rseq.ldw_stw_ne _ _ _ _ _ (fun x hx hx' => hA.lock_ctr k' hk' k hk x hx hx'), m2,
        Rseq.ldw_stw_ne _ _ _ _ _ d1]
      exact hl k' hk'
  · intro u
    by_cases e : u = t
    · subst e
      exact (Rseq.ph_at _ _ _ _ _ _).trans (if_pos ⟨rfl, rfl⟩)
    · refine (Rseq.ph_at _ _ _ _ _ _).trans ((if_neg fun h => e h.1).trans ?_)
      refine (Rseq.ph_at _ _ _ _ _ _).trans ((if_neg fun h => e h.1).trans ?_)
      refine (Rseq.ph_at _ _ _ _ _ _).trans ((if_neg fun h => e h.1).trans ?_)
      exact (Rseq.ph_at _ _ _ _ _ _).trans ((if_neg fun h => e h.1).trans (hph u))

/-- Two threads, on CPU 1 and on CPU 0, execute two iterations each; the test passes. -/
theorem ex_spin_test : ∃ s0 s P g, testSetup (BitVec.ofNat _ (2 * wb)) true 4096 2 true true { base := some 1048576 } exMem
      { base := none } = some (exTest 4, 1048576, s0) ∧
    exSP ⟨s0, [1048576], []⟩ s P g ∧ (∀ t < 2, P.done t = 2) ∧
    testEnd (exTest 4) 1048576 (Rseq.sumCounts false (view (exTest 4) g.s.mem) (spinCount (exTest 4) 1048576) (cpus (exTest 4)))
      (2#64 * 2#64) (fun _ => true) g.s = .passes := by
  obtain ⟨s0, hs⟩ := ex_spin_setup
  obtain ⟨hg, -, -, -, -, hzero⟩ := testSetup_spec (c := exTest 4) (p := 1048576) (by decide) ⟨12, by decide⟩ exMem_wf
    ex_spin_env hs
  have hp : 1048576 ∈ (⟨s0, [1048576], []⟩ : Ghost).live := .head _
  have hz : ∀ k ∈ cpus (exTest 4), Rseq.ldw false (view (exTest 4) s0.mem) (spinLock (exTest 4) 1048576 k) = 0#_ :=
    fun k hk => zero_word hg hp (by decide) (off := 0) (by decide) hzero hk
  have h0 : exSP ⟨s0, [1048576], []⟩ _ _ _ := SpinPool.init
  obtain ⟨s1, h1, e1, m1⟩ := ex_sp_on h0 rfl 0 1#32 (fun u _ h => by simp [Rseq.thread0] at h) rfl
  obtain ⟨s2, h2, e2, m2⟩ := ex_sp_on h1 m1 1 0#32 (by
    intro u hu hr
    by_cases e : u = 0
    · subst e; simp [e1, Rseq.upd, Rseq.th1]
    · rw [e1, Rseq.updT_other _ _ e] at hr; simp [Rseq.thread0] at hr) (by simp [e1, Rseq.upd])
  have l2 : ∀ k ∈ cpus (exTest 4), Rseq.ldw false s2.mem (spinLock (exTest 4) 1048576 k) = 0#_ := by
    rw [m2, m1]; exact hz
  obtain ⟨s3, P3, g3, c3, h3, e3, -, l3, p3, d3⟩ := ex_sp_iter hg hp hz h2 0 (by decide) 1#32 (by decide) l2
    (by simp [e2, e1, Rseq.upd, Rseq.th1]) (by simp [e2, e1, Rseq.upd, Rseq.th1, Rseq.thread0])
    (by simp [e2, e1, Rseq.upd, Rseq.th1, Rseq.thread0]) (by simp [e2, e1, Rseq.upd, Rseq.th1])
    (by simp [e2, e1, Rseq.upd, Rseq.th1]) (fun _ => rfl)
  obtain ⟨s4, P4, g4, c4, h4, e4, -, l4, p4, d4⟩ := ex_sp_iter hg hp hz h3 1 (by decide) 0#32 (by decide) l3
    (by simp [e3, e2, Rseq.upd, Rseq.th1]) (by simp [e3, e2, Rseq.upd, Rseq.th1, Rseq.thread0])
    (by simp [e3, e2, Rseq.upd, Rseq.th1, Rseq.thread0]) (by simp [e3, e2, Rseq.upd, Rseq.th1])
    (by simp [e3, e2, Rseq.upd, Rseq.th1]) p3
  obtain ⟨s5, P5, g5, c5, h5, e5, -, l5, p5, d5⟩ := ex_sp_iter hg hp hz h4 1 (by decide) 0#32 (by decide) l4
    (by simp [e4, e3, e2, Rseq.upd, Rseq.th1]) (by simp [e4, e3, e2, Rseq.upd, Rseq.th1, Rseq.thread0])
    (by simp [e4, e3, e2, Rseq.upd, Rseq.th1, Rseq.thread0]) (by simp [e4, e3, e2, Rseq.upd, Rseq.th1])
    (by simp [e4, e3, e2, Rseq.upd, Rseq.th1]) p4
  obtain ⟨s6, P6, g6, c6, h6, e6, -, l6, p6, d6⟩ := ex_sp_iter hg hp hz h5 0 (by decide) 1#32 (by decide) l5
    (by simp [e5, e4, e3, e2, e1, Rseq.upd, Rseq.th1]) (by simp [e5, e4, e3, e2, e1, Rseq.upd, Rseq.th1, Rseq.thread0])
    (by simp [e5, e4, e3, e2, e1, Rseq.upd, Rseq.th1, Rseq.thread0]) (by simp [e5, e4, e3, e2, e1, Rseq.upd, Rseq.th1])
    (by simp [e5, e4, e3, e2, e1, Rseq.upd, Rseq.th1]) p5
  have hd : ∀ t < 2, P6.done t = 2 := by
    intro t ht
    rw [d6, d5, d4, d3]
    have : t = 0 ∨ t = 1 := by omega
    rcases this with rfl | rfl <;> rfl
  refine ⟨s0, s6, P6, g6, hs, h6, hd, ?_⟩
  exact (spinlock_test_passes (N := 2) ex_sp_be ⟨12, by decide⟩ (by decide) exMem_wf ex_spin_env hs h6).2.2 2 hd
    (by decide) _

/-! ### The increment test -/

abbrev exIP (g0 : Ghost) := IncPool (fun _ => exCtrSite) .cpuId (exTest 3) 1048576 2 g0

theorem ex_ip_be : ∀ q : Nat, ((fun _ => exCtrSite : Nat → Rseq.Site wb) q).prog.be = false := fun _ => rfl

theorem ex_ip_on {s : Rseq.State wb} {done : Nat → Nat} {g : Ghost} (h : exIP g0 s done g)
    (hm : s.mem = view (exTest 3) g.s.mem) (t : Nat) (ht : t < 2) (k : BitVec 32)
    (hoth : ∀ u, u ≠ t → (s.th u).run = true → (s.th u).kcpu ≠ k ∧ (s.th u).kcid ≠ k)
    (h0 : s.th t = Rseq.thread0) :
    ∃ s', exIP g0 s' done g ∧ s'.th = Rseq.upd s.th t (Rseq.th1 true k k) ∧ s'.mem = s.mem := by
  have h1 := IncPool.step h (Rseq.Step.resume (t := t) k k (by rw [h0]; rfl) hoth) ht (by simp)
    (fun f hf => by simp at hf) .refl hm
  have h2 := IncPool.step h1 (Rseq.Step.register (t := t) (by simp [Rseq.State.set, Rseq.upd])
    (by simp [Rseq.State.set, Rseq.upd, Rseq.fixTop, h0, Rseq.thread0])
    (by simp [Rseq.State.set, Rseq.upd, h0, Rseq.thread0])
    (by simp [Rseq.State.set, Rseq.upd, h0, Rseq.thread0])) ht (by simp) (fun f hf => by simp at hf) .refl hm
  refine ⟨_, h2, ?_, rfl⟩
  funext u
  simp only [Rseq.State.set]
  by_cases e : u = t
  · subst e; simp [Rseq.updT_same, Rseq.th1, Rseq.thread0, Rseq.fixTop, Rseq.fixCs, h0]
  · rw [Rseq.updT_other _ _ e, Rseq.updT_other _ _ e, Rseq.updT_other _ _ e]

/-- A thread that is alone executes one iteration. -/
theorem ex_ip_iter (hg : Hist (exTest 3) false g0) (hp : 1048576 ∈ g0.live)
    {s : Rseq.State wb} {done : Nat → Nat} {g : Ghost} (h : exIP g0 s done g) (t : Nat) (htN : t < 2) (k : BitVec 32)
    (hk : k ∈ cpus (exTest 3)) (hr : (s.th t).run = true) (htop : (s.th t).top = none)
    (hreg : (s.th t).reg = true) (hid : (s.th t).cpuId = k) :
    ∃ s' g' cs, exIP g0 s' (fun u => if u = t then done u + 1 else done u) g' ∧
      s'.th = Rseq.upd s.th t { s.th t with cs := cs } := by
  have tot := fun {s d g lab s'} (h : exIP g0 s d g) (hs : Rseq.Step (fun _ => exCtrSite) s t lab s') =>
    inc_pool_total ex_ip_be (c := exTest 3) hg hp (by decide) (by decide) h htN hs
  obtain ⟨s2, cs, ⟨g2, h2⟩, e2, -⟩ := Rseq.alone_call (T := fun _ => exCtrSite)
    (P := fun s => ∃ g, exIP g0 s done g)
    (Q := fun s => ∃ g, exIP g0 s (fun u => if u = t then done u + 1 else done u) g)
    wb_ge (t := t) (s := s) 0 .cpuId k (.addStore (ctr (exTest 3) 1048576 0 k) 1#_) rfl rfl trivial trivial
    hr htop hreg 0 _
    (by rw [if_pos (show (s.th t).fv .cpuId = k from hid)]; rfl)
    (fun s' hs => by
      obtain ⟨g', -, h'⟩ := tot h hs (by simp) (fun f hf => by
        injection hf with hf
        subst hf
        exact ⟨rfl, hk, rfl⟩)
      exact ⟨g', h'⟩)
    (fun a b ha hs => by
      obtain ⟨g1, h1⟩ := ha
      obtain ⟨g', -, h'⟩ := tot h1 hs (by simp) (fun f hf => by simp at hf)
      exact ⟨g', h'⟩)
    (fun a b f ha hf hpc hop hfld hcpu _ hs => by
      obtain ⟨g1, h1⟩ := ha
      obtain ⟨g', -, h'⟩ := tot h1 hs (by simp) (fun f hf => by simp at hf)
      unfold Rseq.finished at h'
      rw [hf] at h'
      dsimp only at h'
      rw [if_pos hpc] at h'
      exact ⟨g', h'⟩)
  exact ⟨s2, g2, cs, h2, e2⟩

/-- Two threads, on CPU 1 and on CPU 0, execute two iterations each; the test passes. -/
theorem ex_inc_test : ∃ s0 s done g, testSetup (BitVec.ofNat _ wb) true 4096 2 true true { base := some 1048576 } exMem
      { base := none } = some (exTest 3, 1048576, s0) ∧
    exIP ⟨s0, [1048576], []⟩ s done g ∧ (∀ t < 2, done t = 2) ∧
    testEnd (exTest 3) 1048576 (Rseq.sumCounts false (view (exTest 3) g.s.mem) (ctr (exTest 3) 1048576 0) (cpus (exTest 3)))
      (2#64 * 2#64) (fun _ => true) g.s = .passes := by
  obtain ⟨s0, hs⟩ := ex_inc_setup
  obtain ⟨hg, -, -, -, -, -⟩ := testSetup_spec (c := exTest 3) (p := 1048576) (by decide) ⟨12, by decide⟩ exMem_wf
    ex_inc_env hs
  have hp : 1048576 ∈ (⟨s0, [1048576], []⟩ : Ghost).live := .head _
  have h0 : exIP ⟨s0, [1048576], []⟩ _ _ _ := IncPool.init
  obtain ⟨s1, h1, e1, m1⟩ := ex_ip_on h0 rfl 0 (by decide) 1#32 (fun u _ h => by simp [Rseq.thread0] at h) rfl
  obtain ⟨s2, h2, e2, m2⟩ := ex_ip_on h1 m1 1 (by decide) 0#32 (by
    intro u hu hr
    by_cases e : u = 0
    · subst e; simp [e1, Rseq.upd, Rseq.th1]
    · rw [e1, Rseq.updT_other _ _ e] at hr; simp [Rseq.thread0] at hr) (by simp [e1, Rseq.upd])
  obtain ⟨s3, g3, c3, h3, e3⟩ := ex_ip_iter hg hp h2 0 (by decide) 1#32 (by decide)
    (by simp [e2, e1, Rseq.upd, Rseq.th1]) (by simp [e2, e1, Rseq.upd, Rseq.th1, Rseq.thread0])
    (by simp [e2, e1, Rseq.upd, Rseq.th1]) (by simp [e2, e1, Rseq.upd, Rseq.th1])
  obtain ⟨s4, g4, c4, h4, e4⟩ := ex_ip_iter hg hp h3 1 (by decide) 0#32 (by decide)
    (by simp [e3, e2, Rseq.upd, Rseq.th1]) (by simp [e3, e2, Rseq.upd, Rseq.th1, Rseq.thread0])
    (by simp [e3, e2, Rseq.upd, Rseq.th1]) (by simp [e3, e2, Rseq.upd, Rseq.th1])
  obtain ⟨s5, g5, c5, h5, e5⟩ := ex_ip_iter hg hp h4 1 (by decide) 0#32 (by decide)
    (by simp [e4, e3, e2, Rseq.upd, Rseq.th1]) (by simp [e4, e3, e2, Rseq.upd, Rseq.th1, Rseq.thread0])
    (by simp [e4, e3, e2, Rseq.upd, Rseq.th1]) (by simp [e4, e3, e2, Rseq.upd, Rseq.th1])
  obtain ⟨s6, g6, c6, h6, e6⟩ := ex_ip_iter hg hp h5 0 (by decide) 1#32 (by decide)
    (by simp [e5, e4, e3, e2, e1, Rseq.upd, Rseq.th1]) (by simp [e5, e4, e3, e2, e1, Rseq.upd, Rseq.th1, Rseq.thread0])
    (by simp [e5, e4, e3, e2, e1, Rseq.upd, Rseq.th1]) (by simp [e5, e4, e3, e2, e1, Rseq.upd, Rseq.th1])
  have two : ∀ t, t < 2 → t = 0 ∨ t = 1 := fun t ht => by omega
  refine ⟨s0, s6, _, g6, hs, h6, ?_, ?_⟩
  · intro t ht
    rcases two t ht with rfl | rfl <;> rfl
  · refine inc_test_passes (N := 2) (reps := 2) ex_ip_be ⟨12, by decide⟩ (by decide) exMem_wf ex_inc_env hs h6 ?_ ?_ (by decide) _
    · intro t ht
      rcases two t ht with rfl | rfl <;>
        simp [e6, e5, e4, e3, e2, e1, Rseq.upd, Rseq.th1, Rseq.thread0]
    · intro t ht
      rcases two t ht with rfl | rfl <;> rfl

/-- `testEnd_passes` and `inc_counts` are used in the runs above; a wrong sum fails the assertion. -/
example (s : Mempool.State) : testEnd (exTest 4) 1048576 3#64 4#64 (fun _ => true) s = .assertion := rfl

end Verif.Joint
