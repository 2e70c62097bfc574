import Verif.RseqSpinProps
import Verif.RseqLockEx
/-
An execution of the spinlock test that meets the hypotheses of RseqSpinProps: the holder of a lock migrates between
the load and the store of `count++`, meanwhile a second thread on the holder's CPU fails to take the lock.
-/

namespace Verif.Rseq

/-- The counter of a CPU, beside its lock. -/
def exSpinCtr (c : BitVec 32) : W 8 := exCtr c + 64#64

abbrev exSpin := SpinReach (fun _ => lockSite) .cpuId false exCtr exSpinCtr exCpus 2 (fun _ => 0#8)

theorem exSpin_apart : SpinApart exCtr exSpinCtr exCpus where
  nodup := by decide
  lock_lock := exCtr_apart
  ctr_ctr := by
    intro c hc c' hc' a h h'
    have e : ∀ c, InWord (exSpinCtr c) a → InWord (exCtr c) (a - 64#64) := by
      intro c h
      have h : (a - (exCtr c + 64#64)).toNat < 8 := h
      show (a - 64#64 - exCtr c).toNat < 8
      have : a - 64#64 - exCtr c = a - (exCtr c + 64#64) := by grind
      rw [this]; exact h
    exact exCtr_apart c hc c' hc' (a - 64#64) (e c h) (e c' h')
  lock_ctr := by
    intro c hc c' hc' a h h'
    have e3 : exCtr 3#32 = 0x1180#64 := by decide
    have e4 : exCtr 4#32 = 0x1200#64 := by decide
    have h : (a - exCtr c).toNat < 8 := h
    have h' : (a - (exCtr c' + 64#64)).toNat < 8 := h'
    simp only [exCpus, List.mem_cons, List.not_mem_nil, or_false] at hc hc'
    rcases hc with rfl | rfl <;> rcases hc' with rfl | rfl <;> simp only [e3, e4] at h h' <;> bv_omega

/-- One attempt of `rseq_this_cpu_lock`. -/
theorem ex_spin_lock {s : State 8} {P : Loops 8} (h : exSpin s P) (t : Nat) (c : BitVec 32)
    (hc : c ∈ exCpus) (r : Int) (m' : Mem 8)
    (hres : (r, m') = pseudo false (.cbneStore (exCtr c) 0#_ 1#_) s.mem) (hr : (s.th t).run = true)
    (htop : (s.th t).top = none) (hsv : (s.th t).saved = []) (hreg : (s.th t).reg = true)
    (hid : (s.th t).cpuId = c) (hp : P.ph t 0 = .idle) :
    ∃ s' cs, exSpin s' (if r = 0 then P.at t 0 (.got c) else P) ∧
      s'.th = upd s.th t { s.th t with cs := cs } ∧ s'.mem = m' := by
  refine alone_call (T := fun _ => lockSite)
    (P := fun s => exSpin s P ∧ (s.th t).saved = [])
    (t := t) (s := s) (by decide) 0 .cpuId c
    (.cbneStore (exCtr c) 0#_ 1#_) rfl rfl trivial trivial hr htop hreg r m'
    (by rw [if_pos (show (s.th t).fv .cpuId = c from hid)]; exact hres) ?_ ?_ ?_
  · intro s' hs
    refine ⟨SpinReach.step h hs (fun f hf => ?_) (fun hf => by simp at hf), ?_⟩
    · injection hf with hf; subst hf; exact ⟨by rw [hsv]; exact hp, rfl, hc, rfl⟩
    · cases hs with
      | invoke => simp only [State.set, updT_same]; exact hsv
  · intro a b ha hs
    exact ⟨SpinReach.step ha.1 hs (fun f hf => by simp at hf) (fun hf => by simp at hf),
      (exec_saved hs).trans ha.2⟩
  · intro a b f ha hf hpc hop hfld hcpu _ hs
    have := SpinReach.step ha.1 hs (fun f hf => by simp at hf) (fun hf => by simp at hf)
    unfold Loops.call at this
    rw [hf] at this
    dsimp only at this
    rw [hpc, hcpu, ha.2] at this
    simpa using this

theorem ex_on_spin {s : State 8} {P : Loops 8} (h : exSpin s P) (t : Nat) (c : BitVec 32)
    (hoth : ∀ u, u ≠ t → (s.th u).run = true → (s.th u).kcpu ≠ c ∧ (s.th u).kcid ≠ c)
    (h0 : s.th t = thread0) :
    ∃ s', exSpin s' P ∧ s'.th = upd s.th t (th1 true c c) ∧ s'.mem = s.mem := by
  have h1 := SpinReach.step h (Step.resume (t := t) c c (by rw [h0]; rfl) hoth) (fun f hf => by simp at hf)
    (fun hf => by simp at hf)
  have h2 := SpinReach.step h1 (Step.register (t := t) (by simp [State.set, upd])
    (by simp [State.set, upd, fixTop, h0, thread0]) (by simp [State.set, upd, h0, thread0])
    (by simp [State.set, upd, h0, thread0])) (fun f hf => by simp at hf) (fun hf => by simp at hf)
  refine ⟨_, h2, ?_, rfl⟩
  funext u
  simp only [State.set]
  by_cases e : u = t
  · subst e; simp [updT_same, th1, thread0, fixTop, fixCs, h0]
  · rw [updT_other _ _ e, updT_other _ _ e, updT_other _ _ e]

/-- Thread 0 takes the lock of CPU 3, loads the counter and migrates to CPU 4; thread 1 runs on CPU 3 and fails to
take the lock; thread 0 stores the counter and unlocks; thread 1 takes the lock and increments. -/
theorem ex_spin : ∃ s P s' P', exSpin s P ∧ P.ph 0 0 = .loaded 3#32 0#64 ∧ (s.th 0).kcpu = 4#32 ∧
    (s.th 1).kcpu = 3#32 ∧ exSpin s' P' ∧ ∀ t < 2, P'.done t = 1 := by
  have h0 : exSpin _ _ := SpinReach.init
  obtain ⟨s1, h1, e1, m1⟩ := ex_on_spin h0 0 3#32 (fun u _ h => by simp [thread0] at h) rfl
  obtain ⟨s2, cs2, h2, e2, m2⟩ := ex_spin_lock h1 0 3#32 (by decide) 0 _ (by rw [m1]; rfl) (by simp [e1, upd, th1])
    (by simp [e1, upd, th1, thread0]) (by simp [e1, upd, th1, thread0]) (by simp [e1, upd, th1])
    (by simp [e1, upd, th1]) rfl
  rw [if_pos rfl] at h2
  have sv2 : (s2.th 0).saved.length = 0 := by simp [e2, e1, upd, th1, thread0]
  have hz : ldw false s2.mem (exSpinCtr 3#32) = 0#64 := by
    rw [m2, ldw_stw_ne _ _ _ _ _ fun x hx hx' =>
      exSpin_apart.lock_ctr 3#32 (by decide) 3#32 (by decide) x hx' hx]
    decide
  have h3 := SpinReach.load h2 (t := 0) (c := 3#32) (by simp [e2, e1, upd, th1]) (by simp [e2, e1, upd, th1, thread0])
    (by rw [sv2, ph_at, if_pos ⟨rfl, rfl⟩])
  rw [hz, sv2] at h3
  -- migration
  have h4 := SpinReach.step h3 (Step.preempt (t := 0) (by simp [e2, e1, upd, th1])) (fun f hf => by simp at hf)
    (fun hf => by simp at hf)
  have h5 := SpinReach.step h4 (Step.resume (t := 0) 4#32 4#32 (by simp [State.set, upd]) (by
    intro u hu hr
    simp only [State.set] at hr
    rw [updT_other _ _ hu, e2, updT_other _ _ hu, e1, updT_other _ _ hu] at hr
    simp [thread0] at hr)) (fun f hf => by simp at hf) (fun hf => by simp at hf)
  unfold Loops.call at h4 h5
  dsimp only at h4 h5
  -- thread 1 on CPU 3
  obtain ⟨s6, h6, e6, m6⟩ := ex_on_spin h5 1 3#32 (by
    intro u hu hr
    by_cases e : u = 0
    · subst e; simp [State.set, upd]
    · simp only [State.set] at hr
      rw [updT_other _ _ e, updT_other _ _ e, e2, updT_other _ _ e, e1, updT_other _ _ e] at hr
      simp [thread0] at hr) (by simp [State.set, upd, e2, e1])
  obtain ⟨s7, cs7, h7, e7, m7⟩ := ex_spin_lock h6 1 3#32 (by decide) 1 s6.mem (by
      rw [m6]; simp only [State.set]; rw [m2]
      simp only [pseudo]
      rw [if_pos (by rw [ldw_stw_same]; decide)])
    (by simp [e6, upd, th1]) (by simp [e6, upd, th1, thread0]) (by simp [e6, upd, th1, thread0])
    (by simp [e6, upd, th1]) (by simp [e6, upd, th1]) rfl
  rw [if_neg (by decide)] at h7
  -- thread 0 stores and unlocks
  have sv7 : (s7.th 0).saved.length = 0 := by simp [e7, e6, State.set, upd, e2, e1, th1, thread0]
  have r7 : (s7.th 0).run = true := by simp [e7, e6, upd, State.set]
  have t7 : (s7.th 0).top = none := by simp [e7, e6, upd, State.set, fixTop, e2, e1, th1, thread0]
  have p7 : ((Loops.at (n := 8) { ph := fun _ _ => .idle, done := fun _ => 0 } 0 0 (.got 3#32)).at 0 0
      (.loaded 3#32 0#64)).ph 0 0 = .loaded 3#32 0#64 := rfl
  have h8 := SpinReach.store h7 (t := 0) (c := 3#32) (v := 0#64) (by decide) r7 t7 (by rw [sv7]; exact p7)
  rw [sv7] at h8
  have h9 := SpinReach.unlock h8 (t := 0) (c := 3#32) r7 t7 (by rw [sv7]; rfl)
  rw [sv7] at h9
  -- thread 1
  obtain ⟨s10, cs10, h10, e10, m10⟩ := ex_spin_lock h9 1 3#32 (by decide) 0 _ (by
      simp only [pseudo]
      rw [if_neg (by rw [ldw_stw_same]; simp)])
    (by simp [e7, e6, upd, th1]) (by simp [e7, e6, upd, th1, thread0]) (by simp [e7, e6, upd, th1, thread0])
    (by simp [e7, e6, upd, th1]) (by simp [e7, e6, upd, th1]) rfl
  rw [if_pos rfl] at h10
  have sv10 : (s10.th 1).saved.length = 0 := by simp [e10, e7, e6, State.set, upd, th1, thread0]
  have r10 : (s10.th 1).run = true := by simp [e10, e7, e6, upd, th1]
  have t10 : (s10.th 1).top = none := by simp [e10, e7, e6, upd, th1, thread0]
  have h11 := SpinReach.load h10 (t := 1) (c := 3#32) r10 t10 (by rw [sv10]; rfl)
  rw [sv10] at h11
  have h12 := SpinReach.store h11 (t := 1) (c := 3#32) (v := ldw false s10.mem (exSpinCtr 3#32)) (by decide) r10 t10
    (by rw [sv10]; rfl)
  rw [sv10] at h12
  refine ⟨s7, _, _, _, h7, p7, ?_, ?_, h12, ?_⟩
  · simp [e7, e6, State.set, upd]
  · simp [e7, e6, State.set, upd, th1]
  · intro t ht
    have : t = 0 ∨ t = 1 := by omega
    rcases this with rfl | rfl <;> rfl

theorem exSpin_zero : ∀ c ∈ exCpus, ldw false (fun _ => 0#8) (exCtr c) = 0#(8 * 8) := by
  intro c hc
  simp only [exCpus, List.mem_cons, List.not_mem_nil, or_false] at hc
  rcases hc with rfl | rfl <;> rfl

theorem exSpin_zero' : ∀ c ∈ exCpus, ldw false (fun _ => 0#8) (exSpinCtr c) = 0#(8 * 8) := by
  intro c hc
  simp only [exCpus, List.mem_cons, List.not_mem_nil, or_false] at hc
  rcases hc with rfl | rfl <;> rfl

theorem spin_be (_ : Nat) : lockSite.prog.be = false := rfl

/-- Thread 0 is between the load and the store, on CPU 4, thread 1 on CPU 3: the counter does not change. -/
example : ∃ s P, exSpin s P ∧ P.ph 0 0 = .loaded 3#32 0#64 ∧ (s.th 1).kcpu = 3#32 ∧
    ldw false s.mem (exSpinCtr 3#32) = 0#64 ∧ ldw false s.mem (exCtr 3#32) = 1#64 ∧
    ∀ u e, (P.ph u e).holds = some 3#32 → 0 = u ∧ 0 = e := by
  obtain ⟨s, P, -, -, h, hp, -, hk, -, -⟩ := ex_spin
  have hh : (P.ph 0 0).holds = some 3#32 := by rw [hp]; rfl
  exact ⟨s, P, h, hp, hk, spin_loaded (by decide) spin_be exSpin_apart exSpin_zero h hp,
    spin_assertion (by decide) spin_be exSpin_apart exSpin_zero h hh,
    fun u e he => spin_exclusive (by decide) spin_be exSpin_apart exSpin_zero h hh he⟩

/-- After the store of thread 1 the increments add up to 2. -/
example : ∃ s P, exSpin s P ∧ ∃ inc : BitVec 32 → Nat,
    (∀ c ∈ exCpus, ldw false s.mem (exSpinCtr c) =
      ldw false (fun _ => 0#8 : Mem 8) (exSpinCtr c) + BitVec.ofNat _ (inc c)) ∧ (exCpus.map inc).sum = 2 := by
  obtain ⟨-, -, s, P, -, -, -, -, h, hd⟩ := ex_spin
  obtain ⟨inc, h1, h2⟩ := spin_counts (by decide) spin_be exSpin_apart exSpin_zero h
  refine ⟨s, P, h, inc, h1, h2.trans ?_⟩
  show (List.map P.done [0, 1]).sum = 2
  simp [hd 0 (by decide), hd 1 (by decide)]

/-- Two threads, one iteration each: the sum is 2. -/
example : ∃ s P, exSpin s P ∧ (∀ t < 2, P.done t = 1) ∧ sumCounts false s.mem exSpinCtr exCpus = 2#64 := by
  obtain ⟨-, -, s, P, -, -, -, -, h, hd⟩ := ex_spin
  exact ⟨s, P, h, hd, spin_final (reps := 1) (by decide) spin_be exSpin_apart exSpin_zero exSpin_zero' h hd
    (by decide)⟩

end Verif.Rseq
