import Verif.RseqLock
import Verif.RseqCounterEx
/-
An execution that meets the hypotheses of `lock_exclusive`: the owner migrates, a second thread fails to
take the lock, the owner releases it from another CPU, the second thread takes it.
-/

namespace Verif.Rseq

def lockSite : Site 8 where
  arch := .x86_64
  kind := .cbneStore
  rel := false
  be := false
  al := exAl
  csa := 0x8000#64
  prog := x86_64_cbneStore exAl false 0x8000#64
  ok := rfl

abbrev exLReach := LReach (fun _ => lockSite) .cpuId false exCtr exCpus (fun _ => 0#8)

theorem exec_saved {n : Nat} {T : Nat → Site n} {s s' : State n} {t : Nat} (h : Step T s t .exec s') :
    (s'.th t).saved = (s.th t).saved := by
  cases h with
  | exec => dsimp only; rw [updT_same]

/-- One lock call by a registered thread that runs on CPU `c`, outside of signal handlers. -/
theorem ex_lock {s : State 8} {own : Owners} (h : exLReach s own) (t : Nat) (c : BitVec 32)
    (hc : c ∈ exCpus) (r : Int) (m' : Mem 8)
    (hres : (r, m') = pseudo false (.cbneStore (exCtr c) 0#_ 1#_) s.mem) (hr : (s.th t).run = true)
    (htop : (s.th t).top = none) (hsv : (s.th t).saved = []) (hreg : (s.th t).reg = true)
    (hid : (s.th t).cpuId = c) :
    ∃ s' cs, exLReach s' (if r = 0 then setOwner own c (some (t, 0)) else own) ∧
      s'.th = upd s.th t { s.th t with cs := cs } ∧ s'.mem = m' := by
  refine alone_call (T := fun _ => lockSite)
    (P := fun s => exLReach s own ∧ (s.th t).saved = [])
    (t := t) (s := s) (by decide) 0 .cpuId c
    (.cbneStore (exCtr c) 0#_ 1#_) rfl rfl trivial trivial hr htop hreg r m'
    (by rw [if_pos (show (s.th t).fv .cpuId = c from hid)]; exact hres) ?_ ?_ ?_
  · intro s' hs
    refine ⟨LReach.step h hs (fun f hf => ?_) (fun hf => by simp at hf), ?_⟩
    · injection hf with hf; subst hf; exact ⟨rfl, hc, rfl⟩
    · cases hs with
      | invoke => simp only [State.set, updT_same]; exact hsv
  · intro a b ha hs
    exact ⟨LReach.step ha.1 hs (fun f hf => by simp at hf) (fun hf => by simp at hf),
      (exec_saved hs).trans ha.2⟩
  · intro a b f ha hf hpc hop hfld hcpu _ hs
    have := LReach.step ha.1 hs (fun f hf => by simp at hf) (fun hf => by simp at hf)
    unfold acquire at this
    rw [hf] at this
    dsimp only at this
    rw [hpc, hcpu, ha.2] at this
    simpa using this

theorem ex_on_lock {s : State 8} {own : Owners} (h : exLReach s own) (t : Nat) (c : BitVec 32)
    (hoth : ∀ u, u ≠ t → (s.th u).run = true → (s.th u).kcpu ≠ c ∧ (s.th u).kcid ≠ c)
    (h0 : s.th t = thread0) :
    ∃ s', exLReach s' own ∧ s'.th = upd s.th t (th1 true c c) ∧ s'.mem = s.mem := by
  have h1 := LReach.step h (Step.resume (t := t) c c (by rw [h0]; rfl) hoth) (fun f hf => by simp at hf)
    (fun hf => by simp at hf)
  have h2 := LReach.step h1 (Step.register (t := t) (by simp [State.set, upd])
    (by simp [State.set, upd, fixTop, h0, thread0]) (by simp [State.set, upd, h0, thread0])
    (by simp [State.set, upd, h0, thread0])) (fun f hf => by simp at hf) (fun hf => by simp at hf)
  refine ⟨_, h2, ?_, rfl⟩
  funext u
  simp only [State.set]
  by_cases e : u = t
  · subst e; simp [updT_same, th1, thread0, fixTop, fixCs, h0]
  · rw [updT_other _ _ e, updT_other _ _ e, updT_other _ _ e]

/-- Thread 0 takes the lock of CPU 3, migrates to CPU 4; thread 1 runs on CPU 3 and its lock call returns 1;
thread 0 releases the lock of CPU 3 from CPU 4; thread 1 takes it. -/
theorem ex_locks : ∃ s own s' own', exLReach s own ∧ own 3#32 = some (0, 0) ∧ (s.th 0).kcpu = 4#32 ∧
    (s.th 1).kcpu = 3#32 ∧ (s.th 1).run = true ∧ exLReach s' own' ∧ own' 3#32 = some (1, 0) := by
  have h0 : exLReach _ _ := LReach.init
  obtain ⟨s1, h1, e1, m1⟩ := ex_on_lock h0 0 3#32 (fun u _ h => by simp [thread0] at h) rfl
  obtain ⟨s2, cs2, h2, e2, m2⟩ := ex_lock h1 0 3#32 (by decide) 0 _ (by rw [m1]; rfl) (by simp [e1, upd, th1])
    (by simp [e1, upd, th1, thread0]) (by simp [e1, upd, th1, thread0]) (by simp [e1, upd, th1])
    (by simp [e1, upd, th1])
  rw [if_pos rfl] at h2
  -- migration
  have h3 := LReach.step h2 (Step.preempt (t := 0) (by simp [e2, e1, upd, th1])) (fun f hf => by simp at hf)
    (fun hf => by simp at hf)
  have h4 := LReach.step h3 (Step.resume (t := 0) 4#32 4#32 (by simp [State.set, upd]) (by
    intro u hu hr
    simp only [State.set] at hr
    rw [updT_other _ _ hu, e2, updT_other _ _ hu, e1, updT_other _ _ hu] at hr
    simp [thread0] at hr)) (fun f hf => by simp at hf) (fun hf => by simp at hf)
  unfold acquire at h3 h4
  dsimp only at h3 h4
  -- thread 1 on CPU 3
  obtain ⟨s5, h5, e5, m5⟩ := ex_on_lock h4 1 3#32 (by
    intro u hu hr
    by_cases e : u = 0
    · subst e; simp [State.set, upd]
    · simp only [State.set] at hr
      rw [updT_other _ _ e, updT_other _ _ e, e2, updT_other _ _ e, e1, updT_other _ _ e] at hr
      simp [thread0] at hr) (by simp [State.set, upd, e2, e1])
  obtain ⟨s6, cs6, h6, e6, m6⟩ := ex_lock h5 1 3#32 (by decide) 1 s5.mem (by
      rw [m5]; simp only [State.set]; rw [m2]
      simp only [pseudo]
      rw [if_pos (by rw [ldw_stw_same]; decide)])
    (by simp [e5, upd, th1]) (by simp [e5, upd, th1, thread0]) (by simp [e5, upd, th1, thread0])
    (by simp [e5, upd, th1]) (by simp [e5, upd, th1])
  rw [if_neg (by decide)] at h6
  -- thread 0 unlocks
  have h7 := LReach.unlock (t := 0) 3#32 h6 (by decide)
    (by simp [setOwner, e6, e5, State.set, upd, e2, e1, th1, thread0])
    (Step.user _ (by simp [e6, e5, upd, State.set]) (by
      simp [e6, e5, upd, State.set, fixTop, e2, e1, th1, thread0]))
  obtain ⟨s8, cs8, h8, e8, m8⟩ := ex_lock h7 1 3#32 (by decide) 0 _ (by
      simp only [pseudo]
      rw [if_neg (by rw [ldw_stw_same]; simp)])
    (by simp [e6, e5, upd, th1]) (by simp [e6, e5, upd, th1, thread0]) (by simp [e6, e5, upd, th1, thread0])
    (by simp [e6, e5, upd, th1]) (by simp [e6, e5, upd, th1])
  refine ⟨s6, _, s8, _, h6, ?_, ?_, ?_, ?_, h8, ?_⟩
  · simp [setOwner]
  · simp [e6, e5, State.set, upd]
  · simp [e6, e5, State.set, upd, th1]
  · simp [e6, e5, State.set, upd, th1]
  · simp [setOwner]

end Verif.Rseq
