import Verif.RseqCounter
import Verif.RseqSolo
/-
An execution of two threads that meets the hypotheses of `counters_exact` and `counters_final`.
-/

namespace Verif.Rseq

def addSite : Site 8 where
  arch := .aarch64
  kind := .addStore
  rel := false
  be := false
  al := exAl
  csa := 0x8000#64
  prog := aarch64_addStore exAl false 0x8000#64
  ok := rfl

/-- Counters 128 bytes apart. -/
def exCtr (c : BitVec 32) : W 8 := 0x1000#64 + 0x80#64 * c.setWidth 64

def exCpus : List (BitVec 32) := [3#32, 4#32]

theorem exCtr_apart : ∀ c ∈ exCpus, ∀ c' ∈ exCpus, ∀ a, InWord (exCtr c) a → InWord (exCtr c') a → c = c' := by
  intro c hc c' hc' a h h'
  have e3 : exCtr 3#32 = 0x1180#64 := by decide
  have e4 : exCtr 4#32 = 0x1200#64 := by decide
  have key : InWord (n := 8) 0x1180#64 a → InWord (n := 8) 0x1200#64 a → False := by
    intro h1 h2
    have h1 : (a - 0x1180#64).toNat < 8 := h1
    have h2 : (a - 0x1200#64).toNat < 8 := h2
    bv_omega
  simp only [exCpus, List.mem_cons, List.not_mem_nil, or_false] at hc hc'
  rcases hc with rfl | rfl <;> rcases hc' with rfl | rfl
  · rfl
  · rw [e3] at h; rw [e4] at h'; exact (key h h').elim
  · rw [e4] at h; rw [e3] at h'; exact (key h' h).elim
  · rfl

abbrev exCReach := CReach (fun _ => addSite) .cpuId exCtr exCpus 2 (fun _ => 0#8)

/-- One increment by a registered thread that runs on CPU `c`. -/
theorem ex_inc {s : State 8} {R : W 8} (h : exCReach s R) (t : Nat) (ht : t < 2) (c : BitVec 32)
    (hc : c ∈ exCpus) (k : W 8) (hr : (s.th t).run = true) (htop : (s.th t).top = none)
    (hreg : (s.th t).reg = true) (hid : (s.th t).cpuId = c) :
    ∃ s' cs, exCReach s' (R + k) ∧ s'.th = upd s.th t { s.th t with cs := cs } := by
  obtain ⟨s', cs, h1, h2, -⟩ := alone_call (T := fun _ => addSite) (P := fun s => exCReach s R)
    (Q := fun s => exCReach s (R + k)) (t := t) (s := s) (by decide) 0 .cpuId c
    (.addStore (exCtr c) k) rfl rfl trivial trivial hr htop hreg 0
    (pseudo false (.addStore (exCtr c) k) s.mem).2
    (by rw [if_pos (show (s.th t).fv .cpuId = c from hid)]; rfl)
    (by
      intro s' hs
      refine CReach.step h hs ht (fun f hf => ?_) (fun hf => by simp at hf)
      injection hf with hf; subst hf; exact ⟨rfl, hc, k, rfl⟩)
    (by
      intro a b ha hs
      exact CReach.step ha hs ht (fun f hf => by simp at hf) (fun hf => by simp at hf))
    (by
      intro a b f ha hf hpc hop _ _ _ hs
      have := CReach.step ha hs ht (fun f hf => by simp at hf) (fun hf => by simp at hf)
      rw [hf] at this
      dsimp only at this
      rw [if_pos hpc, hop] at this
      exact this)
  exact ⟨s', cs, h1, h2⟩

/-- A thread gets a CPU and registers. -/
theorem ex_on {s : State 8} {R : W 8} (h : exCReach s R) (t : Nat) (ht : t < 2) (c : BitVec 32)
    (hoth : ∀ u, (s.th u).run = false) (h0 : s.th t = thread0) :
    ∃ s', exCReach s' R ∧ s'.th = upd s.th t (th1 true c c) := by
  have h1 := CReach.step h (Step.resume (t := t) c c (hoth t) (by
    intro u _ hu; rw [hoth u] at hu; simp at hu)) ht (fun f hf => by simp at hf) (fun hf => by simp at hf)
  have h2 := CReach.step h1 (Step.register (t := t) (by simp [State.set, upd])
    (by simp [State.set, upd, fixTop, h0, thread0]) (by simp [State.set, upd, h0, thread0])
    (by simp [State.set, upd, h0, thread0])) ht (fun f hf => by simp at hf) (fun hf => by simp at hf)
  refine ⟨_, h2, ?_⟩
  funext u
  simp only [State.set]
  by_cases e : u = t
  · subst e; simp [updT_same, th1, thread0, fixTop, fixCs, h0]
  · rw [updT_other _ _ e, updT_other _ _ e, updT_other _ _ e]

/-- Thread 0 adds 5 on CPU 3, then thread 1 adds 2 on CPU 4; both calls have returned, so by
`counters_final` the counters sum up to 7. -/
theorem ex_counters : ∃ s, exCReach s 7#64 ∧ (∀ t, t < 2 → (s.th t).top = none ∧ (s.th t).saved = []) ∧
    lsum (fun c => ldw false s.mem (exCtr c)) exCpus = 7#64 := by
  have h0 : exCReach _ _ := CReach.init
  obtain ⟨s1, h1, e1⟩ := ex_on h0 0 (by decide) 3#32 (fun _ => rfl) rfl
  obtain ⟨s2, cs2, h2, e2⟩ := ex_inc h1 0 (by decide) 3#32 (by decide) 5#64 (by simp [e1, upd, th1])
    (by simp [e1, upd, th1, thread0]) (by simp [e1, upd, th1]) (by simp [e1, upd, th1])
  have h3 := CReach.step h2 (Step.preempt (t := 0) (by simp [e2, e1, upd, th1])) (by decide)
    (fun f hf => by simp at hf) (fun hf => by simp at hf)
  obtain ⟨s4, h4, e4⟩ := ex_on h3 1 (by decide) 4#32 (by
    intro u
    simp only [State.set, e2, e1]
    unfold upd
    split <;> simp_all [thread0]) (by simp [State.set, e2, e1, upd])
  obtain ⟨s5, cs5, h5, e5⟩ := ex_inc h4 1 (by decide) 4#32 (by decide) 2#64 (by simp [e4, upd, th1])
    (by simp [e4, upd, th1, thread0]) (by simp [e4, upd, th1]) (by simp [e4, upd, th1])
  have hq : ∀ t, t < 2 → (s5.th t).top = none ∧ (s5.th t).saved = [] := by
    intro t ht
    rcases (by omega : t = 0 ∨ t = 1) with rfl | rfl
    · simp [e5, e4, State.set, e2, e1, upd, th1, thread0]
    · simp [e5, e4, State.set, e2, e1, upd, th1, thread0]
  have h5' : exCReach s5 7#64 := h5
  refine ⟨s5, h5', hq, ?_⟩
  rw [counters_final (be := false) (by decide) (fun _ => rfl) (by decide) exCtr_apart h5' hq]
  decide

end Verif.Rseq
