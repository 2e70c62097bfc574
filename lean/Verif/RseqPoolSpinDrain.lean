import Verif.RseqSpinDrain
import Verif.RseqPoolTestProps

/-!
C107 for the spinlock test: how an execution goes on, and that it can always end.
-/

namespace Verif.Joint

open Mempool (Config Ghost Hist cpuAddr InRegion RangeEnv)

variable [Abi]

/-- How an execution of the spinlock test goes on from the state `s0`, `P0`, `g0`; the steps are those of `SpinPool`. -/
inductive SpinFrom (T : Nat → Rseq.Site wb) (fld : Rseq.Fld) (be : Bool) (c : Config) (p N : Nat) (s0 : Rseq.State wb)
    (P0 : Rseq.Loops wb) (g0 : Ghost) : Rseq.State wb → Rseq.Loops wb → Ghost → Prop
  | here : SpinFrom T fld be c p N s0 P0 g0 s0 P0 g0
  | step {s s' : Rseq.State wb} {P : Rseq.Loops wb} {g g' : Ghost} {t : Nat} {lab : Rseq.Lab wb}
      (h : SpinFrom T fld be c p N s0 P0 g0 s P g) (hs : Rseq.Step T s t lab s') (hl : lab ≠ .user)
      (hi : ∀ f, lab = .invoke f → P.ph t (s.th t).saved.length = .idle ∧
        f.fld = fld ∧ f.cpu ∈ cpus c ∧ f.op = .cbneStore (spinLock c p f.cpu) 0#_ 1#_)
      (hst : Stores c [p] g g') (hm : s'.mem = view c g'.s.mem) :
      SpinFrom T fld be c p N s0 P0 g0 s' (P.call s t lab) g'
  | pool {s : Rseq.State wb} {P : Rseq.Loops wb} {g g' : Ghost} {t : Nat} (h : SpinFrom T fld be c p N s0 P0 g0 s P g)
      (hr : (s.th t).run = true) (ht : (s.th t).top = none) (hp : PoolStep c false [p] g g') :
      SpinFrom T fld be c p N s0 P0 g0 { s with mem := view c g'.s.mem } P g'
  | load {s : Rseq.State wb} {P : Rseq.Loops wb} {g : Ghost} {t : Nat} {k : BitVec 32}
      (h : SpinFrom T fld be c p N s0 P0 g0 s P g) (hr : (s.th t).run = true) (ht : (s.th t).top = none)
      (hp : P.ph t (s.th t).saved.length = .got k) :
      SpinFrom T fld be c p N s0 P0 g0 s
        (P.at t (s.th t).saved.length (.loaded k (Rseq.ldw be s.mem (spinCount c p k)))) g
  | store {s : Rseq.State wb} {P : Rseq.Loops wb} {g g' : Ghost} {t : Nat} {k : BitVec 32} {v : Rseq.W wb}
      (h : SpinFrom T fld be c p N s0 P0 g0 s P g) (htN : t < N) (hr : (s.th t).run = true)
      (ht : (s.th t).top = none) (hp : P.ph t (s.th t).saved.length = .loaded k v)
      (hst : Stores c [p] g g') (hm : Rseq.stw be s.mem (spinCount c p k) (v + 1#_) = view c g'.s.mem) :
      SpinFrom T fld be c p N s0 P0 g0 { s with mem := view c g'.s.mem }
        ((P.at t (s.th t).saved.length (.stored k)).count t) g'
  | unlock {s : Rseq.State wb} {P : Rseq.Loops wb} {g g' : Ghost} {t : Nat} {k : BitVec 32}
      (h : SpinFrom T fld be c p N s0 P0 g0 s P g) (hr : (s.th t).run = true) (ht : (s.th t).top = none)
      (hp : P.ph t (s.th t).saved.length = .stored k)
      (hst : Stores c [p] g g') (hm : Rseq.stw be s.mem (spinLock c p k) 0#_ = view c g'.s.mem) :
      SpinFrom T fld be c p N s0 P0 g0 { s with mem := view c g'.s.mem } (P.at t (s.th t).saved.length .idle) g'

variable {T : Nat → Rseq.Site wb} {fld : Rseq.Fld} {be : Bool} {c : Config} {p N : Nat}

theorem SpinFrom.pool' {gi : Ghost} {s0 : Rseq.State wb} {P0 : Rseq.Loops wb} {g0 : Ghost}
    (h0 : SpinPool T fld be c p N gi s0 P0 g0) {s : Rseq.State wb} {P : Rseq.Loops wb} {g : Ghost}
    (h : SpinFrom T fld be c p N s0 P0 g0 s P g) : SpinPool T fld be c p N gi s P g := by
  induction h with
  | here => exact h0
  | step _ hs hl hi hst hm ih => exact .step ih hs hl hi hst hm
  | pool _ hr ht hp ih => exact .pool ih hr ht hp
  | load _ hr ht hp ih => exact .load ih hr ht hp
  | store _ htN hr ht hp hst hm ih => exact .store ih htN hr ht hp hst hm
  | unlock _ hr ht hp hst hm ih => exact .unlock ih hr ht hp hst hm

/-- Whatever step a thread can make on the memory of the pool, the pool follows. -/
theorem spin_closed (hbe : ∀ q, (T q).prog.be = be) {gi : Ghost} (hg : Hist c false gi) (hp : p ∈ gi.live)
    (hn : c.ncpu ≤ 2 ^ 32) (hl : 2 * wb ≤ c.itemLen)
    (hz : ∀ k ∈ cpus c, Rseq.ldw be (view c gi.s.mem) (spinLock c p k) = 0#_)
    {s0 : Rseq.State wb} {P0 : Rseq.Loops wb} {g0 : Ghost} (h0 : SpinPool T fld be c p N gi s0 P0 g0) :
    Rseq.SpinClosed T fld be (spinLock c p) (spinCount c p) (cpus c) N (view c gi.s.mem)
      (fun s P => ∃ g, SpinFrom T fld be c p N s0 P0 g0 s P g) := by
  have hA := spin_apart hg hp hn hl
  refine ⟨fun s P ⟨g, h⟩ => ((h.pool' h0).sound hg hp hn hl).2.2.2, fun s P t lab s' ⟨g, h⟩ hs hlab hi => ?_,
    fun s P t k ⟨g, h⟩ hr ht hph => ⟨g, .load h hr ht hph⟩, fun s P t k v ⟨g, h⟩ htN hr ht hph => ?_,
    fun s P t k ⟨g, h⟩ hr ht hph => ?_⟩ <;>
  obtain ⟨i1, i2, i3, i4⟩ := (h.pool' h0).sound hg hp hn hl <;>
  obtain ⟨own, I⟩ := i4.inv wb_ge hbe hA hz <;>
  have hI := I.reach.inv wb_ge hbe hA.lock_lock hz
  · by_cases hch : ∃ a, s'.mem a ≠ s.mem a
    · obtain ⟨a, ha⟩ := hch
      rcases Rseq.step_changes wb_ge (hI.reach.inv wb_ge) hs a ha with e | ⟨f, hf, -⟩
      · exact absurd e hlab
      obtain ⟨-, f2, f3⟩ := (hI.frames t).1 f hf
      obtain ⟨g', j1, j2, j3⟩ := follow_word i1 i2 hn (off := 0) (by omega) f2 (mm := s'.mem) fun a ha => by
        rw [← i3] at ha
        rcases Rseq.step_changes wb_ge (hI.reach.inv wb_ge) hs a ha with e | ⟨f', hf', -, -, hfo, -⟩
        · exact absurd e hlab
        rw [hf] at hf'
        cases hf'
        rw [f3] at hfo
        exact hfo
      exact ⟨g', .step h hs hlab hi j1 j3⟩
    · have e : s'.mem = s.mem := funext fun a => Classical.byContradiction fun ha => hch ⟨a, ha⟩
      exact ⟨g, .step h hs hlab hi .refl (e.trans i3)⟩
  · obtain ⟨g', j1, j2, j3⟩ := follow_word i1 i2 hn (off := wb) (by omega) (I.cpu t _ k (by rw [hph]; rfl))
      (mm := Rseq.stw be s.mem (spinCount c p k) (v + 1#_)) fun a ha => by
      rw [← i3] at ha
      exact Classical.byContradiction fun h => ha (Rseq.stw_other _ _ _ _ _ h)
    refine ⟨g', ?_⟩
    have := SpinFrom.store h htN hr ht hph j1 j3
    rw [← j3] at this
    exact this
  · obtain ⟨g', j1, j2, j3⟩ := follow_word i1 i2 hn (off := 0) (by omega) (I.cpu t _ k (by rw [hph]; rfl))
      (mm := Rseq.stw be s.mem (spinLock c p k) 0#_) fun a ha => by
      rw [← i3] at ha
      exact Classical.byContradiction fun h => ha (Rseq.stw_other _ _ _ _ _ h)
    refine ⟨g', ?_⟩
    have := SpinFrom.unlock h hr ht hph j1 j3
    rw [← j3] at this
    exact this

end Verif.Joint
