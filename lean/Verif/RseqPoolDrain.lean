import Verif.RseqBufDrain
import Verif.RseqIncDrain
import Verif.RseqPoolBufProps

/-!
How executions of the tests on a pool go on.
-/

namespace Verif.Joint

open Mempool (Config Ghost Hist cpuAddr InRegion RangeEnv)

variable [Abi]

/-- How an execution of a buffer test goes on from the state `s0`, `G0`, `H0`, `g0`; the steps are those of `BufPool`. -/
inductive BufFrom (T : Nat → Rseq.Site wb) (be : Bool) (fld : Rseq.Fld) (c : Config) (p isz : Nat)
    (priv : Nat → Nat → Rseq.W wb → Prop) (data : Rseq.W wb → Prop) (N : Nat) (s0 : Rseq.State wb) (G0 : Rseq.Bufs wb)
    (H0 : Rseq.Hold) (g0 : Ghost) : Rseq.State wb → Rseq.Bufs wb → Rseq.Hold → Ghost → Prop
  | here : BufFrom T be fld c p isz priv data N s0 G0 H0 g0 s0 G0 H0 g0
  | step {s s' : Rseq.State wb} {G : Rseq.Bufs wb} {H : Rseq.Hold} {g g' : Ghost} {t : Nat} {lab : Rseq.Lab wb}
      (h : BufFrom T be fld c p isz priv data N s0 G0 H0 g0 s G H g) (hs : Rseq.Step T s t lab s') (hl : lab ≠ .user)
      (hi : ∀ f, lab = .invoke f → Rseq.BufCall (memLayout be fld c p isz priv s.mem) G t (s.th t).saved.length f ∧
        Rseq.TestCall (memLayout be fld c p isz priv s.mem) N H s t f)
      (hw : Writes c p g g') (hm : s'.mem = view c g'.s.mem) :
      BufFrom T be fld c p isz priv data N s0 G0 H0 g0 s' (Rseq.bufStep (memLayout be fld c p isz priv s.mem) T s G t lab)
        (Rseq.holdStep T s (Rseq.bufStep (memLayout be fld c p isz priv s.mem) T s G t lab) H t lab) g'
  | other {s : Rseq.State wb} {G : Rseq.Bufs wb} {H : Rseq.Hold} {g g' : Ghost} {t : Nat}
      (h : BufFrom T be fld c p isz priv data N s0 G0 H0 g0 s G H g) (hr : (s.th t).run = true) (ht : (s.th t).top = none)
      (hp : PoolStep c false [p] g g')
      (hu : ∀ a, view c g'.s.mem a ≠ view c g.s.mem a →
        (∀ k ∈ cpus c, ¬ (memLayout be fld c p isz priv s.mem).InArr k a) ∧
        (∀ t' d', priv t' d' a → t' = t ∧ d' = (s.th t).saved.length) ∧ ¬ data a) :
      BufFrom T be fld c p isz priv data N s0 G0 H0 g0 { s with mem := view c g'.s.mem } G H g'
  | read {s : Rseq.State wb} {G : Rseq.Bufs wb} {H : Rseq.Hold} {g : Ghost} {t : Nat} {k : BitVec 32}
      (h : BufFrom T be fld c p isz priv data N s0 G0 H0 g0 s G H g) (hr : (s.th t).run = true) (ht : (s.th t).top = none)
      (hk : k ∈ cpus c) :
      BufFrom T be fld c p isz priv data N s0 G0 H0 g0 s
        (G.read t (s.th t).saved.length k (Rseq.ldw be s.mem (bufOffset c p k))) H g

variable {T : Nat → Rseq.Site wb} {fld : Rseq.Fld} {be : Bool} {c : Config} {p isz len B N : Nat}
  {arr : BitVec 32 → Rseq.W wb} {node : BitVec 32 → Nat → Rseq.W wb} {priv : Nat → Nat → Rseq.W wb → Prop}
  {data : Rseq.W wb → Prop}

theorem BufFrom.pool {Gi : Rseq.Bufs wb} {gi : Ghost} {s0 : Rseq.State wb} {G0 : Rseq.Bufs wb} {H0 : Rseq.Hold} {g0 : Ghost}
    (h0 : BufPool T be fld c p isz priv data N Gi gi s0 G0 H0 g0) {s : Rseq.State wb} {G : Rseq.Bufs wb} {H : Rseq.Hold}
    {g : Ghost} (h : BufFrom T be fld c p isz priv data N s0 G0 H0 g0 s G H g) :
    BufPool T be fld c p isz priv data N Gi gi s G H g := by
  induction h with
  | here => exact h0
  | step _ hs hl hi hw hm ih => exact .step ih hs hl hi hw hm
  | other _ hr ht hp hu ih => exact .other ih hr ht hp hu
  | read _ hr ht hk ih => exact .read ih hr ht hk

/-- From every state of a buffer test on a pool the threads can be scheduled so that no thread has an item and all are
outside of the helpers, if a thread that has an item finds room. -/
theorem buf_pool_drains (hbe : ∀ q, (T q).prog.be = be) {g0 : Ghost} (hg : Hist c false g0) (hp0 : p ∈ g0.live)
    (hn : c.ncpu ≤ 2 ^ 32) (hl : 3 * wb ≤ c.itemLen) (hH0 : BufHeap c g0 arr len isz priv) {G0 : Rseq.Bufs wb}
    (h0 : Rseq.BufInit (bufLayout be fld c p isz priv arr len) (view c g0.s.mem) G0)
    (hD : Described be c p arr len (view c g0.s.mem))
    (hdata : ∀ a, data a → Outside c g0 a.toNat ∧ (∀ k ∈ cpus c, ¬ (a - arr k).toNat < len * isz) ∧ ∀ t d, ¬ priv t d a)
    (hroom : ∀ s G H g, BufPool T be fld c p isz priv data N G0 g0 s G H g → ∀ t y, H t = some y → ∀ k ∈ cpus c,
      Rseq.ldw be (view c g.s.mem) (bufOffset c p k) ≠ Rseq.ldw be (view c g.s.mem) (bufLen c p k))
    (hS : Rseq.PushSites T (bufLayout be fld c p isz priv arr len) N)
    {s : Rseq.State wb} {G : Rseq.Bufs wb} {H : Rseq.Hold} {g : Ghost}
    (h : BufPool T be fld c p isz priv data N G0 g0 s G H g) (hH : BufHeap c g arr len isz priv) :
    ∃ s' G' H' g', BufFrom T be fld c p isz priv data N s G H g s' G' H' g' ∧ g'.s.pool.ranges = g.s.pool.ranges ∧
      (∀ t, H' t = none) ∧ ∀ u, Rseq.Idle (s'.th u) := by
  have hK := buf_layout_ok (be := be) (fld := fld) hg hp0 hn hl hH0
  have hlt := hH0.len_lt
  have hc : (0#32 : BitVec 32) ∈ cpus c := (mem_cpus hn).2 (by have := hg.valid.ncpu_pos; simp; omega)
  have snd : ∀ {s' G' H' g'}, BufFrom T be fld c p isz priv data N s G H g s' G' H' g' → _ := fun h' =>
    (h'.pool h).sound hbe hg hp0 hn hl hH0 h0 hD hdata
  obtain ⟨s', G', H', ⟨g', q1, -, q2⟩, q3, q4⟩ := Rseq.buffers_drain (T := T) (K := bufLayout be fld c p isz priv arr len)
    (m0 := view c g0.s.mem) (G0 := G0) (N := N) wb_ge hbe hK h0
    (R := fun s' G' H' => ∃ g', BufFrom T be fld c p isz priv data N s G H g s' G' H' g' ∧ BufHeap c g' arr len isz priv ∧
      g'.s.pool.ranges = g.s.pool.ranges)
    { reach := fun s G H ⟨g', h', _⟩ => (snd h').2.2.2.1
      step := fun s' G' H' t lab s'' ⟨g', h', hH', hr'⟩ hs hlab hi => by
        obtain ⟨i1, i2, i3, i4, i5, -⟩ := snd h'
        have hI := i4.breach.inv wb_ge hbe hK h0
        obtain ⟨g'', w, e⟩ := Writes.reach i1 i2 s''.mem fun a ha => by
          rw [← i3] at ha
          rcases buf_step_changes hbe hK h0 i4 hs hlab a ha with ⟨k, hk, e⟩ | ⟨k, hk, e⟩ | ⟨d, e⟩
          · exact .inl (word_inside i1 i2 hn (off := 0) (by omega) hk e).1
          · exact .inr (hH'.arr_out k hk a e)
          · exact .inr (hH'.priv_out _ _ a e)
        refine ⟨g'', .step h' hs hlab (fun f hf => ?_) w e, bufHeap_writes i1 i2 hH' w, (w.hist i1 i2).2.2.trans hr'⟩
        obtain ⟨-, w, hw, -⟩ := (hi f hf).1
        exact ⟨(bufCall_described i5 hlt (hI.rd _ _ _ _ hw).1).2 (hi f hf).1, (hi f hf).2⟩
      read := fun s' G' H' t k ⟨g', h', hH', hr'⟩ hr ht hk => ⟨g', h'.read hr ht hk, hH', hr'⟩
      loc := fun s' G' H' t mm ⟨g', h', hH', hr'⟩ hr ht hmm => by
        obtain ⟨i1, i2, i3, i4, i5, -⟩ := snd h'
        obtain ⟨m', w, e⟩ := ext_reach i1 mm fun a ha => hH'.priv_out _ _ a (hmm a (by rw [i3]; exact ha))
        have hws : Writes c p g' _ := .other .refl m' w
        refine ⟨⟨{ g'.s with mem := m' }, g'.live, g'.freed⟩, ?_, bufHeap_writes i1 i2 hH' hws, hr'⟩
        rw [e]
        refine BufFrom.other h' hr ht (PoolStep.ext (I := [p]) (uaf := false) g' m' w) fun a ha => ?_
        have ha := hmm a (by rw [e, i3]; exact ha)
        exact ⟨fun k hk hw => hH'.arr_priv k hk _ _ a ((inArr_described i5 hlt hk).1 hw) ha,
          fun t' d' hpr => hH'.priv_priv _ _ _ _ a hpr ha, fun hd => (hdata a hd).2.2 _ _ ha⟩ }
    hS hc (fun s' G' H' t y ⟨g', h', _⟩ hy => by
      obtain ⟨-, -, i3, -, i5, -⟩ := snd h'
      have := hroom _ _ _ _ (h'.pool h) t y hy _ hc
      rw [← i3, (i5 _ hc).2] at this
      exact this) ⟨g, .here, hH, rfl⟩
  exact ⟨s', G', H', g', q1, q2, q3, q4⟩

/-! ### The increment test -/

/-- How an execution of the increment test goes on from the state `s0`, `done0`, `g0`; the steps are those of `IncPool`. -/
inductive IncFrom (T : Nat → Rseq.Site wb) (fld : Rseq.Fld) (c : Config) (p N : Nat) (s0 : Rseq.State wb) (done0 : Nat → Nat)
    (g0 : Ghost) : Rseq.State wb → (Nat → Nat) → Ghost → Prop
  | here : IncFrom T fld c p N s0 done0 g0 s0 done0 g0
  | step {s s' : Rseq.State wb} {done : Nat → Nat} {g g' : Ghost} {t : Nat} {lab : Rseq.Lab wb}
      (h : IncFrom T fld c p N s0 done0 g0 s done g) (hs : Rseq.Step T s t lab s') (htN : t < N) (hl : lab ≠ .user)
      (hi : ∀ f, lab = .invoke f → f.fld = fld ∧ f.cpu ∈ cpus c ∧ f.op = .addStore (ctr c p 0 f.cpu) 1#_)
      (hst : Stores c [p] g g') (hm : s'.mem = view c g'.s.mem) :
      IncFrom T fld c p N s0 done0 g0 s' (Rseq.finished done s t lab) g'
  | pool {s : Rseq.State wb} {done : Nat → Nat} {g g' : Ghost} {t : Nat} (h : IncFrom T fld c p N s0 done0 g0 s done g)
      (hr : (s.th t).run = true) (ht : (s.th t).top = none) (htN : t < N) (hp : PoolStep c false [p] g g') :
      IncFrom T fld c p N s0 done0 g0 { s with mem := view c g'.s.mem } done g'

theorem IncFrom.pool' {gi : Ghost} {s0 : Rseq.State wb} {done0 : Nat → Nat} {g0 : Ghost}
    (h0 : IncPool T fld c p N gi s0 done0 g0) {s : Rseq.State wb} {done : Nat → Nat} {g : Ghost}
    (h : IncFrom T fld c p N s0 done0 g0 s done g) : IncPool T fld c p N gi s done g := by
  induction h with
  | here => exact h0
  | step _ hs ht hl hi hst hm ih => exact .step ih hs ht hl hi hst hm
  | pool _ hr ht htN hp ih => exact .pool ih hr ht htN hp

/-- The pool follows a step of the increment test. -/
theorem inc_follow (hbe : ∀ q, (T q).prog.be = be) {g0 : Ghost} (hg : Hist c false g0) (hp : p ∈ g0.live)
    (hn : c.ncpu ≤ 2 ^ 32) (hl : wb ≤ c.itemLen) {s : Rseq.State wb} {done : Nat → Nat} {g : Ghost}
    (h : IncPool T fld c p N g0 s done g) {t : Nat} {lab : Rseq.Lab wb} {s' : Rseq.State wb}
    (hs : Rseq.Step T s t lab s') (hlab : lab ≠ .user) : ∃ g', Stores c [p] g g' ∧ s'.mem = view c g'.s.mem := by
  obtain ⟨i1, i2, i3, i4⟩ := h.sound hg hp hn hl
  obtain ⟨o1, o2, -⟩ := i4.inv wb_ge hbe (nodup_cpus hn) (ctr_disjoint hg hp hn (by omega))
  have hI := (o1.reach wb_ge).inv wb_ge
  by_cases hch : ∃ a, s'.mem a ≠ s.mem a
  · obtain ⟨a, ha⟩ := hch
    rcases Rseq.step_changes wb_ge hI hs a ha with e | ⟨f, hf, -⟩
    · exact absurd e hlab
    obtain ⟨-, f2, f3⟩ := (o2 t).1 f hf
    obtain ⟨g', j1, j2, j3⟩ := follow_word i1 i2 hn (off := 0) (by omega) f2 (mm := s'.mem) fun a ha => by
      rw [← i3] at ha
      rcases Rseq.step_changes wb_ge hI hs a ha with e | ⟨f', hf', -, -, hfo, -⟩
      · exact absurd e hlab
      rw [hf] at hf'
      cases hf'
      rw [f3] at hfo
      exact hfo
    exact ⟨g', j1, j3⟩
  · have e : s'.mem = s.mem := funext fun a => Classical.byContradiction fun ha => hch ⟨a, ha⟩
    exact ⟨g, .refl, e.trans i3⟩

end Verif.Joint
