import Verif.BarriersLock
import Verif.BarriersSc
/-
C65: the barrier macros give the ordering that the C code relies on, on each architecture.
-/

namespace Verif.Barrier

open Relation (TransGen ReflTransGen)
open Verif.Rseq (Arch)

/-- What happens before (program order and release/acquire hand-overs, through any number of threads)
never takes effect after. -/
theorem happens_before_respected (a : Arch) (X : Exec) (h : Allowed a X) (e1 e2 : Ev) (hb : HB X e1 e2) :
    ¬ Eff X e2 e1 ∧ e1 ≠ e2 :=
  ⟨hb_no_back h hb, fun he => hb_irrefl h (he ▸ hb)⟩

/-- A load after a hand-over gets the handed-over store or a newer one. -/
theorem handover_visible (a : Arch) (X : Exec) (h : Allowed a X) (w r : Ev) (x : Nat) (v u : Int)
    (hw : IsW X w x v) (hr : IsR X r x u) (hb : HB X w r) :
    ∃ w', X.rf w' r ∧ IsW X w' x u ∧ (w' = w ∨ X.co w w') := by
  obtain ⟨w', h1, h2⟩ := visible h hw hr hb
  obtain ⟨y, u', h3, h4⟩ := rf_types h h1
  obtain ⟨rfl, rfl⟩ := isR_unique h4 hr
  exact ⟨w', h1, h3, h2⟩

/-- If the handed-over store was the only one to its location, the load gets its value. -/
theorem handover_value (a : Arch) (X : Exec) (h : Allowed a X) (w r : Ev) (x : Nat) (v u : Int)
    (hw : IsW X w x v) (hr : IsR X r x u) (hb : HB X w r) (honly : ∀ w' v', IsW X w' x v' → w' = w) : u = v := by
  obtain ⟨w', -, h2, -⟩ := handover_visible a X h w r x v u hw hr hb
  have := honly w' u h2
  subst this
  exact (isW_unique h2 hw).2

/-- Publication with `rseq_smp_wmb` and a plain store, read with an acquire or with `rseq_smp_rmb`
between two loads: the reader takes effect after the published store. -/
theorem wmb_publishes (a : Arch) (X : Exec) (h : Allowed a X) (w s l e : Ev) (x y : Nat) (u v : Int)
    (hw : IsW X w x u) (hs : IsW X s y v) (hb : Sep X .wmb w s) (hrf : X.rf s l)
    (hl : Acquired X l e ∨ Sep X .rmb l e ∧ ∃ z v', IsR X e z v') : ¬ Eff X e w := by
  intro hc
  obtain ⟨⟨-, -, ht, hk⟩, k, hk1, hk2, ho⟩ := hb
  obtain ⟨y', v1, hs', hlr⟩ := rf_types h hrf
  have hle : Hb a X l e := by
    rcases hl with hl | ⟨⟨⟨-, -, ht', -⟩, k', h1, h2, ho'⟩, z, v', hr⟩
    · exact acquired_hb hl
    · exact rmb_hb hlr hr ht' h1 h2 ho' (.inl rfl)
  have hpo : Po X l e := by
    rcases hl with hl | hl
    · exact hl.po
    · exact hl.1.1
  have hws : Po X w s := ⟨hw.access, hs.access, ht, hk⟩
  have hP : P a X w s := .inl (wmb_fenced hw hs ht hk1 hk2 ho)
  by_cases hsl : s.t = l.t
  · have h1 := eff_po h (.single (.inl hrf)) hsl
    have h2 := po_trans (po_trans hws h1) hpo
    have h3 := eff_po h hc h2.2.2.1.symm
    have h4 := h2.2.2.2
    have h5 := h3.2.2.2
    omega
  · have hne : e.t ≠ w.t := by
      rw [ht, ← hpo.2.2.1]
      exact fun he => hsl he.symm
    have hh : ReflTransGen (Hb a X) s e := .tail (.single (.inr (.inr ⟨hrf, hsl⟩))) hle
    rcases eff_cases h hc with hc | hc | hc | ⟨w', -, hc⟩ | ⟨w', -, hc⟩
    · obtain ⟨_, _, _, hr⟩ := rf_types h hc
      exact not_r_w hr hw
    · exact cox h hc hne hP hh
    · exact obs h hc hne hP hs hh
    · obtain ⟨_, _, _, hr⟩ := rf_types h hc
      exact not_r_w hr hw
    · obtain ⟨_, _, _, hr⟩ := rf_types h hc
      exact not_r_w hr hw

/-- Accesses separated by `rseq_smp_mb` behave as if executed one after the other: there is no cycle of
barrier-separated pairs and effects on memory, through any number of threads. -/
theorem mb_sequential (a : Arch) (X : Exec) (h : Allowed a X) (e : Ev) :
    ¬ TransGen (fun e1 e2 => Sep X .mb e1 e2 ∨ X.rf e1 e2 ∨ X.co e1 e2 ∨ Older X e1 e2) e e := by
  intro hc
  rcases alternate hc with hc | ⟨n, b, b', m, h1, h2, h3, h4, h5⟩
  · exact comm_irrefl h hc
  · refine no_H_cycle h (b := b) ?_
    exact TransGen.tail' h3 ⟨m, n, h4, eff_trans h5 h1, h2⟩

/-- Of two different sections of a lock, one is released before the other begins: everything up to its
release happens before everything after the other's acquire. -/
theorem lock_orders_sections (a : Arch) (X : Exec) (h : Allowed a X) {ι : Type} [Finite ι] (x : Nat)
    (C : ι → Sect) (hS : Sections X x C) (i j : ι) (hij : i ≠ j) :
    Precedes X (C i) (C j) ∨ Precedes X (C j) (C i) := by
  rcases h.wf.co_total _ _ _ _ _ (writes_iff.2 (hS.isIn i).st_w) (writes_iff.2 (hS.isIn j).st_w)
    (fun he => hij (hS.st_inj _ _ he)) with hc | hc
  · exact .inl (co_precedes h hS j i hc).1
  · exact .inr (co_precedes h hS i j hc).1

/-- A counter incremented once in each section of a lock ends at its initial value plus the number of
sections: no increment is lost. -/
theorem lock_counter_exact (a : Arch) (X : Exec) (h : Allowed a X) {ι : Type} [Fintype ι] (x c : Nat)
    (C : ι → Sect) (hS : Sections X x C) (cl cs : ι → Nat) (v : ι → Int) (hC : Counting X c C cl cs v)
    (u : Int) (hf : Final X c u) : u = X.init c + (Fintype.card ι : Int) :=
  count_final h hS hC hf

/-- The model is not too strict: a run that executes one access after the other is possible on each
architecture. -/
theorem interleaved_allowed (a : Arch) (X : Exec) (time : Ev → Nat) (h : Interleaved X time) : Allowed a X :=
  h.allowed a

end Verif.Barrier
