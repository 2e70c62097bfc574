import Verif.RseqListDrain
import Verif.RseqPoolListProps

/-!
C107 for the list test: how an execution goes on, and that it can always end.
-/

namespace Verif.Joint

open Mempool (Config Ghost Hist cpuAddr InRegion RangeEnv)

variable [Abi]

/-- How an execution of the list test goes on from the state `s0`, `G0`, `g0`; the steps are those of `ListPool`. -/
inductive ListFrom (T : Nat → Rseq.Site wb) (K : Rseq.ListLayout wb) (c : Config) (p : Nat) (s0 : Rseq.State wb)
    (G0 : Rseq.Stacks wb) (g0 : Ghost) : Rseq.State wb → Rseq.Stacks wb → Ghost → Prop
  | here : ListFrom T K c p s0 G0 g0 s0 G0 g0
  | step {s s' : Rseq.State wb} {G : Rseq.Stacks wb} {g g' : Ghost} {t : Nat} {lab : Rseq.Lab wb}
      (h : ListFrom T K c p s0 G0 g0 s G g) (hs : Rseq.Step T s t lab s') (hl : lab ≠ .user)
      (hi : ∀ f, lab = .invoke f → Rseq.ListCall K G s.mem t (s.th t).saved.length f)
      (hw : Writes c p g g') (hm : s'.mem = view c g'.s.mem) :
      ListFrom T K c p s0 G0 g0 s' (Rseq.applyOp G t (s.th t).saved.length (Rseq.committing T s t lab)) g'
  | other {s : Rseq.State wb} {G : Rseq.Stacks wb} {g g' : Ghost} {t : Nat}
      (h : ListFrom T K c p s0 G0 g0 s G g) (hr : (s.th t).run = true) (ht : (s.th t).top = none)
      (hp : PoolStep c false [p] g g')
      (hu : ∀ a, view c g'.s.mem a ≠ view c g.s.mem a →
        (∀ x, K.nodes x → ¬ Rseq.InWord (x + nodeData) a) ∧
        (∀ x, K.nodes x → Rseq.InWord (x + K.off) a → G.own x = some (t, (s.th t).saved.length)) ∧
        (∀ t' d', K.priv t' d' a → t' = t ∧ d' = (s.th t).saved.length) ∧ ¬ Rseq.InWord K.off a) :
      ListFrom T K c p s0 G0 g0 { s with mem := view c g'.s.mem } G g'
  | give {s : Rseq.State wb} {G : Rseq.Stacks wb} {g : Ghost} {t : Nat} (x : Rseq.W wb) (t' d' : Nat)
      (h : ListFrom T K c p s0 G0 g0 s G g) (ht : (s.th t).top = none)
      (ho : G.own x = some (t, (s.th t).saved.length)) : ListFrom T K c p s0 G0 g0 s (G.give x t' d') g

variable {T : Nat → Rseq.Site wb} {fld : Rseq.Fld} {be : Bool} {c : Config} {p B : Nat}
  {node : BitVec 32 → Nat → Rseq.W wb} {priv : Nat → Nat → Rseq.W wb → Prop}

theorem ListFrom.pool' {K : Rseq.ListLayout wb} {gi : Ghost} {Gi : Rseq.Stacks wb} {s0 : Rseq.State wb} {G0 : Rseq.Stacks wb}
    {g0 : Ghost} (h0 : ListPool T K c p Gi gi s0 G0 g0) {s : Rseq.State wb} {G : Rseq.Stacks wb} {g : Ghost}
    (h : ListFrom T K c p s0 G0 g0 s G g) : ListPool T K c p Gi gi s G g := by
  induction h with
  | here => exact h0
  | step _ hs hl hi hw hm ih => exact .step ih hs hl hi hw hm
  | other _ hr ht hp hu ih => exact .other ih hr ht hp hu
  | give x t' d' _ ht ho ih => exact .give x t' d' ih ht ho

/-- The nodes of the test, as a list. -/
def allNodes (c : Config) (node : BitVec 32 → Nat → Rseq.W wb) (B : Nat) : List (Rseq.W wb) :=
  (cpus c).flatMap fun k => (List.range (B + 1)).map (node k)

theorem mem_allNodes {x : Rseq.W wb} (h : IsNode c node B x) : x ∈ allNodes c node B := by
  obtain ⟨k, hk, j, -, h2, rfl⟩ := h
  exact List.mem_flatMap.2 ⟨k, hk, List.mem_map.2 ⟨j, List.mem_range.2 (by omega), rfl⟩⟩

theorem heap_writes {g g' : Ghost} (hg : Hist c false g) (hp : p ∈ g.live) (hH : Heap c g node B priv) (w : Writes c p g g') :
    Heap c g' node B priv := { hH with
  node_out := fun x a h1 h2 => w.outside hg hp (hH.node_out x a h1 h2)
  priv_out := fun t d a h => w.outside hg hp (hH.priv_out t d a h)
  null_out := fun a h => w.outside hg hp (hH.null_out a h) }

/-- Whatever step a thread can make on the memory of the pool, the pool follows. -/
theorem list_closed (hbe : ∀ q, (T q).prog.be = be) {gi : Ghost} (hg : Hist c false gi) (hp : p ∈ gi.live)
    (hn : c.ncpu ≤ 2 ^ 32) (hHi : Heap c gi node B priv) {Gi : Rseq.Stacks wb}
    (hin : Rseq.StackInit (listLayout be fld c p node B priv) (view c gi.s.mem) Gi)
    {s0 : Rseq.State wb} {G0 : Rseq.Stacks wb} {g0 : Ghost}
    (h0 : ListPool T (listLayout be fld c p node B priv) c p Gi gi s0 G0 g0) :
    Rseq.ListClosed T (listLayout be fld c p node B priv) (view c gi.s.mem) Gi
      (fun s G => ∃ g, ListFrom T (listLayout be fld c p node B priv) c p s0 G0 g0 s G g ∧ Heap c g node B priv) := by
  have hK := layout_ok (be := be) (fld := fld) hg hp hn hHi
  refine ⟨fun s G ⟨g, h, _⟩ => ((h.pool' h0).sound hg hp hn).2.2.2, fun s G t lab s' ⟨g, h, hH⟩ hs hlab hi => ?_,
    fun s G t x v ⟨g, h, hH⟩ hr ht ho => ?_, fun s G t x t' d' ⟨g, h, hH⟩ ht ho => ⟨g, .give x t' d' h ht ho, hH⟩⟩ <;>
  obtain ⟨i1, i2, i3, i4⟩ := (h.pool' h0).sound hg hp hn <;>
  have hI := i4.inv wb_ge hbe hK hin
  · obtain ⟨g', w, e⟩ := Writes.reach i1 i2 s'.mem fun a ha => by
      rw [← i3] at ha
      rcases Rseq.list_changes wb_ge hbe hK hI hs a ha with e | ⟨f, hf, -, -, e⟩
      · exact absurd e hlab
      rcases e with e | ⟨e, -⟩
      · exact .inr (hH.priv_out _ _ a e)
      · exact .inl (head_inside i1 i2 hn (hI.frames _ _ f (by rw [Rseq.frameAt_top rfl]; exact hf)).2.1 e).1
    exact ⟨g', .step h hs hlab hi w e, heap_writes i1 i2 hH w⟩
  · have hx : IsNode c node B x := hI.ownN x _ ho
    have hin : ∀ a, Rseq.stw be s.mem (x + nodeNext) v a ≠ view c g.s.mem a → Rseq.InWord (x + nodeNext) a := fun a ha =>
      Classical.byContradiction fun hn => ha (by rw [Rseq.stw_other _ _ _ _ _ hn, i3])
    obtain ⟨m', w, e⟩ := ext_reach i1 (Rseq.stw be s.mem (x + nodeNext) v) fun a ha => hH.node_out x a hx (.inr (hin a ha))
    have hst := PoolStep.ext (I := [p]) (uaf := false) g m' w
    have hws : Writes c p g _ := .other .refl m' w
    refine ⟨⟨{ g.s with mem := m' }, g.live, g.freed⟩, ?_, heap_writes i1 i2 hH hws⟩
    show ListFrom _ _ _ _ _ _ _ { s with mem := Rseq.stw be s.mem (x + nodeNext) v } _ _
    rw [e]
    refine ListFrom.other h hr ht hst fun a ha => ?_
    have ha := hin a (by rw [e]; exact ha)
    obtain ⟨k, hk, j, h1, h2, rfl⟩ := hx
    refine ⟨?_, ?_, fun t' d' hpr => absurd hpr (hH.node_priv _ _ _ a ⟨k, hk, j, h1, h2, rfl⟩ (.inr ha)),
      hH.null_node _ a ⟨k, hk, j, h1, h2, rfl⟩ (.inr ha)⟩
    · rintro y ⟨k', hk', j', h1', h2', rfl⟩ hd
      obtain ⟨rfl, rfl⟩ := hH.apart k hk k' hk' j j' h1 h2 h1' h2' a (.inr ha) (.inl hd)
      exact data_next_word hd ha
    · rintro y ⟨k', hk', j', h1', h2', rfl⟩ hd
      obtain ⟨rfl, rfl⟩ := hH.apart k hk k' hk' j j' h1 h2 h1' h2' a (.inr ha) (.inr hd)
      exact ho

end Verif.Joint
