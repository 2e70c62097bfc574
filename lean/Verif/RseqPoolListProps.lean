import Verif.RseqPoolList

/-!
C105: the list test of tests/param_test.c passes, from the creation of the pool to its destruction.
-/

namespace Verif.Joint

open Mempool (Config Ghost Hist cpuAddr InRegion RangeEnv)

variable [Abi]
variable {T : Nat → Rseq.Site wb} {fld : Rseq.Fld} {be : Bool} {c : Config} {p B : Nat}
  {node : BitVec 32 → Nat → Rseq.W wb} {priv : Nat → Nat → Rseq.W wb → Prop}

/-- An execution of the list test on a pool is one of the test, on a pool in a reachable state. -/
theorem ListPool.sound {g0 : Ghost} (hg : Hist c false g0) (hp0 : p ∈ g0.live) (hn : c.ncpu ≤ 2 ^ 32)
    {G0 : Rseq.Stacks wb} {s : Rseq.State wb} {G : Rseq.Stacks wb} {g : Ghost}
    (h : ListPool T (listLayout be fld c p node B priv) c p G0 g0 s G g) :
    Hist c false g ∧ p ∈ g.live ∧ s.mem = view c g.s.mem ∧
    Rseq.SReach T (listLayout be fld c p node B priv) (view c g0.s.mem) G0 s G := by
  induction h with
  | init => exact ⟨hg, hp0, rfl, .init⟩
  | step h hs hl hi hw hm ih =>
    obtain ⟨i1, i2, -, i4⟩ := ih
    obtain ⟨j1, j2, -⟩ := hw.hist i1 i2
    exact ⟨j1, j2 ▸ i2, hm, i4.step hs hi fun e => absurd e hl⟩
  | @other s G g g' t h hr ht hp hu ih =>
    obtain ⟨i1, i2, i3, i4⟩ := ih
    refine ⟨hp.hist i1, hp.live (one_live i2) p (.head _), rfl, ?_⟩
    refine i4.step (lab := .user) (.user _ hr ht) (fun f e => by cases e) fun _ a ha => ?_
    have ha : view c g'.s.mem a ≠ view c g.s.mem a := by rw [← i3]; exact ha
    obtain ⟨-, u2, u3, u4⟩ := hu a ha
    refine ⟨fun k hk hw => ha ?_, u2, u3, u4⟩
    exact pool_keeps_word i1 i2 hn (off := 0) (by have := i1.valid.item_ge; omega) hp hk hw
  | give x t' d' h ht ho ih =>
    obtain ⟨i1, i2, i3, i4⟩ := ih
    exact ⟨i1, i2, i3, i4.give x t' d' ht ho⟩

/-- The data of the nodes does not change while the threads run. -/
theorem list_data (hbe : ∀ q, (T q).prog.be = be) {g0 : Ghost} (hg : Hist c false g0) (hp0 : p ∈ g0.live)
    (hn : c.ncpu ≤ 2 ^ 32) (hH : Heap c g0 node B priv) {G0 : Rseq.Stacks wb}
    (h0 : Rseq.StackInit (listLayout be fld c p node B priv) (view c g0.s.mem) G0)
    {s : Rseq.State wb} {G : Rseq.Stacks wb} {g : Ghost}
    (h : ListPool T (listLayout be fld c p node B priv) c p G0 g0 s G g) :
    ∀ x, IsNode c node B x → Rseq.ldw be s.mem (x + nodeData) = Rseq.ldw be (view c g0.s.mem) (x + nodeData) := by
  have hK := layout_ok (be := be) (fld := fld) hg hp0 hn hH
  have hD := data_apart (be := be) (fld := fld) hg hp0 hn hH
  induction h with
  | init => intro x _; rfl
  | step h hs hl hi hw hm ih =>
    intro x hx
    obtain ⟨-, -, -, i4⟩ := h.sound hg hp0 hn
    have hI := i4.inv wb_ge hbe hK h0
    rw [← ih x hx]
    refine Rseq.ldw_agree fun a ha => Classical.byContradiction fun hne => ?_
    rcases Rseq.list_changes wb_ge hbe hK hI hs a hne with e | ⟨f, hf, -, -, e⟩
    · exact hl e
    rcases e with e | ⟨e, -⟩
    · exact hD.priv x _ _ a hx ha e
    · refine hD.head f.cpu ?_ x a hx e ha
      exact (hI.frames _ _ f (by rw [Rseq.frameAt_top rfl]; exact hf)).2.1
  | @other s G g g' t h hr ht hp hu ih =>
    intro x hx
    obtain ⟨-, -, i3, -⟩ := h.sound hg hp0 hn
    rw [← ih x hx]
    refine Rseq.ldw_agree fun a ha => Classical.byContradiction fun hne => ?_
    exact (hu a (by rw [← i3]; exact hne)).1 x hx ha
  | give x t' d' h ht ho ih => exact ih

/-! ### What the loops of the main thread store to -/

theorem listFill_frame {n : Nat} {be : Bool} {h off doff : Rseq.W n} {node : Nat → Rseq.W n} {a : Rseq.W n}
    (h1 : ¬ Rseq.InWord h a) : ∀ (k j : Nat) (m : Rseq.Mem n) (sum : BitVec 64),
    (∀ i, j ≤ i → i < j + k → ¬ Rseq.InWord (node i + doff) a ∧ ¬ Rseq.InWord (node i + off) a) →
    (Rseq.listFill be h off doff node k j m sum).1 a = m a := by
  intro k
  induction k with
  | zero => intro j m sum _; rfl
  | succ k ih =>
    intro j m sum hi
    obtain ⟨h2, h3⟩ := hi j (Nat.le_refl _) (by omega)
    unfold Rseq.listFill
    dsimp only
    rw [ih (j + 1) _ _ fun i g1 g2 => hi i (by omega) (by omega), Rseq.stw_other _ _ _ _ _ h1,
      Rseq.stw_other _ _ _ _ _ h3, Rseq.stw_other _ _ _ _ _ h2]

theorem setup_frame {n : Nat} {K : Rseq.ListLayout n} {doff : Rseq.W n} {node : BitVec 32 → Nat → Rseq.W n} {B : Nat}
    {a : Rseq.W n} : ∀ (cs : List (BitVec 32)) (m : Rseq.Mem n) (sum : BitVec 64) (m' : Rseq.Mem n) (sum' : BitVec 64),
    (∀ k ∈ cs, ¬ Rseq.InWord (K.head k) a ∧ ∀ i, 1 ≤ i → i ≤ B →
      ¬ Rseq.InWord (node k i + doff) a ∧ ¬ Rseq.InWord (node k i + K.off) a) →
    Rseq.forCpus (fun c m sum => some (Rseq.listFill K.be (K.head c) K.off doff (node c) B 1 m sum)) cs m sum =
      some (m', sum') → m' a = m a := by
  intro cs
  induction cs with
  | nil => intro m sum m' sum' _ e; cases e; rfl
  | cons k cs ih =>
    intro m sum m' sum' hc e
    unfold Rseq.forCpus at e
    obtain ⟨h1, h2⟩ := hc k (.head _)
    rw [ih _ _ _ _ (fun k hk => hc k (.tail _ hk)) e]
    exact listFill_frame h1 B 1 m sum fun i g1 g2 => h2 i g1 (by omega)

theorem popLoop_frame {n : Nat} {be : Bool} {off doff h : Rseq.W n} {a : Rseq.W n} (ha : ¬ Rseq.InWord h a) :
    ∀ (k : Nat) (m : Rseq.Mem n) (sum : BitVec 64) (m' : Rseq.Mem n) (sum' : BitVec 64),
    Rseq.popLoop be off doff h k m sum = some (m', sum') → m' a = m a := by
  intro k
  induction k with
  | zero => intro m sum m' sum' e; cases e
  | succ k ih =>
    intro m sum m' sum' e
    unfold Rseq.popLoop at e
    dsimp only at e
    split at e
    · cases e; rfl
    · rw [ih _ _ _ _ e, Rseq.stw_other _ _ _ _ _ ha]

theorem popAll_frame {n : Nat} {be : Bool} {off doff : Rseq.W n} {head : BitVec 32 → Rseq.W n} {k : Nat} {a : Rseq.W n} :
    ∀ (cs : List (BitVec 32)) (m : Rseq.Mem n) (sum : BitVec 64) (m' : Rseq.Mem n) (sum' : BitVec 64),
    (∀ c ∈ cs, ¬ Rseq.InWord (head c) a) → Rseq.popAll be off doff head k cs m sum = some (m', sum') → m' a = m a := by
  intro cs
  induction cs with
  | nil => intro m sum m' sum' _ e; cases e; rfl
  | cons c cs ih =>
    intro m sum m' sum' hc e
    unfold Rseq.popAll at e
    split at e
    · cases e
    · next m1 sum1 e1 =>
      rw [ih _ _ _ _ (fun c h => hc c (.tail _ h)) e, popLoop_frame (hc c (.head _)) _ _ _ _ _ e1]

/-- **C105: `test_percpu_list` passes** (param_test.c:788-885).  If the setup of the pool succeeds, then
- the loop that builds the lists computes `expected_sum` as the number of CPUs times `1 + ... + B` (`B` is 100 in the
  test) and its stores are ones to the item and to the nodes, which the pool follows;
- however the threads run afterwards and whatever else happens to the pool, once every node is back in a list, the
  loop that empties the lists ends with this very sum;
- then freeing the item and destroying the pool succeed. -/
theorem list_test_pool (hbe : ∀ q, (T q).prog.be = be) {attrOk : Bool} {pg detected : Nat}
    (hpg : ∃ k, pg = 2 ^ k) (hdet : detected < 2 ^ 31) {callocOk nameOk : Bool} {env env' : RangeEnv}
    {m : Verif.Mem} (hwf : m.WF)
    (henv : ∀ c s, Mempool.create (some testAttr) (BitVec.ofNat _ wb) pg detected callocOk nameOk env m = .pool c s →
      Mempool.EnvOK c [] m env ∧ Mempool.EnvOK c s.pool.ranges s.mem env') {s0 : Mempool.State}
    (h0 : testSetup (BitVec.ofNat _ wb) attrOk pg detected callocOk nameOk env m env' = some (c, p, s0))
    (hH : Heap c ⟨s0, [p], []⟩ node B priv) (hB : 2 * B < 2 ^ (8 * wb)) :
    ∃ m0, Rseq.listSetup (listLayout be fld c p node B priv) nodeData node B (view c s0.mem) =
        some (m0, BitVec.ofNat 64 (detected * (B * (B + 1) / 2))) ∧
      (∃ g1, Writes c p ⟨s0, [p], []⟩ g1 ∧ m0 = view c g1.s.mem) ∧
      ∀ g1, Writes c p ⟨s0, [p], []⟩ g1 → m0 = view c g1.s.mem → ∀ {s : Rseq.State wb} {G : Rseq.Stacks wb} {g : Ghost},
        ListPool T (listLayout be fld c p node B priv) c p (Rseq.Stacks.fresh (Rseq.listNodes node B)) g1 s G g →
        (∀ x, G.own x = none) → ∀ loops, detected * B < loops →
        ∃ m' sum, Rseq.popAll be nodeNext nodeData (ctr c p 0) loops (cpus c) (view c g.s.mem) 0#64 = some (m', sum) ∧
          (∃ g2, Writes c p g g2 ∧ m' = view c g2.s.mem) ∧
          ∀ g2, Writes c p g g2 → m' = view c g2.s.mem → ∀ ok,
            testEnd c p sum (BitVec.ofNat 64 (detected * (B * (B + 1) / 2))) ok g2.s = .passes := by
  have hw : (BitVec.ofNat (8 * wb) wb).toNat = wb :=
    Mempool.ofNat_toNat_lt (by rcases Abi.wb_eq with h | h <;> rw [h] <;> decide)
  obtain ⟨hg, e1, -, e2, e3, hz⟩ := testSetup_spec
    (by rw [hw]; rcases Abi.wb_eq with h | h <;> rw [h] <;> decide) hpg hwf henv h0
  rw [hw] at e2
  have hn : c.ncpu ≤ 2 ^ 32 := by omega
  have hp : p ∈ (⟨s0, [p], []⟩ : Ghost).live := .head _
  have hK := layout_ok (be := be) (fld := fld) hg hp hn hH
  have hD := data_apart (be := be) (fld := fld) hg hp hn hH
  have hN := nodes_ok (be := be) (fld := fld) (p := p) hH
  have hlen : (cpus c).length = detected := by unfold cpus; rw [List.length_map, List.length_range, e1]
  have hz' : ∀ k ∈ (listLayout be fld c p node B priv).cpus, Rseq.ldw be (view c s0.mem) (ctr c p 0 k) = 0#_ :=
    fun k hk => zero_word hg hp hn (off := 0) (by omega) hz hk
  obtain ⟨m0, f1, f2, f3⟩ := Rseq.list_setup hK (nodup_cpus hn) hD hN hz'
  have hpass := Rseq.list_test_passes (T := T) (K := listLayout be fld c p node B priv) wb_ge hbe hK (nodup_cpus hn) hD
    hB hN hz'
  have f1' : Rseq.listSetup (listLayout be fld c p node B priv) nodeData node B (view c s0.mem) =
      some (m0, BitVec.ofNat 64 (detected * (B * (B + 1) / 2))) := by
    rw [f1]
    show some (m0, BitVec.ofNat 64 ((cpus c).length * _)) = _
    rw [hlen]
  obtain ⟨m0', exp', q1, q2⟩ := hpass
  rw [f1'] at q1
  cases q1
  refine ⟨m0, f1', ?_, fun g1 w1 v1 s G g h hown loops hloops => ?_⟩
  · refine Writes.reach hg hp m0 fun a ha => Classical.byContradiction fun hno => ha ?_
    have hno1 := fun h => hno (.inl h)
    have hno2 := fun h => hno (.inr h)
    refine setup_frame (K := listLayout be fld c p node B priv) (doff := nodeData) _ _ _ _ _ (fun k hk => ⟨fun h => ?_, fun i h1 h2 => ?_⟩) f1'
    · exact hno1 (head_inside hg hp hn hk h).1
    · have hx : IsNode c node B (node k i) := ⟨k, hk, i, h1, h2, rfl⟩
      exact ⟨fun h => hno2 (hH.node_out _ a hx (.inl h)), fun h => hno2 (hH.node_out _ a hx (.inr h))⟩
  · obtain ⟨j1, j2, j3⟩ := w1.hist hg hp
    have hp1 : p ∈ g1.live := j2 ▸ hp
    have hH1 : Heap c g1 node B priv := { hH with
      node_out := fun x a h1 h2 => w1.outside hg hp (hH.node_out x a h1 h2)
      priv_out := fun t d a h => w1.outside hg hp (hH.priv_out t d a h)
      null_out := fun a h => w1.outside hg hp (hH.null_out a h) }
    obtain ⟨i1, i2, i3, i4⟩ := h.sound j1 hp1 hn
    have hdata := list_data hbe j1 hp1 hn hH1 (by rw [← v1]; exact f2) h
    rw [← v1] at i4 hdata
    obtain ⟨m', r1, -⟩ := q2 i4 hown hdata loops (by show (cpus c).length * B < loops; rw [hlen]; exact hloops)
    have r1 : Rseq.popAll be nodeNext nodeData (ctr c p 0) loops (cpus c) s.mem 0#64 = _ := r1
    rw [i3] at r1
    refine ⟨m', _, r1, ?_, fun g2 w2 v2 ok => ?_⟩
    · refine Writes.reach i1 i2 m' fun a ha => .inl (Classical.byContradiction fun hno => ha ?_)
      exact popAll_frame _ _ _ _ _ (fun k hk h => hno (head_inside i1 i2 hn hk h).1) r1
    · obtain ⟨k1, k2, -⟩ := w2.hist i1 i2
      exact testEnd_passes k1 (k2 ▸ i2) e3 rfl ok

/-! ### No execution is left out -/

/-- **C105, every execution of the list test is one on the pool**: whatever step a helper or the kernel can make on the
memory of the pool, and for every store of a thread to the `next` field of a node it holds, the pool follows. -/
theorem list_pool_total (hbe : ∀ q, (T q).prog.be = be) {g0 : Ghost} (hg : Hist c false g0) (hp : p ∈ g0.live)
    (hn : c.ncpu ≤ 2 ^ 32) (hH0 : Heap c g0 node B priv) {G0 : Rseq.Stacks wb}
    (h0 : Rseq.StackInit (listLayout be fld c p node B priv) (view c g0.s.mem) G0)
    {s : Rseq.State wb} {G : Rseq.Stacks wb} {g : Ghost}
    (h : ListPool T (listLayout be fld c p node B priv) c p G0 g0 s G g) (hH : Heap c g node B priv) :
    (∀ t lab s', Rseq.Step T s t lab s' → lab ≠ .user →
      (∀ f, lab = .invoke f → Rseq.ListCall (listLayout be fld c p node B priv) G s.mem t (s.th t).saved.length f) →
      ∃ g', g'.live = g.live ∧ Heap c g' node B priv ∧ ListPool T (listLayout be fld c p node B priv) c p G0 g0 s'
        (Rseq.applyOp G t (s.th t).saved.length (Rseq.committing T s t lab)) g') ∧
    (∀ t x v, (s.th t).run = true → (s.th t).top = none → G.own x = some (t, (s.th t).saved.length) →
      ∃ g', g'.live = g.live ∧ Heap c g' node B priv ∧ ListPool T (listLayout be fld c p node B priv) c p G0 g0
        { s with mem := Rseq.stw be s.mem (x + nodeNext) v } G g') := by
  obtain ⟨i1, i2, i3, i4⟩ := h.sound hg hp hn
  have hK := layout_ok (be := be) (fld := fld) hg hp hn hH0
  have hI := i4.inv wb_ge hbe hK h0
  have keep : ∀ {g'}, Writes c p g g' → Heap c g' node B priv := fun w => { hH with
      node_out := fun x a h1 h2 => w.outside i1 i2 (hH.node_out x a h1 h2)
      priv_out := fun t d a h => w.outside i1 i2 (hH.priv_out t d a h)
      null_out := fun a h => w.outside i1 i2 (hH.null_out a h) }
  refine ⟨fun t lab s' hs hlab hi => ?_, fun t x v hr ht ho => ?_⟩
  · obtain ⟨g', w, e⟩ := Writes.reach i1 i2 s'.mem fun a ha => by
      rw [← i3] at ha
      rcases Rseq.list_changes wb_ge hbe hK hI hs a ha with e | ⟨f, hf, -, -, e⟩
      · exact absurd e hlab
      rcases e with e | ⟨e, -⟩
      · exact .inr (hH.priv_out _ _ a e)
      · exact .inl (head_inside i1 i2 hn (hI.frames _ _ f (by rw [Rseq.frameAt_top rfl]; exact hf)).2.1 e).1
    exact ⟨g', (w.hist i1 i2).2.1, keep w, .step h hs hlab hi w e⟩
  · have hx : IsNode c node B x := hI.ownN x _ ho
    have hin : ∀ a, Rseq.stw be s.mem (x + nodeNext) v a ≠ view c g.s.mem a → Rseq.InWord (x + nodeNext) a := fun a ha =>
      Classical.byContradiction fun hn => ha (by rw [Rseq.stw_other _ _ _ _ _ hn, i3])
    obtain ⟨m', w, e⟩ := ext_reach i1 (Rseq.stw be s.mem (x + nodeNext) v) fun a ha => hH.node_out x a hx (.inr (hin a ha))
    have hst := PoolStep.ext (I := [p]) (uaf := false) g m' w
    have hws : Writes c p g _ := .other .refl m' w
    refine ⟨⟨{ g.s with mem := m' }, g.live, g.freed⟩, rfl, keep hws, ?_⟩
    rw [e]
    refine ListPool.other h hr ht hst fun a ha => ?_
    have ha := hin a (by rw [e]; exact ha)
    obtain ⟨k, hk, j, h1, h2, rfl⟩ := hx
    refine ⟨?_, ?_, fun t' d' hpr => absurd hpr (hH.node_priv _ _ _ a ⟨k, hk, j, h1, h2, rfl⟩ (.inr ha)),
      hH.null_node _ a ⟨k, hk, j, h1, h2, rfl⟩ (.inr ha)⟩
    · rintro y ⟨k', hk', j', h1', h2', rfl⟩ hd
      obtain ⟨rfl, rfl⟩ := hH.apart k hk k' hk' j j' h1 h2 h1' h2' a (.inr ha) (.inl hd)
      exact data_next_word hd ha
    · rintro y ⟨k', hk', j', h1', h2', rfl⟩ hd
      obtain ⟨rfl, rfl⟩ := hH.apart k hk k' hk' j j' h1 h2 h1' h2' a (.inr ha) (.inr hd)
      exact ho

end Verif.Joint
