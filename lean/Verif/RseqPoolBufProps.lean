import Verif.RseqPoolBuf

/-!
C106: the two buffer tests of tests/param_test.c pass, from the creation of the pool to its destruction.
-/

namespace Verif.Joint

open Mempool (Config Ghost Hist cpuAddr InRegion RangeEnv)

variable [Abi]
variable {T : Nat → Rseq.Site wb} {fld : Rseq.Fld} {be : Bool} {c : Config} {p isz len B N : Nat}
  {arr : BitVec 32 → Rseq.W wb} {node : BitVec 32 → Nat → Rseq.W wb} {priv : Nat → Nat → Rseq.W wb → Prop}
  {data : Rseq.W wb → Prop}

theorem BufHeap.len_lt {g : Ghost} (hH : BufHeap c g arr len isz priv) : len < 2 ^ (8 * wb) :=
  Nat.lt_of_le_of_lt (Nat.le_mul_of_pos_right len hH.isz0) hH.size

/-- What a step of a helper or of the kernel changes. -/
theorem buf_step_changes (hbe : ∀ q, (T q).prog.be = be) {g0 : Ghost}
    {G0 : Rseq.Bufs wb} (hK : (bufLayout be fld c p isz priv arr len).OK)
    (h0 : Rseq.BufInit (bufLayout be fld c p isz priv arr len) (view c g0.s.mem) G0)
    {s s' : Rseq.State wb} {G : Rseq.Bufs wb} {H : Rseq.Hold}
    (h : Rseq.TestReach T (bufLayout be fld c p isz priv arr len) (view c g0.s.mem) G0 N s G H) {t : Nat}
    {lab : Rseq.Lab wb} (hs : Rseq.Step T s t lab s') (hl : lab ≠ .user) (a : Rseq.W wb) (ha : s'.mem a ≠ s.mem a) :
    (∃ k ∈ cpus c, Rseq.InWord (bufOffset c p k) a) ∨ (∃ k ∈ cpus c, (a - arr k).toNat < len * isz) ∨
      ∃ d, priv t d a := by
  have hI := h.breach.inv wb_ge hbe hK h0
  rcases Rseq.buf_changes wb_ge hbe hK hI hs a ha with e | ⟨f, hf, -, -, e⟩
  · exact absurd e hl
  have hc : f.cpu ∈ cpus c := (hI.frames _ _ f (by rw [Rseq.frameAt_top rfl]; exact hf)).shape.2.1
  rcases e with ⟨e, -⟩ | ⟨e1, e2⟩ | ⟨e, -⟩
  · exact .inl ⟨_, hc, e⟩
  · exact .inr (.inl ⟨_, hc, hK.slot_arr (c := f.cpu) hc e1 e2⟩)
  · exact .inr (.inr ⟨_, e⟩)

/-- An execution of a buffer test on a pool is one of the test, on a pool in a reachable state; the fields `buflen` and
`array` and the bytes `data` keep their values. -/
theorem BufPool.sound (hbe : ∀ q, (T q).prog.be = be) {g0 : Ghost} (hg : Hist c false g0) (hp0 : p ∈ g0.live)
    (hn : c.ncpu ≤ 2 ^ 32) (hl : 3 * wb ≤ c.itemLen) (hH : BufHeap c g0 arr len isz priv) {G0 : Rseq.Bufs wb}
    (h0 : Rseq.BufInit (bufLayout be fld c p isz priv arr len) (view c g0.s.mem) G0)
    (hD : Described be c p arr len (view c g0.s.mem))
    (hdata : ∀ a, data a → Outside c g0 a.toNat ∧ (∀ k ∈ cpus c, ¬ (a - arr k).toNat < len * isz) ∧ ∀ t d, ¬ priv t d a)
    {s : Rseq.State wb} {G : Rseq.Bufs wb} {H : Rseq.Hold} {g : Ghost}
    (h : BufPool T be fld c p isz priv data N G0 g0 s G H g) :
    Hist c false g ∧ p ∈ g.live ∧ s.mem = view c g.s.mem ∧
    Rseq.TestReach T (bufLayout be fld c p isz priv arr len) (view c g0.s.mem) G0 N s G H ∧
    Described be c p arr len s.mem ∧ ∀ a, data a → s.mem a = view c g0.s.mem a := by
  have hK := buf_layout_ok (be := be) (fld := fld) hg hp0 hn hl hH
  have hF := fields_ok (be := be) (fld := fld) hg hp0 hn hl hH
  have hlt := hH.len_lt
  have h4 := wb_ge
  induction h with
  | init => exact ⟨hg, hp0, rfl, .init, hD, fun _ _ => rfl⟩
  | @step s s' G H g g' t lab h hs hl' hi hw hm ih =>
    obtain ⟨i1, i2, i3, i4, i5, i6⟩ := ih
    obtain ⟨j1, j2, -⟩ := hw.hist i1 i2
    have hI := i4.breach.inv wb_ge hbe hK h0
    have ch := buf_step_changes hbe hK h0 i4 hs hl'
    refine ⟨j1, j2 ▸ i2, hm, ?_, fun k hk => ?_, fun a ha => ?_⟩
    · refine i4.step hs (fun f hf => ⟨?_, (hi f hf).2⟩) fun e => absurd e hl'
      have hc := (hi f hf).1
      obtain ⟨-, w, hw, -⟩ := hc
      exact (bufCall_described i5 hlt (hI.rd _ _ _ _ hw).1).1 (hi f hf).1
    · have key : ∀ a, Rseq.InWord (bufLen c p k) a ∨ Rseq.InWord (bufArray c p k) a → s'.mem a = s.mem a := by
        intro a ha
        refine Classical.byContradiction fun hne => ?_
        have hout : ¬ Outside c g0 a.toNat := by
          rcases ha with ha | ha
          · exact (word_inside hg hp0 hn (off := wb) (by omega) hk ha).2
          · exact (word_inside hg hp0 hn (off := 2 * wb) (by omega) hk ha).2
        rcases ch a hne with ⟨k', hk', e⟩ | ⟨k', hk', e⟩ | ⟨d, e⟩
        · exact hF.off k hk k' hk' a ha e
        · exact hout (hH.arr_out k' hk' a e)
        · exact hout (hH.priv_out _ _ a e)
      obtain ⟨d1, d2⟩ := i5 k hk
      refine ⟨?_, ?_⟩
      · rw [← d1]; exact Rseq.ldw_agree fun a ha => key a (.inr ha)
      · rw [← d2]; exact Rseq.ldw_agree fun a ha => key a (.inl ha)
    · rw [← i6 a ha]
      obtain ⟨u1, u2, u3⟩ := hdata a ha
      refine Classical.byContradiction fun hne => ?_
      rcases ch a hne with ⟨k', hk', e⟩ | ⟨k', hk', e⟩ | ⟨d, e⟩
      · exact (word_inside hg hp0 hn (off := 0) (by omega) hk' e).2 u1
      · exact u2 k' hk' e
      · exact u3 _ _ e
  | @other s G H g g' t h hr ht hp hu ih =>
    obtain ⟨i1, i2, i3, i4, i5, i6⟩ := ih
    refine ⟨hp.hist i1, hp.live (one_live i2) p (.head _), rfl, ?_, fun k hk => ?_, fun a ha => ?_⟩
    · refine i4.step (lab := .user) (.user _ hr ht) (fun f e => by cases e) fun _ a ha => ?_
      have ha : view c g'.s.mem a ≠ view c g.s.mem a := by rw [← i3]; exact ha
      obtain ⟨u1, u2, -⟩ := hu a ha
      refine ⟨fun k hk => ⟨fun hw => ha ?_, fun hw => u1 k hk ((inArr_described i5 hlt hk).2 hw)⟩, u2⟩
      exact pool_keeps_word i1 i2 hn (off := 0) (by omega) hp hk hw
    · obtain ⟨d1, d2⟩ := i5 k hk
      rw [i3] at d1 d2
      refine ⟨?_, ?_⟩
      · rw [← d1]
        exact Rseq.ldw_agree fun a ha => pool_keeps_word i1 i2 hn (off := 2 * wb) (by omega) hp hk ha
      · rw [← d2]
        exact Rseq.ldw_agree fun a ha => pool_keeps_word i1 i2 hn (off := wb) (by omega) hp hk ha
    · rw [← i6 a ha, i3]
      exact Classical.byContradiction fun hne => (hu a hne).2.2 ha
  | read h hr ht hk ih =>
    obtain ⟨i1, i2, i3, i4, i5, i6⟩ := ih
    exact ⟨i1, i2, i3, i4.read hr ht hk, i5, i6⟩

/-! ### The tests -/

theorem two_wb_lt : 3 * wb ≤ 2 ^ (8 * wb - 1) := by rcases Abi.wb_eq with h | h <;> rw [h] <;> decide

/-- **C106: `test_percpu_buffer` passes** (param_test.c:1011-1119).  If the setup of the pool succeeds, then
- the loop that fills the buffers computes `expected_sum` as the number of CPUs times `1 + ... + B` (`B` is 100 in the
  test), leaves every buffer with its `B` nodes and its fields set, and its stores are ones to the item, the arrays and the nodes, which the pool follows;
- however the threads run afterwards and whatever else happens to the pool, a thread that has a node finds `offset`
  different from `buflen` on every CPU, so it does not abort; and once no thread has a node, the loop that empties the
  buffers ends with this very sum;
- then freeing the item and destroying the pool succeed.
`detected * B < 2 ^ 31`: the product at :1057 is one of `int`. -/
theorem buffer_test_pool (hbe : ∀ q, (T q).prog.be = be) {attrOk : Bool} {pg detected : Nat}
    (hpg : ∃ k, pg = 2 ^ k) (hdet : detected < 2 ^ 31) {callocOk nameOk : Bool} {env env' : RangeEnv}
    {m : Verif.Mem} (hwf : m.WF)
    (henv : ∀ c s, Mempool.create (some testAttr) (BitVec.ofNat _ (3 * wb)) pg detected callocOk nameOk env m = .pool c s →
      Mempool.EnvOK c [] m env ∧ Mempool.EnvOK c s.pool.ranges s.mem env') {s0 : Mempool.State}
    (h0 : testSetup (BitVec.ofNat _ (3 * wb)) attrOk pg detected callocOk nameOk env m env' = some (c, p, s0))
    (_hint : detected * B < 2 ^ 31) (hH : BufHeap c ⟨s0, [p], []⟩ arr (detected * B) wb priv)
    (hN : BufNodes c ⟨s0, [p], []⟩ arr (detected * B) priv node B) (hB : 2 * B < 2 ^ (8 * wb)) :
    ∃ m0, Rseq.ptrSetupM be (cpus c) (bufOffset c p) (bufLen c p) (bufArray c p) arr (Rseq.num (detected * B)) 0#_ node B
          (view c s0.mem) = some (m0, BitVec.ofNat 64 (detected * (B * (B + 1) / 2))) ∧
      (Rseq.BufInit (bufLayout be fld c p wb priv arr (detected * B)) m0
          (Rseq.Bufs.fresh (Rseq.ptrItems (bufLayout be fld c p wb priv arr (detected * B)) node B)) ∧
        Described be c p arr (detected * B) m0) ∧
      (∃ g1, Writes c p ⟨s0, [p], []⟩ g1 ∧ m0 = view c g1.s.mem) ∧
      ∀ g1, Writes c p ⟨s0, [p], []⟩ g1 → m0 = view c g1.s.mem → ∀ {s : Rseq.State wb} {G : Rseq.Bufs wb} {H : Rseq.Hold}
          {g : Ghost}, BufPool T be fld c p wb priv (fun a => ∃ x, IsNode c node B x ∧ Rseq.InWord x a) N
          (Rseq.Bufs.fresh (Rseq.ptrItems (bufLayout be fld c p wb priv arr (detected * B)) node B)) g1 s G H g →
        (∀ t y, H t = some y → ∀ k ∈ cpus c,
          Rseq.ldw be (view c g.s.mem) (bufOffset c p k) ≠ Rseq.ldw be (view c g.s.mem) (bufLen c p k)) ∧
        ((∀ t, H t = none) → ∀ loops, detected * B < loops →
        ∃ m' sum, Rseq.forCpus (fun k => Rseq.ptrLoopM be (bufOffset c p k) (bufArray c p k) 0#_ loops) (cpus c)
            (view c g.s.mem) 0#64 = some (m', sum) ∧
          (∃ g2, Writes c p g g2 ∧ m' = view c g2.s.mem) ∧
          ∀ g2, Writes c p g g2 → m' = view c g2.s.mem → ∀ ok,
            testEnd c p sum (BitVec.ofNat 64 (detected * (B * (B + 1) / 2))) ok g2.s = .passes) := by
  have h4 := wb_ge
  have h3 := two_wb_lt
  have hpow : 2 ^ (8 * wb - 1) < 2 ^ (8 * wb) := Nat.pow_lt_pow_right (by decide) (by omega)
  have hw : (BitVec.ofNat (8 * wb) (3 * wb)).toNat = 3 * wb := Mempool.ofNat_toNat_lt
    (by rcases Abi.wb_eq with h | h <;> rw [h] <;> decide)
  obtain ⟨hg, e1, -, e2, e3, hz⟩ := testSetup_spec (by rw [hw]; exact h3) hpg hwf henv h0
  rw [hw] at e2
  have hn : c.ncpu ≤ 2 ^ 32 := by omega
  have hp : p ∈ (⟨s0, [p], []⟩ : Ghost).live := .head _
  have hlen : (cpus c).length = detected := by unfold cpus; rw [List.length_map, List.length_range, e1]
  let K := bufLayout be fld c p wb priv arr (detected * B)
  have hK : K.OK := buf_layout_ok hg hp hn e2 hH
  have hF : Rseq.FieldsOK K (bufLen c p) (bufArray c p) := fields_ok hg hp hn e2 hH
  have isn : ∀ {k}, k ∈ cpus c → ∀ {j}, 1 ≤ j → j ≤ B → IsNode c node B (node k j) := fun hk _ h1 h2 =>
    ⟨_, hk, _, h1, h2, rfl⟩
  have add0 : ∀ x : Rseq.W wb, x + 0#_ = x := fun x => BitVec.add_zero x
  have hNK : Rseq.NodesOK K 0#_ node B :=
    { off := fun k hk k' hk' j h1 h2 a ha h => by
        rw [add0] at ha
        exact (word_inside hg hp hn (off := 0) (by omega) hk' h).2 (hN.out _ a (isn hk h1 h2) ha)
      arr := fun k hk k' hk' j h1 h2 a ha h => by
        rw [add0] at ha
        exact hN.arr _ a (isn hk h1 h2) ha k' hk' h
      apart := fun k hk k' hk' j j' h1 h2 h1' h2' a ha ha' => by
        rw [add0] at ha ha'
        exact hN.apart k hk k' hk' j j' h1 h2 h1' h2' a ha ha' }
  have hNF : Rseq.NodeFields K (bufLen c p) (bufArray c p) 0#_ node B := fun k hk k' hk' j h1 h2 a ha => by
    rw [add0] at ha
    exact ⟨fun h => (word_inside hg hp hn (off := wb) (by omega) hk' h).2 (hN.out _ a (isn hk h1 h2) ha),
      fun h => (word_inside hg hp hn (off := 2 * wb) (by omega) hk' h).2 (hN.out _ a (isn hk h1 h2) ha)⟩
  have hcap : ∀ k ∈ K.cpus, K.cap k = K.cpus.length * B := fun k _ => by
    show detected * B = (cpus c).length * B
    rw [hlen]
  have hcap' : ∀ k ∈ K.cpus, B ≤ K.cap k := fun k hk => by
    rw [hcap k hk]
    exact Nat.le_mul_of_pos_left B (List.length_pos_of_mem hk)
  have hz' : ∀ k ∈ K.cpus, Rseq.ldw K.be (view c s0.mem) (K.offset k) = 0#_ :=
    fun k hk => zero_word hg hp hn (off := 0) (by omega) hz hk
  obtain ⟨m0, f1, f2, f3, f4, f5⟩ := Rseq.buffer_setup_fields (len := Rseq.num (detected * B)) hK rfl (nodup_cpus hn) hF
    hNK hNF hcap' hz'
  rw [show K.cpus.length = detected from hlen] at f1
  refine ⟨m0, f1, ⟨f2, f4⟩, ?_, fun g1 w1 v1 s G H g h => ?_⟩
  · refine Writes.reach hg hp m0 fun a ha => Classical.byContradiction fun hno => ha (f5 a fun k hk => ?_)
    refine ⟨fun h => hno (.inl (word_inside hg hp hn (off := 0) (by omega) hk h).1),
      fun h => hno (.inl (word_inside hg hp hn (off := wb) (by omega) hk h).1),
      fun h => hno (.inl (word_inside hg hp hn (off := 2 * wb) (by omega) hk h).1),
      fun h => hno (.inr (hH.arr_out k hk a h)), fun j h1 h2 h => ?_⟩
    rw [add0] at h
    exact hno (.inr (hN.out _ a (isn hk h1 h2) h))
  · obtain ⟨j1, j2, -⟩ := w1.hist hg hp
    have hp1 : p ∈ g1.live := j2 ▸ hp
    have hH1 := bufHeap_writes hg hp hH w1
    obtain ⟨i1, i2, i3, i4, i5, i6⟩ := h.sound hbe j1 hp1 hn e2 hH1 (by rw [← v1]; exact f2)
      (by rw [← v1]; exact f4) (fun a ⟨x, hx, ha⟩ => ⟨w1.outside hg hp (hN.out x a hx ha), hN.arr x a hx ha,
        hN.priv x a hx ha⟩)
    rw [← v1] at i4 i6
    obtain ⟨q1, q2⟩ := Rseq.buffer_end wb_ge hbe hK rfl (nodup_cpus hn) hB hNK
      (fun k hk j h1 h2 e => hN.nonnull (e ▸ isn hk h1 h2)) hcap f2 f3 i4
    refine ⟨fun t y hy k hk => ?_, fun hq loops hloops => ?_⟩
    · have := q1 t y hy k hk
      rw [← i3, (i5 k hk).2]
      exact this
    · obtain ⟨m', r1⟩ := q2 hq (fun k hk j h1 h2 => Rseq.ldw_agree fun a ha => i6 a ⟨_, isn hk h1 h2, by
          rw [add0] at ha; exact ha⟩) loops (by rw [show K.cpus.length = detected from hlen]; exact hloops)
      have r2 : Rseq.forCpus (fun k => Rseq.ptrLoopM be (bufOffset c p k) (bufArray c p k) 0#_ loops) (cpus c) s.mem 0#64 =
          some (m', BitVec.ofNat 64 (detected * (B * (B + 1) / 2))) := by
        rw [← show K.cpus.length = detected from hlen, ← r1]
        refine Rseq.forCpus_congr (I := fun m => ∀ k ∈ cpus c, Rseq.ldw be m (bufArray c p k) = arr k) _ _ _
          (fun k hk m sum hm => ⟨?_, fun m' sum' e k' hk' => ?_⟩) fun k hk => (i5 k hk).1
        · exact Rseq.ptrLoopM_eq (fun a ha => hF.off k hk k hk a (.inr ha)) _ _ _ (hm k hk)
        · rw [← hm k' hk']
          exact Rseq.ldw_agree fun a ha => Rseq.ptrLoop_frame (hF.off k' hk' k hk a (.inr ha)) _ _ _ _ _ e
      rw [i3] at r1 r2
      refine ⟨m', _, r2, ?_, fun g2 w2 v2 ok => ?_⟩
      · refine Writes.reach i1 i2 m' fun a ha => .inl (Classical.byContradiction fun hno => ha ?_)
        refine Rseq.forCpus_frame _ _ _ _ _ (fun k hk m sum m' sum' e => ?_) r1
        exact Rseq.ptrLoop_frame (fun h => hno (word_inside i1 i2 hn (off := 0) (by omega) hk h).1) _ _ _ _ _ e
      · obtain ⟨k1, k2, -⟩ := w2.hist i1 i2
        exact testEnd_passes k1 (k2 ▸ i2) e3 rfl ok

/-- **C106: `test_percpu_memcpy_buffer` passes** (param_test.c:1255-1360).  As `buffer_test_pool`; the items are copied,
`isz` is the size of `struct percpu_memcpy_buffer_node` and `d2` the offset of `data2` in it; `item` is the local variable
of the main thread (:1339). -/
theorem memcpy_buffer_test_pool (hbe : ∀ q, (T q).prog.be = be) {attrOk : Bool} {pg detected : Nat}
    (hpg : ∃ k, pg = 2 ^ k) (hdet : detected < 2 ^ 31) {callocOk nameOk : Bool} {env env' : RangeEnv}
    {m : Verif.Mem} (hwf : m.WF)
    (henv : ∀ c s, Mempool.create (some testAttr) (BitVec.ofNat _ (3 * wb)) pg detected callocOk nameOk env m = .pool c s →
      Mempool.EnvOK c [] m env ∧ Mempool.EnvOK c s.pool.ranges s.mem env') {s0 : Mempool.State}
    (h0 : testSetup (BitVec.ofNat _ (3 * wb)) attrOk pg detected callocOk nameOk env m env' = some (c, p, s0))
    {d2 : Nat} (hd : wb ≤ d2) (hd2 : d2 + 8 ≤ isz)
    (_hint : detected * B < 2 ^ 31) (hH : BufHeap c ⟨s0, [p], []⟩ arr (detected * B) isz priv) {item : Rseq.W wb}
    (hi1 : ∀ a, (a - item).toNat < isz → ∀ k ∈ cpus c, ¬ (a - arr k).toNat < detected * B * isz)
    (hB : 2 * B < 2 ^ (8 * wb)) :
    ∃ m0 buf, Rseq.copySetupM be (cpus c) (bufOffset c p) (bufLen c p) (bufArray c p) arr (Rseq.num (detected * B)) isz d2 B
          (view c s0.mem) = some (m0, BitVec.ofNat 64 (detected * ((B + 1) * (B + 1) - 1))) ∧
      (Rseq.BufInit (bufLayout be fld c p isz priv arr (detected * B)) m0 (Rseq.Bufs.fresh buf) ∧
        Described be c p arr (detected * B) m0) ∧
      (∃ g1, Writes c p ⟨s0, [p], []⟩ g1 ∧ m0 = view c g1.s.mem) ∧
      ∀ g1, Writes c p ⟨s0, [p], []⟩ g1 → m0 = view c g1.s.mem → ∀ {s : Rseq.State wb} {G : Rseq.Bufs wb} {H : Rseq.Hold}
          {g : Ghost}, BufPool T be fld c p isz priv (fun _ => False) N (Rseq.Bufs.fresh buf) g1 s G H g →
        (∀ t y, H t = some y → ∀ k ∈ cpus c,
          Rseq.ldw be (view c g.s.mem) (bufOffset c p k) ≠ Rseq.ldw be (view c g.s.mem) (bufLen c p k)) ∧
        ((∀ t, H t = none) → (∀ a, (a - item).toNat < isz → Outside c g a.toNat) → ∀ loops, detected * B < loops →
        ∃ m' sum, Rseq.forCpus (fun k => Rseq.copyLoopM be (bufOffset c p k) (bufArray c p k) isz item
            (Rseq.nodeVal wb be d2) loops) (cpus c) (view c g.s.mem) 0#64 = some (m', sum) ∧
          (∃ g2, Writes c p g g2 ∧ m' = view c g2.s.mem) ∧
          ∀ g2, Writes c p g g2 → m' = view c g2.s.mem → ∀ ok,
            testEnd c p sum (BitVec.ofNat 64 (detected * ((B + 1) * (B + 1) - 1))) ok g2.s = .passes) := by
  have h4 := wb_ge
  have h3 := two_wb_lt
  have hpow : 2 ^ (8 * wb - 1) < 2 ^ (8 * wb) := Nat.pow_lt_pow_right (by decide) (by omega)
  have hw : (BitVec.ofNat (8 * wb) (3 * wb)).toNat = 3 * wb := Mempool.ofNat_toNat_lt
    (by rcases Abi.wb_eq with h | h <;> rw [h] <;> decide)
  obtain ⟨hg, e1, -, e2, e3, hz⟩ := testSetup_spec (by rw [hw]; exact h3) hpg hwf henv h0
  rw [hw] at e2
  have hn : c.ncpu ≤ 2 ^ 32 := by omega
  have hp : p ∈ (⟨s0, [p], []⟩ : Ghost).live := .head _
  have hlen : (cpus c).length = detected := by unfold cpus; rw [List.length_map, List.length_range, e1]
  let K := bufLayout be fld c p isz priv arr (detected * B)
  have hK : K.OK := buf_layout_ok hg hp hn e2 hH
  have hF : Rseq.FieldsOK K (bufLen c p) (bufArray c p) := fields_ok hg hp hn e2 hH
  have hcap : ∀ k ∈ K.cpus, K.cap k = K.cpus.length * B := fun k _ => by
    show detected * B = (cpus c).length * B
    rw [hlen]
  have hcap' : ∀ k ∈ K.cpus, B ≤ K.cap k := fun k hk => by
    rw [hcap k hk]
    exact Nat.le_mul_of_pos_left B (List.length_pos_of_mem hk)
  have hz' : ∀ k ∈ K.cpus, Rseq.ldw K.be (view c s0.mem) (K.offset k) = 0#_ :=
    fun k hk => zero_word hg hp hn (off := 0) (by omega) hz hk
  obtain ⟨m0, buf, f1, f2, f3, f4, f5⟩ := Rseq.memcpy_setup_fields (len := Rseq.num (detected * B)) hK (nodup_cpus hn) hF
    hd hd2 hcap' hz'
  rw [show K.cpus.length = detected from hlen] at f1
  refine ⟨m0, buf, f1, ⟨f2, f4⟩, ?_, fun g1 w1 v1 s G H g h => ?_⟩
  · refine Writes.reach hg hp m0 fun a ha => Classical.byContradiction fun hno => ha (f5 a fun k hk => ?_)
    exact ⟨fun h => hno (.inl (word_inside hg hp hn (off := 0) (by omega) hk h).1),
      fun h => hno (.inl (word_inside hg hp hn (off := wb) (by omega) hk h).1),
      fun h => hno (.inl (word_inside hg hp hn (off := 2 * wb) (by omega) hk h).1),
      fun h => hno (.inr (hH.arr_out k hk a h))⟩
  · obtain ⟨j1, j2, -⟩ := w1.hist hg hp
    have hp1 : p ∈ g1.live := j2 ▸ hp
    have hH1 := bufHeap_writes hg hp hH w1
    obtain ⟨i1, i2, i3, i4, i5, i6⟩ := h.sound hbe j1 hp1 hn e2 hH1 (by rw [← v1]; exact f2)
      (by rw [← v1]; exact f4) (fun a ha => ha.elim)
    rw [← v1] at i4
    refine ⟨fun t y hy k hk => ?_, fun hq hio loops hloops => ?_⟩
    · have hl2 : (K.cpus.flatMap buf).length = K.cpus.length * B := Rseq.length_flat fun k hk => by
        have := congrArg List.length (f3 k hk)
        simpa using this
      have := Rseq.buffer_test_no_abort wb_ge hbe hK f2 (nodup_cpus hn) i4 hy hk (by rw [hcap k hk]; exact Nat.le_of_eq hl2)
      rw [← i3, (i5 k hk).2]
      exact this
    · have hA : Rseq.ItemApart K item :=
        ⟨fun k hk a ha h => (word_inside i1 i2 hn (off := 0) (by omega) hk h).2 (hio a ha),
          fun k hk a ha h => hi1 a ha k hk h⟩
      have hrange : ∀ a, Rseq.InRange item (Rseq.num isz) a → (a - item).toNat < isz := fun a ha => by
        have ha : (a - item).toNat < (Rseq.num isz : Rseq.W wb).toNat := ha
        rwa [BitVec.toNat_ofNat, Nat.mod_eq_of_lt hH.iszlt] at ha
      obtain ⟨-, q2⟩ := Rseq.memcpy_end wb_ge hbe hK (nodup_cpus hn) hB hcap hA f2 f3 i4
      obtain ⟨m', r1⟩ := q2 hq loops (by rw [show K.cpus.length = detected from hlen]; exact hloops)
      have hfi : ∀ k ∈ cpus c, ∀ a, Rseq.InWord (bufArray c p k) a → ¬ Rseq.InRange item (Rseq.num isz) a :=
        fun k hk a ha h => (word_inside i1 i2 hn (off := 2 * wb) (by omega) hk ha).2 (hio a (hrange a h))
      have r2 : Rseq.forCpus (fun k => Rseq.copyLoopM be (bufOffset c p k) (bufArray c p k) isz item
          (Rseq.nodeVal wb be d2) loops) (cpus c) s.mem 0#64 =
          some (m', BitVec.ofNat 64 (detected * ((B + 1) * (B + 1) - 1))) := by
        rw [← show K.cpus.length = detected from hlen, ← r1]
        refine Rseq.forCpus_congr (I := fun m => ∀ k ∈ cpus c, Rseq.ldw be m (bufArray c p k) = arr k) _ _ _
          (fun k hk m sum hm => ⟨?_, fun m' sum' e k' hk' => ?_⟩) fun k hk => (i5 k hk).1
        · exact Rseq.copyLoopM_eq (fun a ha => hF.off k hk k hk a (.inr ha)) (hfi k hk) _ _ _ (hm k hk)
        · rw [← hm k' hk']
          exact Rseq.ldw_agree fun a ha =>
            Rseq.copyLoop_frame (hF.off k' hk' k hk a (.inr ha)) (hfi k' hk' a ha) _ _ _ _ _ e
      rw [i3] at r1 r2
      refine ⟨m', _, r2, ?_, fun g2 w2 v2 ok => ?_⟩
      · refine Writes.reach i1 i2 m' fun a ha => Classical.byContradiction fun hno => ha ?_
        refine Rseq.forCpus_frame _ _ _ _ _ (fun k hk m sum m' sum' e => ?_) r1
        exact Rseq.copyLoop_frame (fun h => hno (.inl (word_inside i1 i2 hn (off := 0) (by omega) hk h).1))
          (fun h => hno (.inr (hio a (hrange a h)))) _ _ _ _ _ e
      · obtain ⟨k1, k2, -⟩ := w2.hist i1 i2
        exact testEnd_passes k1 (k2 ▸ i2) e3 rfl ok

/-! ### No execution is left out -/

/-- **C106, every execution of a buffer test is one on the pool**: whatever step a helper or the kernel can make on the
memory of the pool, and whatever a thread stores to its own local variables, the pool follows. -/
theorem buf_pool_total (hbe : ∀ q, (T q).prog.be = be) {g0 : Ghost} (hg : Hist c false g0) (hp0 : p ∈ g0.live)
    (hn : c.ncpu ≤ 2 ^ 32) (hl : 3 * wb ≤ c.itemLen) (hH0 : BufHeap c g0 arr len isz priv) {G0 : Rseq.Bufs wb}
    (h0 : Rseq.BufInit (bufLayout be fld c p isz priv arr len) (view c g0.s.mem) G0)
    (hD : Described be c p arr len (view c g0.s.mem))
    (hdata : ∀ a, data a → Outside c g0 a.toNat ∧ (∀ k ∈ cpus c, ¬ (a - arr k).toNat < len * isz) ∧ ∀ t d, ¬ priv t d a)
    {s : Rseq.State wb} {G : Rseq.Bufs wb} {H : Rseq.Hold} {g : Ghost}
    (h : BufPool T be fld c p isz priv data N G0 g0 s G H g) (hH : BufHeap c g arr len isz priv) :
    (∀ t lab s', Rseq.Step T s t lab s' → lab ≠ .user →
      (∀ f, lab = .invoke f → Rseq.BufCall (memLayout be fld c p isz priv s.mem) G t (s.th t).saved.length f ∧
        Rseq.TestCall (memLayout be fld c p isz priv s.mem) N H s t f) →
      ∃ g', g'.live = g.live ∧ BufHeap c g' arr len isz priv ∧
        BufPool T be fld c p isz priv data N G0 g0 s' (Rseq.bufStep (memLayout be fld c p isz priv s.mem) T s G t lab)
          (Rseq.holdStep T s (Rseq.bufStep (memLayout be fld c p isz priv s.mem) T s G t lab) H t lab) g') ∧
    (∀ t mm, (s.th t).run = true → (s.th t).top = none →
      (∀ a, mm a ≠ s.mem a → priv t (s.th t).saved.length a) →
      ∃ g', g'.live = g.live ∧ BufHeap c g' arr len isz priv ∧
        BufPool T be fld c p isz priv data N G0 g0 { s with mem := mm } G H g') := by
  obtain ⟨i1, i2, i3, i4, i5, -⟩ := h.sound hbe hg hp0 hn hl hH0 h0 hD hdata
  have hK := buf_layout_ok (be := be) (fld := fld) hg hp0 hn hl hH0
  refine ⟨fun t lab s' hs hlab hi => ?_, fun t mm hr ht hmm => ?_⟩
  · obtain ⟨g', w, e⟩ := Writes.reach i1 i2 s'.mem fun a ha => by
      rw [← i3] at ha
      rcases buf_step_changes hbe hK h0 i4 hs hlab a ha with ⟨k, hk, e⟩ | ⟨k, hk, e⟩ | ⟨d, e⟩
      · exact .inl (word_inside i1 i2 hn (off := 0) (by omega) hk e).1
      · exact .inr (hH.arr_out k hk a e)
      · exact .inr (hH.priv_out _ _ a e)
    exact ⟨g', (w.hist i1 i2).2.1, bufHeap_writes i1 i2 hH w, .step h hs hlab hi w e⟩
  · obtain ⟨m', w, e⟩ := ext_reach i1 mm fun a ha => hH.priv_out _ _ a (hmm a (by rw [i3]; exact ha))
    have hws : Writes c p g _ := .other .refl m' w
    refine ⟨⟨{ g.s with mem := m' }, g.live, g.freed⟩, rfl, bufHeap_writes i1 i2 hH hws, ?_⟩
    rw [e]
    refine BufPool.other h hr ht (PoolStep.ext (I := [p]) (uaf := false) g m' w) fun a ha => ?_
    have ha := hmm a (by rw [e, i3]; exact ha)
    refine ⟨fun k hk hw => hH.arr_priv k hk _ _ a ((inArr_described i5 hH.len_lt hk).1 hw) ha,
      fun t' d' hpr => hH.priv_priv _ _ _ _ a hpr ha, fun hd => (hdata a hd).2.2 _ _ ha⟩

end Verif.Joint
