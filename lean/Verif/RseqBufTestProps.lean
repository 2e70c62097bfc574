import Verif.RseqBufTestInv
import Verif.RseqBufTestLoop
/-
C93: the buffer tests of tests/param_test.c do not abort and find the sums they expect.
-/

namespace Verif.Rseq

variable {n : Nat} {T : Nat → Site n} {K : BufLayout n} {m0 : Mem n} {G0 : Bufs n} {N : Nat}

/-- **C93: what a thread has is what its calls returned.**  When a call is about to return, it is one by a thread of
the test outside of signal handlers.  After a push that succeeded the thread has no item.  After a pop that succeeded
it has the item that the function hands out: the pointer it read, or the bytes at its destination.  After a call that
failed the thread has what it had, the item to push or nothing, and repeats the loop. -/
theorem buffer_test_items (hn : 4 ≤ n) (hbe : ∀ p, (T p).prog.be = K.be) (hK : K.OK) (h0 : BufInit K m0 G0)
    {s : State n} {G : Bufs n} {H : Hold} (h : TestReach T K m0 G0 N s G H) {t d : Nat} {f : Frame n} {r : Int}
    (hf : frameAt (s.th t) d = some f) (hr : f.l.pc = .ret r) :
    d = 0 ∧ t < N ∧
    (r = 0 → isPush f = true → H t = none) ∧
    (∀ v e v2 x w, f.op = .cbneCbneStore v e v2 x w → r = 0 → H t = some (wordItem K.be x)) ∧
    (∀ v e dst src len w, f.op = .cbneMemcpyStore v e dst src len w → e = w + 1#_ → r = 0 →
      H t = some (bytes s.mem dst K.isz)) ∧
    (r ≠ 0 → isPush f = true → H t = some (G.arg t 0)) ∧
    (r ≠ 0 → isPush f = false → H t = none) := by
  have hI := h.inv hn hbe hK h0
  obtain ⟨rfl, h2, h3, h4⟩ := hI.frames t d f hf
  obtain ⟨r1, r2, r3, -⟩ := buffer_returns hn hbe hK h0 h.breach hf hr
  refine ⟨rfl, h2, fun e hp => ?_, fun v e v2 x w ho e0 => ?_, fun v e dst src len w ho he e0 => ?_,
    fun e hp => ?_, fun e hp => ?_⟩
  · rw [if_pos e] at r1
    have := h4 (by omega)
    rwa [if_pos hp] at this
  · rw [if_pos e0] at r1
    have := h4 (by omega)
    rw [if_neg (by unfold isPush; rw [ho]; simp)] at this
    rw [this, r2 v e v2 x w ho e0]
  · rw [if_pos e0] at r1
    have hp : isPush f = false := by
      unfold isPush
      rw [ho]
      refine decide_eq_false fun hw => ?_
      rw [he] at hw
      refine num_ne_two hn w.isLt ?_
      rw [show (num (w.toNat + 1) : W n) = num w.toNat + 1#_ from BitVec.ofNat_add _ 1]
      unfold num
      rw [BitVec.ofNat_toNat, BitVec.setWidth_eq]
      exact hw
    have := h4 (by omega)
    rw [if_neg (by rw [hp]; simp)] at this
    rw [this, r3 v e dst src len w ho he e0]
  · rw [if_neg e] at r1
    have := h3 r1
    rwa [if_pos hp] at this
  · rw [if_neg e] at r1
    have := h3 r1
    rwa [if_neg (by rw [hp]; simp)] at this

/-- **C93: "Should increase buffer size" (:997-998, :1241-1242) is never reached.**  If each buffer can take all items
of the start (:1057, :1301), then whenever a thread has an item to push, no buffer is full: the comparison
`offset == buflen` (:904, :1139) fails on every CPU. -/
theorem buffer_test_no_abort (hn : 4 ≤ n) (hbe : ∀ p, (T p).prog.be = K.be) (hK : K.OK) (h0 : BufInit K m0 G0)
    (hnd : K.cpus.Nodup) {s : State n} {G : Bufs n} {H : Hold} (h : TestReach T K m0 G0 N s G H) {t : Nat}
    {y : List Byte} (hy : H t = some y) {c : BitVec 32} (hc : c ∈ K.cpus)
    (hcap : (K.cpus.flatMap G0.buf).length ≤ K.cap c) : ldw K.be s.mem (K.offset c) ≠ num (K.cap c) := by
  have hI := h.inv hn hbe hK h0
  have htN : t < N := by
    apply Classical.byContradiction
    intro hge
    rw [hI.out t (by omega)] at hy
    cases hy
  refine (buffer_push_finds_room hn hbe hK h0 hnd h.breach (fun y => ?_) (y := y) ?_ hc hcap).2
  · have := hI.cnt y; omega
  · have := hI.cnt y
    have := holders_pos hy htN
    omega

/-- The items of the start are in the buffers when no thread has one. -/
theorem test_perm (hn : 4 ≤ n) (hbe : ∀ p, (T p).prog.be = K.be) (hK : K.OK) (h0 : BufInit K m0 G0)
    (hnd : K.cpus.Nodup) {s : State n} {G : Bufs n} {H : Hold} (h : TestReach T K m0 G0 N s G H)
    (hq : ∀ t, H t = none) : (K.cpus.flatMap G.buf).Perm (K.cpus.flatMap G0.buf) := by
  refine (buffer_final_check hn hbe hK h0 hnd h.breach (fun y => ?_) fun _ => 0).1
  have := (h.inv hn hbe hK h0).cnt y
  rw [holders_none fun t _ => hq t] at this
  omega

theorem buf_le {buf : BitVec 32 → List (List Byte)} {cpus : List (BitVec 32)} {c : BitVec 32} (hc : c ∈ cpus) :
    (buf c).length ≤ (cpus.flatMap buf).length :=
  List.Sublist.length_le (List.sublist_flatten_of_mem (List.mem_map.2 ⟨c, hc, rfl⟩))

/-- **C93: the end of `test_percpu_buffer` (:1097-1112).**  `nodes c`: the nodes put into the buffer of CPU `c` at the
start, none of them NULL.  When the threads have ended, none having an item, and nobody stored to the data of the
nodes, the loops end, their sum is that of the data of all nodes at the start (`expected_sum`, :1061), and all buffers
are empty. -/
theorem buffer_test_final (hn : 4 ≤ n) (hbe : ∀ p, (T p).prog.be = K.be) (hK : K.OK) (h0 : BufInit K m0 G0)
    (hnd : K.cpus.Nodup) (hisz : K.isz = n) {doff : W n} {nodes : BitVec 32 → List (W n)}
    (hnodes : ∀ c ∈ K.cpus, G0.buf c = (nodes c).map (wordItem K.be))
    (hnull : ∀ x ∈ K.cpus.flatMap nodes, x ≠ 0#_)
    (hA : NodesApart K doff (· ∈ K.cpus.flatMap nodes))
    {s : State n} {G : Bufs n} {H : Hold} (h : TestReach T K m0 G0 N s G H) (hq : ∀ t, H t = none)
    (hdata : ∀ x ∈ K.cpus.flatMap nodes, ldw K.be s.mem (x + doff) = ldw K.be m0 (x + doff))
    {k : Nat} (hk : (K.cpus.flatMap nodes).length < k) :
    ∃ m', forCpus (fun c => ptrLoop K.be (K.offset c) (K.array c) doff k) K.cpus s.mem 0#64 =
        some (m', itemSum (fun x => (ldw K.be m0 (x + doff)).signExtend 64) (K.cpus.flatMap nodes)) ∧
      ∀ c ∈ K.cpus, ldw K.be m' (K.offset c) = 0#_ := by
  have hp := test_perm hn hbe hK h0 hnd h hq
  have hst : K.cpus.flatMap G0.buf = (K.cpus.flatMap nodes).map (wordItem K.be) := by
    rw [List.map_flatMap]
    have : ∀ l : List (BitVec 32), (∀ c ∈ l, c ∈ K.cpus) →
        l.flatMap G0.buf = l.flatMap fun c => (nodes c).map (wordItem K.be) := by
      intro l
      induction l with
      | nil => intro _; rfl
      | cons c l ih =>
        intro hl
        rw [List.flatMap_cons, List.flatMap_cons, hnodes c (hl c (.head _)), ih fun c hc => hl c (.tail _ hc)]
    exact this _ fun _ h => h
  have hitems : ∀ c ∈ K.cpus, ∀ y ∈ G.buf c, ∃ x, x ∈ K.cpus.flatMap nodes ∧ x ≠ 0#_ ∧ y = wordItem K.be x := by
    intro c hc y hy
    have := hp.subset (List.mem_flatMap.2 ⟨c, hc, hy⟩)
    rw [hst] at this
    obtain ⟨x, hx, rfl⟩ := List.mem_map.1 this
    exact ⟨x, hx, hnull x hx, rfl⟩
  have hlen : ∀ c ∈ K.cpus, (G.buf c).length < k := by
    intro c hc
    have h1 := buf_le (buf := G.buf) hc
    rw [hp.length_eq, hst, List.length_map] at h1
    omega
  have hholds := (h.breach.inv hn hbe hK h0).holds
  obtain ⟨m', e1, e2, -⟩ := forCpus_bufs (body := fun c => ptrLoop K.be (K.offset c) (K.array c) doff k)
    (buf := G.buf) (val := fun y => (ldw K.be m0 (ptrOf n K.be y + doff)).signExtend 64)
    (Good := fun c m => c ∈ K.cpus → K.Holds m c (G.buf c) ∧
      ∀ x ∈ K.cpus.flatMap nodes, ldw K.be m (x + doff) = ldw K.be m0 (x + doff))
    (Done := fun c m => c ∈ K.cpus → ldw K.be m (K.offset c) = 0#_) (cs := K.cpus) (m := s.mem) (sum := 0#64) hnd
    (by
      intro c hc m sum hg
      obtain ⟨g1, g2⟩ := hg hc
      obtain ⟨m', e1, e2, e3⟩ := ptrLoop_buf hK hisz hA hc k (sum := sum) g1 (hlen c hc) (hitems c hc)
      refine ⟨m', ?_, fun _ => e2, fun c' hne => ⟨fun hg' hc' => ⟨?_, fun x hx => ?_⟩, fun hd hc' => ?_⟩⟩
      · rw [e1]
        congr 2
        refine congrArg _ (itemSum_congr fun y hy => ?_)
        obtain ⟨x, hx, -, rfl⟩ := hitems c hc y hy
        rw [ptrOf_wordItem, g2 x hx]
      · refine holds_congr hK hc' (hg' hc').1 fun a ha => e3 a fun hw => ?_
        rcases ha with ha | ha
        · exact hne (hK.off_off c' hc' c hc a ha hw)
        · exact hK.off_arr c hc c' hc' a hw ha
      · rw [← g2 x hx]
        exact ldw_agree fun a ha => e3 a (hA c hc x a hx ha)
      · rw [← hd hc']
        exact ldw_agree fun a ha => e3 a fun hw => hne (hK.off_off c' hc' c hc a ha hw))
    (fun c hc _ => ⟨hholds c hc, hdata⟩)
  refine ⟨m', ?_, fun c hc => e2 c hc hc⟩
  rw [e1, BitVec.zero_add, itemSum_perm hp, hst, itemSum_map]
  congr 2
  exact itemSum_congr fun x _ => by rw [ptrOf_wordItem]

/-- **C93: the end of `test_percpu_memcpy_buffer` (:1338-1353).**  When the threads have ended, none having an item, the
loops end, their sum is that of the items at the start (`expected_sum`, :1303), and all buffers are empty. -/
theorem memcpy_buffer_test_final (hn : 4 ≤ n) (hbe : ∀ p, (T p).prog.be = K.be) (hK : K.OK) (h0 : BufInit K m0 G0)
    (hnd : K.cpus.Nodup) {item : W n} (hA : ItemApart K item) (val : List Byte → BitVec 64)
    {s : State n} {G : Bufs n} {H : Hold} (h : TestReach T K m0 G0 N s G H) (hq : ∀ t, H t = none)
    {k : Nat} (hk : (K.cpus.flatMap G0.buf).length < k) :
    ∃ m', forCpus (fun c => copyLoop K.be (K.offset c) (K.array c) K.isz item val k) K.cpus s.mem 0#64 =
        some (m', itemSum val (K.cpus.flatMap G0.buf)) ∧
      ∀ c ∈ K.cpus, ldw K.be m' (K.offset c) = 0#_ := by
  have hp := test_perm hn hbe hK h0 hnd h hq
  have hlen : ∀ c ∈ K.cpus, (G.buf c).length < k := by
    intro c hc
    have h1 := buf_le (buf := G.buf) hc
    rw [hp.length_eq] at h1
    omega
  have hholds := (h.breach.inv hn hbe hK h0).holds
  obtain ⟨m', e1, e2, -⟩ := forCpus_bufs
    (body := fun c => copyLoop K.be (K.offset c) (K.array c) K.isz item val k)
    (buf := G.buf) (val := val) (Good := fun c m => c ∈ K.cpus → K.Holds m c (G.buf c))
    (Done := fun c m => c ∈ K.cpus → ldw K.be m (K.offset c) = 0#_) (cs := K.cpus) (m := s.mem) (sum := 0#64) hnd
    (by
      intro c hc m sum hg
      obtain ⟨m', e1, e2, e3⟩ := copyLoop_buf hK hA (val := val) hc k (sum := sum) (hg hc) (hlen c hc)
      refine ⟨m', e1, fun _ => e2, fun c' hne => ⟨fun hg' hc' => ?_, fun hd hc' => ?_⟩⟩
      · refine holds_congr hK hc' (hg' hc') fun a ha => e3 a (fun hw => ?_) fun hw => ?_
        · rcases ha with ha | ha
          · exact hne (hK.off_off c' hc' c hc a ha hw)
          · exact hK.off_arr c hc c' hc' a hw ha
        · rcases ha with ha | ha
          · exact hA.off c' hc' a hw ha
          · exact hA.arr c' hc' a hw ha
      · rw [← hd hc']
        exact ldw_agree fun a ha => e3 a (fun hw => hne (hK.off_off c' hc' c hc a ha hw))
          fun hw => hA.off c' hc' a hw ha)
    (fun c hc _ => hholds c hc)
  refine ⟨m', ?_, fun c hc => e2 c hc hc⟩
  rw [e1, BitVec.zero_add, itemSum_perm hp]

end Verif.Rseq
