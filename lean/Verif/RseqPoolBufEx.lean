import Verif.RseqPoolBufProps
import Verif.RseqPoolListEx
import Verif.RseqBufInitEx

/-! Examples for C106: the buffer tests with two CPUs and two items each; in the first a thread moves a node from one
buffer to the other. -/

namespace Verif.Joint

open Mempool (Config Ghost Hist cpuAddr InRegion RangeEnv)
open Rseq (State Bufs Site Op W Hold)
attribute [local instance] le64

/-- One call of the buffer test by a registered running thread that is alone, for any set `R` of executions of the test
that is closed under the steps of the helpers. -/
theorem solo_buf_call {T : Nat → Site wb} {K : Rseq.BufLayout wb} {m0 : Rseq.Mem wb} {G0 : Bufs wb}
    (hbe : ∀ q, (T q).prog.be = K.be) (hK : K.OK) (h0 : Rseq.BufInit K m0 G0) (R : State wb → Bufs wb → Hold → Prop)
    (hRS : ∀ s G H, R s G H → Rseq.TestReach T K m0 G0 1 s G H)
    (hR : ∀ s G H t lab s', R s G H → Rseq.Step T s t lab s' → lab ≠ .user →
      (∀ f, lab = .invoke f → Rseq.BufCall K G t (s.th t).saved.length f ∧ Rseq.TestCall K 1 H s t f) →
      R s' (Rseq.bufStep K T s G t lab) (Rseq.holdStep T s (Rseq.bufStep K T s G t lab) H t lab))
    {s : State wb} {G : Bufs wb} {H : Hold} (h : R s G H) (c : BitVec 32) (pid : Nat)
    (op : Op wb) (hal : (T pid).al = Rseq.exAl) (hkind : (T pid).kind = op.kind)
    (hcall : Rseq.CallOK (T pid).arch Rseq.exAl op) (htidy : Rseq.Tidy op)
    (hop : Rseq.BufCall K G 0 0 (Rseq.frame0 pid .cpuId c op s.mem))
    (hte : Rseq.TestCall K 1 H s 0 (Rseq.frame0 pid .cpuId c op s.mem)) (m' : Rseq.Mem wb)
    (hres : (0, m') = Rseq.pseudo K.be op s.mem) (hr : (s.th 0).run = true)
    (htop : (s.th 0).top = none) (hsv : (s.th 0).saved = []) (hreg : (s.th 0).reg = true)
    (hid : (s.th 0).cpuId = c) :
    ∃ s' cs, (∃ G' H', G' = Rseq.bufOp (G.start 0 0 (Rseq.itemOf K s.mem (Rseq.frame0 pid .cpuId c op s.mem))) 0 0
        (Rseq.frame0 pid .cpuId c op s.mem) ∧
        H' = Rseq.upd H 0 (if Rseq.isPush (Rseq.frame0 pid .cpuId c op s.mem) then none else G'.got 0 0) ∧ R s' G' H') ∧
      s'.th = Rseq.upd s.th 0 { s.th 0 with cs := cs } ∧ s'.mem = m' := by
  obtain ⟨G1, hG1⟩ : ∃ G1, G1 = G.start 0 0 (Rseq.itemOf K s.mem (Rseq.frame0 pid .cpuId c op s.mem)) := ⟨_, rfl⟩
  rw [← hG1]
  obtain ⟨G2, hG2⟩ : ∃ G2, G2 = Rseq.bufOp G1 0 0 (Rseq.frame0 pid .cpuId c op s.mem) := ⟨_, rfl⟩
  rw [← hG2]
  obtain ⟨H2, hH2⟩ : ∃ H2, H2 = Rseq.upd H 0 (if Rseq.isPush (Rseq.frame0 pid .cpuId c op s.mem) then none else G2.got 0 0) :=
    ⟨_, rfl⟩
  suffices hh : ∃ s' cs, R s' G2 H2 ∧ s'.th = Rseq.upd s.th 0 { s.th 0 with cs := cs } ∧ s'.mem = m' by
    obtain ⟨s', cs, q1, q2⟩ := hh
    exact ⟨s', cs, ⟨G2, H2, rfl, hH2, q1⟩, q2⟩
  refine Rseq.alone_call (T := T)
    (P := fun s1 => ∃ f, (s1.th 0).top = some f ∧ (s1.th 0).saved = [] ∧ f.op = op ∧ f.cpu = c ∧
      ((f.commits = 0 ∧ R s1 G1 H) ∨ (f.commits = 1 ∧ R s1 G2 H2)))
    (t := 0) (s := s) (by decide) pid .cpuId c op hkind hal (by rw [hal]; exact hcall) htidy hr htop hreg 0 m'
    (by rw [if_pos (show (s.th 0).fv .cpuId = c from hid), hbe]; exact hres) ?_ ?_ ?_
  · intro s' hs
    have hd : (s.th 0).saved.length = 0 := by rw [hsv]; rfl
    have := hR _ _ _ _ _ _ h hs (by simp) (fun f hf => by injection hf with hf; subst hf; rw [hd]; exact ⟨hop, hte⟩)
    simp only [Rseq.bufStep, Rseq.holdStep, Rseq.committing, hd] at this
    rw [← hG1] at this
    cases hs with
    | invoke _ _ _ hst =>
      refine ⟨_, by simp only [State.set, Rseq.updT_same], by simp only [State.set, Rseq.updT_same]; exact hsv, rfl, rfl,
        .inl ⟨hst.commits, this⟩⟩
  · rintro a b ⟨f, hf, hsa, f1, f2, hor⟩ hs
    have hd : (a.th 0).saved.length = 0 := by rw [hsa]; rfl
    obtain ⟨f', i, g, k1, k2, k3, k4, k5, k6, k7⟩ := Rseq.exec_top hs
    rw [hf] at k1; injection k1 with k1; subst k1
    have hstep : ∀ G1 H1, R a G1 H1 → R b (Rseq.bufStep K T a G1 0 .exec)
        (Rseq.holdStep T a (Rseq.bufStep K T a G1 0 .exec) H1 0 .exec) := fun G1 H1 h1 =>
      hR _ _ _ _ _ _ h1 hs (by simp) (fun f hf => by simp at hf)
    refine ⟨g, k3, k4.trans hsa, k5.trans f1, k6.trans f2, ?_⟩
    rw [k7]
    by_cases hcm : i + 1 = (T f.pid).prog.commit
    · rw [if_pos hcm]
      have hcom := Rseq.committing_eq (T := T) hf k2 hcm
      rcases hor with ⟨q1, q2⟩ | ⟨q1, q2⟩
      · refine .inr ⟨by rw [q1], ?_⟩
        have heq : Rseq.bufStep K T a G1 0 .exec = G2 := by
          rw [hG2]
          simp only [Rseq.bufStep, hcom, hd]
          unfold Rseq.bufOp
          rw [f1, f2]
          rfl
        have heqH : Rseq.holdStep T a G2 H 0 .exec = H2 := by
          rw [hH2]
          simp only [Rseq.holdStep, hcom]
          rw [Rseq.isPush_congr (show (Rseq.frame0 pid .cpuId c op s.mem).op = f.op from f1.symm)]
        have := hstep G1 H q2
        rwa [heq, heqH] at this
      · exfalso
        have hI := ((((hRS _ _ _ q2).breach.inv (by decide) hbe hK h0).reach).reach (by decide)).inv (by decide)
        have := (Rseq.commit_pseudo (by decide) hI hs hcom).2
        omega
    · rw [if_neg hcm]
      have hcn : Rseq.committing T a 0 .exec = none := by
        cases hx : Rseq.committing T a 0 .exec with
        | none => rfl
        | some g' =>
          obtain ⟨-, r1, i', r2, r3⟩ := Rseq.committing_some hx
          rw [hf] at r1; injection r1 with r1; subst r1
          rw [k2] at r2; injection r2 with r2; subst r2
          exact absurd r3 hcm
      have hq : ∀ G1, Rseq.bufStep K T a G1 0 .exec = G1 := fun G1 => by simp only [Rseq.bufStep, hcn]
      have hq2 : ∀ G1 H1, Rseq.holdStep T a G1 H1 0 .exec = H1 := fun G1 H1 => by simp only [Rseq.holdStep, hcn]
      rcases hor with ⟨q1, q2⟩ | ⟨q1, q2⟩
      · have := hstep _ _ q2; rw [hq, hq2] at this; exact .inl ⟨q1, this⟩
      · have := hstep _ _ q2; rw [hq, hq2] at this; exact .inr ⟨q1, this⟩
  · rintro a b f ⟨f', hf', hsa, f1, f2, hor⟩ hf hpc hop' hfld hcpu _ hs
    rw [hf] at hf'; injection hf' with hf'; subst hf'
    rcases hor with ⟨q1, q2⟩ | ⟨q1, q2⟩
    · exfalso
      have := (Rseq.buffer_returns (by decide) hbe hK h0 (hRS _ _ _ q2).breach (d := (a.th 0).saved.length)
        (by rw [Rseq.frameAt_top rfl]; exact hf) hpc).1
      rw [q1] at this; simp at this
    · have := hR _ _ _ _ _ _ q2 hs (by simp) (fun f hf => by simp at hf)
      simp only [Rseq.bufStep, Rseq.holdStep, Rseq.committing] at this
      exact this

/-- `buf_pool_total` with the buffers the setup made. -/
theorem buf_closed {T : Nat → Site wb} {be : Bool} {fld : Rseq.Fld} {c : Config} {p isz len N : Nat}
    {priv : Nat → Nat → W wb → Prop} {data : W wb → Prop} {arr : BitVec 32 → W wb}
    (hbe : ∀ q, (T q).prog.be = be) {g0 : Ghost} (hg : Hist c false g0) (hp0 : p ∈ g0.live)
    (hn : c.ncpu ≤ 2 ^ 32) (hl : 3 * wb ≤ c.itemLen) (hH0 : BufHeap c g0 arr len isz priv) {G0 : Bufs wb}
    (h0 : Rseq.BufInit (bufLayout be fld c p isz priv arr len) (view c g0.s.mem) G0)
    (hD : Described be c p arr len (view c g0.s.mem))
    (hdata : ∀ a, data a → Outside c g0 a.toNat ∧ (∀ k ∈ cpus c, ¬ (a - arr k).toNat < len * isz) ∧ ∀ t d, ¬ priv t d a)
    (s : State wb) (G : Bufs wb) (H : Hold) (t : Nat) (lab : Rseq.Lab wb) (s' : State wb)
    (hh : ∃ g, BufPool T be fld c p isz priv data N G0 g0 s G H g ∧ BufHeap c g arr len isz priv)
    (hs : Rseq.Step T s t lab s') (hlab : lab ≠ .user)
    (hi : ∀ f, lab = .invoke f → Rseq.BufCall (bufLayout be fld c p isz priv arr len) G t (s.th t).saved.length f ∧
      Rseq.TestCall (bufLayout be fld c p isz priv arr len) N H s t f) :
    ∃ g, BufPool T be fld c p isz priv data N G0 g0 s'
      (Rseq.bufStep (bufLayout be fld c p isz priv arr len) T s G t lab)
      (Rseq.holdStep T s (Rseq.bufStep (bufLayout be fld c p isz priv arr len) T s G t lab) H t lab) g ∧
      BufHeap c g arr len isz priv := by
  obtain ⟨g, h, hh⟩ := hh
  obtain ⟨-, -, -, i4, i5, -⟩ := h.sound hbe hg hp0 hn hl hH0 h0 hD hdata
  have hI := i4.breach.inv wb_ge hbe (buf_layout_ok hg hp0 hn hl hH0) h0
  obtain ⟨g', -, h1, h2⟩ := (buf_pool_total hbe hg hp0 hn hl hH0 h0 hD hdata h hh).1 t lab s' hs hlab (fun f hf => by
    obtain ⟨-, w, hw, -⟩ := (hi f hf).1
    exact ⟨(bufCall_described i5 hH0.len_lt (hI.rd _ _ _ _ hw).1).2 (hi f hf).1, (hi f hf).2⟩)
  exact ⟨g', h2, h1⟩

/-- The arrays, room for 4 items of `isz` bytes each. -/
def exArr (k : BitVec 32) : W wb := if k = 0#32 then 0xb00000#64 else 0xb10000#64

theorem ex_buf_setup : ∃ s0, testSetup (BitVec.ofNat _ (3 * wb)) true 4096 2 true true { base := some 1048576 } exMem
      { base := none } = some (exTest 5, 1048576, s0) ∧ ∀ r ∈ s0.pool.ranges, r.base = 1048576 :=
  ⟨_, rfl, fun r hr => (congrArg (·.base) (List.mem_singleton.1 hr)).trans rfl⟩

theorem ex_buf_env : ∀ c s, Mempool.create (some testAttr) (BitVec.ofNat _ (3 * wb)) 4096 2 true true
      { base := some 1048576 } exMem = .pool c s →
    Mempool.EnvOK c [] exMem { base := some 1048576 } ∧ Mempool.EnvOK c s.pool.ranges s.mem { base := none } := by
  intro c s h
  have e : Mempool.create (some testAttr) (BitVec.ofNat _ (3 * wb)) 4096 2 true true { base := some 1048576 } exMem =
    .pool (exTest 5) _ := rfl
  rw [e] at h
  cases h
  exact ⟨Mempool.ex_env_at _ (by decide) (by decide) (by decide), Mempool.ex_env ..⟩

theorem ex_out5 {g : Ghost} (hb : ∀ r ∈ g.s.pool.ranges, r.base = 1048576) {x : Nat}
    (h : x < 1048576 ∨ 1048576 + 65536 * 3 ≤ x) : Outside (exTest 5) g x := by
  intro r hr hx
  have e : Mempool.rangeLen (exTest 5) = 65536 * 3 := rfl
  unfold InRegion at hx
  rw [hb r hr, e] at hx
  omega

theorem ex_cpus {k : BitVec 32} (hk : k ∈ cpus (exTest 5)) : k = 0#32 ∨ k = 1#32 := by
  simpa [cpus, exTest, List.range_succ] using hk

theorem ex_in_arr {k : BitVec 32} (hk : k ∈ cpus (exTest 5)) {a : W wb} {l : Nat} (hl : l ≤ 64)
    (h : (a - exArr k).toNat < l) : 0xb00000 + 0x10000 * k.toNat ≤ a.toNat ∧ a.toNat < 0xb00000 + 0x10000 * k.toNat + 64 := by
  have hb : ∀ (b a : BitVec 64), b.toNat < 0xf00000 → (a - b).toNat < 64 → b.toNat ≤ a.toNat ∧ a.toNat < b.toNat + 64 := by
    intro b a h1 h2
    bv_omega
  rcases ex_cpus hk with rfl | rfl
  · have := hb 0xb00000#64 a (by decide) (Nat.lt_of_lt_of_le h hl); simp at this ⊢; omega
  · have := hb 0xb10000#64 a (by decide) (Nat.lt_of_lt_of_le h hl); simp at this ⊢; omega

theorem ex_buf_heap {g : Ghost} (hb : ∀ r ∈ g.s.pool.ranges, r.base = 1048576) {isz : Nat} (h0 : 0 < isz)
    (h1 : 4 * isz ≤ 64) : BufHeap (exTest 5) g exArr 4 isz exPPriv where
  isz0 := h0
  iszlt := by show isz < 2 ^ 64; omega
  size := by show 4 * isz < 2 ^ 64; omega
  arr_out := fun k hk a h => by
    have := ex_in_arr hk h1 h
    exact ex_out5 hb (by omega)
  arr_arr := fun k hk k' hk' a h h' => by
    have e1 := ex_in_arr hk h1 h
    have e2 := ex_in_arr hk' h1 h'
    exact BitVec.eq_of_toNat_eq (by omega)
  arr_priv := fun k hk t d a h hp => by
    have e1 := ex_in_arr hk h1 h
    have e2 := ex_in_word (b := 0xa00000#64) (by decide) hp.2.2
    simp at e2
    omega
  priv_out := fun t d a h => by
    have := ex_in_word (b := 0xa00000#64) (by decide) h.2.2
    simp at this
    exact ex_out5 hb (by omega)
  priv_priv := fun t d t' d' a h h' => ⟨h.1.trans h'.1.symm, h.2.1.trans h'.2.1.symm⟩

theorem ex_is_node {x : W wb} (h : IsNode (exTest 5) exPNode 2 x) : IsNode (exTest 3) exPNode 2 x := h

theorem ex_buf_nodes {g : Ghost} (hb : ∀ r ∈ g.s.pool.ranges, r.base = 1048576) :
    BufNodes (exTest 5) g exArr 4 exPPriv exPNode 2 := by
  have hin : ∀ {x a}, Rseq.InWord x a → InNode x a := fun h => .inl (by unfold nodeData; rw [BitVec.add_zero]; exact h)
  have hr : ∀ x a, IsNode (exTest 5) exPNode 2 x → Rseq.InWord x a → 0x900000 ≤ a.toNat ∧ a.toNat < 0x900040 := by
    intro x a hx ha
    obtain ⟨i, hi, e⟩ := ex_node (ex_is_node hx)
    have := ex_in_node hi e (hin ha)
    omega
  refine ⟨?_, ?_, ?_, ?_, ?_⟩
  · intro k hk k' hk' j j' h1 h2 h1' h2' a ha ha'
    have hj : j = 1 ∨ j = 2 := by omega
    have hj' : j' = 1 ∨ j' = 2 := by omega
    have key : ∀ k j, (k = 0#32 ∨ k = 1#32) → (j = 1 ∨ j = 2) → InNode (exPNode k j) a →
        0x900000 + 16 * (2 * k.toNat + (j - 1)) ≤ a.toNat ∧ a.toNat < 0x900000 + 16 * (2 * k.toNat + (j - 1)) + 16 := by
      intro k j h1 h2 h
      rcases h1 with rfl | rfl <;> rcases h2 with rfl | rfl <;>
        exact ex_in_node (by decide) rfl h
    have e1 := key k j (ex_cpus hk) hj (hin ha)
    have e2 := key k' j' (ex_cpus hk') hj' (hin ha')
    rcases ex_cpus hk with rfl | rfl <;> rcases ex_cpus hk' with rfl | rfl <;> simp at e1 e2 ⊢ <;> omega
  · intro h
    obtain ⟨i, hi, e⟩ := ex_node (ex_is_node h)
    have hi : i = 0 ∨ i = 1 ∨ i = 2 ∨ i = 3 := by omega
    rcases hi with rfl | rfl | rfl | rfl <;> exact absurd e (by decide)
  · intro x a hx ha
    have := hr x a hx ha
    exact ex_out5 hb (by omega)
  · intro x a hx ha k hk h
    have e1 := hr x a hx ha
    have e2 := ex_in_arr hk (by decide) h
    omega
  · intro x a hx ha t d h
    have e1 := hr x a hx ha
    have e2 := ex_in_word (b := 0xa00000#64) (by decide) h.2.2
    simp at e2
    omega

abbrev exPB : Rseq.BufLayout wb := bufLayout false .cpuId (exTest 5) 1048576 wb exPPriv exArr (2 * 2)

abbrev exPG : Bufs wb := Bufs.fresh (Rseq.ptrItems exPB exPNode 2)

/-- The data of the nodes. -/
abbrev exPData : W wb → Prop := fun a => ∃ x, IsNode (exTest 5) exPNode 2 x ∧ Rseq.InWord x a

theorem bufSites_le (q : Nat) : (Rseq.bufSites q).prog.be = false := Rseq.bufSites_be q

/-- A thread takes the last node of the buffer of CPU 1, migrates, and puts it into the buffer of CPU 0; the test ends
with the sum 2 * (1 + 2) and passes. -/
theorem ex_buf_test : ∃ (s0 : Mempool.State) (m0 : Rseq.Mem wb) (g1 : Ghost) (s : State wb) (G : Bufs wb) (H : Hold) (g : Ghost)
    (m' : Rseq.Mem wb) (g2 : Ghost), testSetup (BitVec.ofNat _ (3 * wb)) true 4096 2 true true
      { base := some 1048576 } exMem { base := none } = some (exTest 5, 1048576, s0) ∧
    Rseq.ptrSetupM false (cpus (exTest 5)) (bufOffset (exTest 5) 1048576) (bufLen (exTest 5) 1048576)
      (bufArray (exTest 5) 1048576) exArr 4#64 0#64 exPNode 2 (view (exTest 5) s0.mem) = some (m0, 6#64) ∧
    m0 = view (exTest 5) g1.s.mem ∧
    BufPool Rseq.bufSites false .cpuId (exTest 5) 1048576 wb exPPriv exPData 1 exPG g1 s G H g ∧
    G.buf 1#32 = [Rseq.wordItem (n := wb) false 0x900020#64] ∧
    G.buf 0#32 = [Rseq.wordItem (n := wb) false 0x900000#64, Rseq.wordItem (n := wb) false 0x900010#64, Rseq.wordItem (n := wb) false 0x900030#64] ∧
    Rseq.forCpus (fun k => Rseq.ptrLoopM false (bufOffset (exTest 5) 1048576 k) (bufArray (exTest 5) 1048576 k) 0#64 5)
      (cpus (exTest 5)) (view (exTest 5) g.s.mem) 0#64 = some (m', 6#64) ∧ m' = view (exTest 5) g2.s.mem ∧
    testEnd (exTest 5) 1048576 6#64 6#64 (fun _ => true) g2.s = .passes := by
  obtain ⟨s0, hs, hb⟩ := ex_buf_setup
  have hbe : ∀ q, (Rseq.bufSites q).prog.be = false := bufSites_le
  have hn : (exTest 5).ncpu ≤ 2 ^ 32 := by decide
  have hl : 3 * wb ≤ (exTest 5).itemLen := by decide
  obtain ⟨hg, -, -, -, -, hz⟩ := testSetup_spec (c := exTest 5) (p := 1048576) (by decide) ⟨12, by decide⟩ exMem_wf
    ex_buf_env hs
  have hp : 1048576 ∈ (⟨s0, [1048576], []⟩ : Ghost).live := .head _
  have hH : BufHeap (exTest 5) ⟨s0, [1048576], []⟩ exArr (2 * 2) wb exPPriv := ex_buf_heap hb (by decide) (by decide)
  have hN : BufNodes (exTest 5) ⟨s0, [1048576], []⟩ exArr (2 * 2) exPPriv exPNode 2 := ex_buf_nodes hb
  obtain ⟨m0, f1, ⟨hinit, hD⟩, ⟨g1, w1, v1⟩, hmain⟩ := buffer_test_pool (T := Rseq.bufSites) (fld := .cpuId) (N := 1) hbe
    ⟨12, by decide⟩ (by decide) exMem_wf ex_buf_env hs (by decide) hH hN (by decide)
  obtain ⟨j1, j2, j3⟩ := w1.hist hg hp
  have hp1 : 1048576 ∈ g1.live := j2 ▸ hp
  have hH1 : BufHeap (exTest 5) g1 exArr (2 * 2) wb exPPriv := bufHeap_writes hg hp hH w1
  have hK : exPB.OK := buf_layout_ok j1 hp1 hn hl hH1
  rw [v1] at hinit hD
  have hdata : ∀ a, exPData a → Outside (exTest 5) g1 a.toNat ∧ (∀ k ∈ cpus (exTest 5), ¬ (a - exArr k).toNat < 2 * 2 * wb) ∧
      ∀ t d, ¬ exPPriv t d a := fun a ⟨x, hx, ha⟩ => ⟨w1.outside hg hp (hN.out x a hx ha), hN.arr x a hx ha, hN.priv x a hx ha⟩
  let R : State wb → Bufs wb → Hold → Prop := fun s G H => ∃ g, BufPool Rseq.bufSites false .cpuId (exTest 5) 1048576 wb
    exPPriv exPData 1 exPG g1 s G H g ∧ BufHeap (exTest 5) g exArr (2 * 2) wb exPPriv
  have hRS : ∀ s G H, R s G H → Rseq.TestReach Rseq.bufSites exPB (view (exTest 5) g1.s.mem) exPG 1 s G H :=
    fun s G H ⟨g, h, _⟩ => (h.sound hbe j1 hp1 hn hl hH1 hinit hD hdata).2.2.2.1
  have inv := fun s G H (h : R s G H) => (hRS s G H h).breach.inv wb_ge hbe hK hinit
  have hR : ∀ s G H t lab s', R s G H → Rseq.Step Rseq.bufSites s t lab s' → lab ≠ .user →
      (∀ f, lab = .invoke f → Rseq.BufCall exPB G t (s.th t).saved.length f ∧ Rseq.TestCall exPB 1 H s t f) →
      R s' (Rseq.bufStep exPB Rseq.bufSites s G t lab)
        (Rseq.holdStep Rseq.bufSites s (Rseq.bufStep exPB Rseq.bufSites s G t lab) H t lab) :=
    buf_closed hbe j1 hp1 hn hl hH1 hinit hD hdata
  have hread : ∀ s G H t k, R s G H → (s.th t).run = true → (s.th t).top = none → k ∈ cpus (exTest 5) →
      R s (G.read t (s.th t).saved.length k (Rseq.ldw false s.mem (bufOffset (exTest 5) 1048576 k))) H :=
    fun s G H t k ⟨g, h, hh⟩ hr ht hk => ⟨g, h.read hr ht hk, hh⟩
  have h0 : R { mem := view (exTest 5) g1.s.mem, th := fun _ => Rseq.thread0 } exPG (fun _ => none) := ⟨g1, .init, hH1⟩
  -- thread 0 starts on CPU 1 and registers
  have h1 := hR _ _ _ 0 _ _ h0 (Rseq.Step.resume (t := 0) 1#32 1#32 rfl (fun u _ h => by simp [Rseq.thread0] at h)) (by simp)
    (fun f hf => by simp at hf)
  have h2 := hR _ _ _ 0 _ _ h1 (Rseq.Step.register (t := 0) (by simp [State.set, Rseq.upd])
    (by simp [State.set, Rseq.upd, Rseq.fixTop, Rseq.thread0]) (by simp [State.set, Rseq.upd, Rseq.thread0])
    (by simp [State.set, Rseq.upd, Rseq.thread0])) (by simp) (fun f hf => by simp at hf)
  simp only [Rseq.committing, Rseq.bufStep, Rseq.holdStep] at h1 h2
  obtain ⟨s2, h2, e2⟩ : ∃ s2 : State wb, R s2 exPG (fun _ => none) ∧
      s2.th = Rseq.upd (fun _ => Rseq.thread0) 0 (Rseq.th1 true 1#32 1#32) := by
    refine ⟨_, h2, ?_⟩
    funext u
    simp only [State.set]
    by_cases e : u = 0
    · subst e; simp [Rseq.updT_same, Rseq.th1, Rseq.thread0, Rseq.fixTop, Rseq.fixCs]
    · rw [Rseq.updT_other _ _ e, Rseq.updT_other _ _ e, Rseq.updT_other _ _ e]
  clear h0 h1
  -- it takes the last node of the buffer of CPU 1
  obtain ⟨l1, l2⟩ := (inv _ _ _ h2).holds 1#32 (by decide)
  have l1 : Rseq.ldw false s2.mem (bufOffset (exTest 5) 1048576 1#32) = 2#64 := l1
  have hr2 := hread _ _ _ 0 1#32 h2 (by simp [e2, Rseq.upd, Rseq.th1]) (by simp [e2, Rseq.upd, Rseq.th1, Rseq.thread0])
    (by decide)
  rw [l1, show (s2.th 0).saved.length = 0 by simp [e2, Rseq.upd, Rseq.th1, Rseq.thread0]] at hr2
  obtain ⟨x, hx⟩ : ∃ x, Rseq.ldw false s2.mem (0xb10000#64 + (2#64 - 1#64) * Rseq.num (n := wb) wb) = x := ⟨_, rfl⟩
  have hxi : Rseq.wordItem (n := wb) false x = Rseq.wordItem (n := wb) false 0x900030#64 := by
    rw [← hx, ← Rseq.bytes_ldw]
    exact l2.2 1 _ rfl
  obtain ⟨s3, cs3, ⟨G3, H3, hG3, hH3, h3⟩, e3, m3⟩ := solo_buf_call hbe hK hinit R hRS hR hr2 1#32 1
    (.cbneCbneStore (bufOffset (exTest 5) 1048576 1#32) 2#64 (0xb10000#64 + (2#64 - 1#64) * Rseq.num (n := wb) wb) x
      (2#64 - 1#64)) rfl rfl trivial trivial
    ⟨rfl, 2#64, rfl, .inr (.inl ⟨rfl, by decide, x, rfl⟩)⟩
    ⟨by decide, by simp [e2, Rseq.upd, Rseq.th1, Rseq.thread0], rfl⟩
    _ (by
      simp only [Rseq.pseudo]
      rw [if_neg (by exact not_not_intro l1), if_neg (by exact not_not_intro hx)])
    (by simp [e2, Rseq.upd, Rseq.th1]) (by simp [e2, Rseq.upd, Rseq.th1, Rseq.thread0])
    (by simp [e2, Rseq.upd, Rseq.th1, Rseq.thread0])
    (by simp [e2, Rseq.upd, Rseq.th1]) (by simp [e2, Rseq.upd, Rseq.th1])
  have b3 : G3.buf 1#32 = [Rseq.wordItem (n := wb) false 0x900020#64] ∧ G3.buf 0#32 =
      [Rseq.wordItem (n := wb) false 0x900000#64, Rseq.wordItem (n := wb) false 0x900010#64] := by rw [hG3]; exact ⟨rfl, rfl⟩
  have k3 : H3 0 = some (Rseq.wordItem (n := wb) false 0x900030#64) := by rw [hH3, hG3]; rfl
  have k3' : ∀ t, t ≠ 0 → H3 t = none := fun t ht => by rw [hH3, Rseq.updT_other _ _ ht]
  clear hG3 hH3
  -- it migrates
  have h4 := hR _ _ _ 0 _ _ h3 (Rseq.Step.preempt (t := 0) (by simp [e3, e2, Rseq.upd, Rseq.th1])) (by simp)
    (fun f hf => by simp at hf)
  have h5 := hR _ _ _ 0 _ _ h4 (Rseq.Step.resume (t := 0) 0#32 0#32 (by simp [State.set, Rseq.upd]) (by
    intro u hu hr
    simp only [State.set] at hr
    rw [Rseq.updT_other _ _ hu, e3, Rseq.updT_other _ _ hu, e2, Rseq.updT_other _ _ hu] at hr
    simp [Rseq.thread0] at hr)) (by simp) (fun f hf => by simp at hf)
  simp only [Rseq.committing, Rseq.bufStep, Rseq.holdStep] at h4 h5
  obtain ⟨s5, h5, ⟨r1, r2, r3, r4, r5⟩⟩ : ∃ (s5 : State wb), R s5 G3 H3 ∧
      ((s5.th 0).run = true ∧ (s5.th 0).top = none ∧ (s5.th 0).saved = [] ∧ (s5.th 0).reg = true ∧
        (s5.th 0).cpuId = 0#32) := by
    exact ⟨_, h5, ⟨by simp [State.set, Rseq.upd], by simp [e3, e2, Rseq.upd, State.set, Rseq.fixTop, Rseq.th1, Rseq.thread0],
      by simp [e3, e2, Rseq.upd, State.set, Rseq.th1, Rseq.thread0], by simp [e3, e2, Rseq.upd, State.set, Rseq.th1],
      by simp [e3, e2, Rseq.upd, State.set, Rseq.th1]⟩⟩
  clear h4
  -- it puts the node into the buffer of CPU 0
  obtain ⟨l1, -⟩ := (inv _ _ _ h5).holds 0#32 (by decide)
  rw [b3.2] at l1
  have l1 : Rseq.ldw false s5.mem (bufOffset (exTest 5) 1048576 0#32) = 2#64 := l1
  have hr5 := hread _ _ _ 0 0#32 h5 r1 r2 (by decide)
  rw [l1, show (s5.th 0).saved.length = 0 by rw [r3]; rfl] at hr5
  obtain ⟨s7, cs7, ⟨G7, H7, hG7, hH7, ⟨g, h7, -⟩⟩, e7, m7⟩ := solo_buf_call hbe hK hinit R hRS hR hr5 0#32 0
    (.cbneStoreStore (bufOffset (exTest 5) 1048576 0#32) 2#64 (0xb00000#64 + 2#64 * Rseq.num (n := wb) wb) x (2#64 + 1#64))
    rfl rfl trivial
    (fun y h h' => hK.off_arr 0#32 (by decide) 0#32 (by decide) y h' (Rseq.slot_word hK (Nat.le_refl _) (by decide)
      (show 2 < 2 * 2 by decide) h))
    ⟨rfl, 2#64, rfl, .inl ⟨rfl, (by decide : 2#64 ≠ Rseq.num (n := wb) (2 * 2)), x, rfl⟩⟩
    ⟨by decide, r3, by rw [k3]; exact ⟨rfl, hxi⟩⟩
    _ (by
      simp only [Rseq.pseudo]
      rw [if_neg (by exact not_not_intro l1)]) r1 r2 r3 r4 r5
  have b7 : G7.buf 1#32 = G3.buf 1#32 ∧ G7.buf 0#32 = G3.buf 0#32 ++ [Rseq.wordItem (n := wb) false x] := by
    rw [hG7]; exact ⟨rfl, rfl⟩
  obtain ⟨m', sum, t1, ⟨g2, w2, v2⟩, t2⟩ := (hmain g1 w1 v1 h7).2 (fun t => by
    rw [hH7]
    by_cases e : t = 0
    · subst e; rw [Rseq.updT_same]; rfl
    · rw [Rseq.updT_other _ _ e]; exact k3' t e) 5 (by decide)
  have t3 := t2 g2 w2 v2 (fun _ => true)
  have hsum : sum = 6#64 := by
    refine Classical.byContradiction fun hne => ?_
    unfold testEnd at t3
    rw [if_neg hne] at t3
    cases t3
  rw [hsum] at t1 t3
  refine ⟨s0, m0, g1, s7, G7, H7, g, m', g2, hs, f1, v1, h7, ?_, ?_, t1, v2, t3⟩
  · rw [b7.1, b3.1]
  · rw [b7.2, b3.2, hxi]; rfl

/-- The memcpy test: items of 16 bytes, the second field at 8; a thread starts and registers, and the test ends with the
sum 2 * (2 + 1 + 3 + 2) and passes. -/
theorem ex_memcpy_test : ∃ (s0 : Mempool.State) (m0 : Rseq.Mem wb) (buf : BitVec 32 → List (List Rseq.Byte)) (g1 : Ghost)
    (s : State wb) (g : Ghost) (m' : Rseq.Mem wb) (g2 : Ghost), testSetup (BitVec.ofNat _ (3 * wb)) true 4096 2 true true
      { base := some 1048576 } exMem { base := none } = some (exTest 5, 1048576, s0) ∧
    Rseq.copySetupM false (cpus (exTest 5)) (bufOffset (exTest 5) 1048576) (bufLen (exTest 5) 1048576)
      (bufArray (exTest 5) 1048576) exArr 4#64 16 8 2 (view (exTest 5) s0.mem) = some (m0, 16#64) ∧
    m0 = view (exTest 5) g1.s.mem ∧
    BufPool Rseq.bufSites false .cpuId (exTest 5) 1048576 16 exPPriv (fun _ => False) 1 (Bufs.fresh buf) g1 s
      (Bufs.fresh buf) (fun _ => none) g ∧ (s.th 0).reg = true ∧
    Rseq.forCpus (fun k => Rseq.copyLoopM false (bufOffset (exTest 5) 1048576 k) (bufArray (exTest 5) 1048576 k) 16 0xc00000#64
      (Rseq.nodeVal wb false 8) 5) (cpus (exTest 5)) (view (exTest 5) g.s.mem) 0#64 = some (m', 16#64) ∧
    m' = view (exTest 5) g2.s.mem ∧ testEnd (exTest 5) 1048576 16#64 16#64 (fun _ => true) g2.s = .passes := by
  obtain ⟨s0, hs, hb⟩ := ex_buf_setup
  have hbe : ∀ q, (Rseq.bufSites q).prog.be = false := bufSites_le
  obtain ⟨hg, -, -, -, -, -⟩ := testSetup_spec (c := exTest 5) (p := 1048576) (by decide) ⟨12, by decide⟩ exMem_wf
    ex_buf_env hs
  have hp : 1048576 ∈ (⟨s0, [1048576], []⟩ : Ghost).live := .head _
  have hH : BufHeap (exTest 5) ⟨s0, [1048576], []⟩ exArr (2 * 2) 16 exPPriv := ex_buf_heap hb (by decide) (by decide)
  have hitem : ∀ a : W wb, (a - 0xc00000#64).toNat < 16 → 0xc00000 ≤ a.toNat := by
    have hb : ∀ a : BitVec 64, (a - 0xc00000#64).toNat < 16 → 0xc00000 ≤ a.toNat := fun a h => by bv_omega
    exact hb
  obtain ⟨m0, buf, f1, ⟨hinit, hD⟩, ⟨g1, w1, v1⟩, hmain⟩ := memcpy_buffer_test_pool (T := Rseq.bufSites) (fld := .cpuId) (N := 1)
    hbe ⟨12, by decide⟩ (by decide) exMem_wf ex_buf_env hs (d2 := 8) (by decide) (by decide) (by decide) hH
    (item := 0xc00000#64) (fun a ha k hk h => by
      have e1 := hitem a ha
      have e2 := ex_in_arr hk (by decide) h
      rcases ex_cpus hk with rfl | rfl <;> simp at e2 <;> omega) (by decide)
  obtain ⟨j1, j2, j3⟩ := w1.hist hg hp
  have hp1 : 1048576 ∈ g1.live := j2 ▸ hp
  have hH1 : BufHeap (exTest 5) g1 exArr (2 * 2) 16 exPPriv := bufHeap_writes hg hp hH w1
  have h0 : BufPool Rseq.bufSites false .cpuId (exTest 5) 1048576 16 exPPriv (fun _ => False) 1 (Bufs.fresh buf) g1
    { mem := view (exTest 5) g1.s.mem, th := fun _ => Rseq.thread0 } (Bufs.fresh buf) (fun _ => none) g1 := .init
  have h1 := h0.step (Rseq.Step.resume (t := 0) 1#32 1#32 rfl (fun u _ h => by simp [Rseq.thread0] at h)) (by simp)
    (fun f hf => by simp at hf) .refl rfl
  have h2 := h1.step (Rseq.Step.register (t := 0) (by simp [State.set, Rseq.upd])
    (by simp [State.set, Rseq.upd, Rseq.fixTop, Rseq.thread0]) (by simp [State.set, Rseq.upd, Rseq.thread0])
    (by simp [State.set, Rseq.upd, Rseq.thread0])) (by simp) (fun f hf => by simp at hf) .refl rfl
  simp only [Rseq.committing, Rseq.bufStep, Rseq.holdStep] at h2
  obtain ⟨m', sum, t1, ⟨g2, w2, v2⟩, t2⟩ := (hmain g1 w1 v1 h2).2 (fun _ => rfl) (fun a ha => by
    have := hitem a ha
    exact ex_out5 (by rw [j3]; exact hb) (by omega)) 5 (by decide)
  have t3 := t2 g2 w2 v2 (fun _ => true)
  have hsum : sum = 16#64 := by
    refine Classical.byContradiction fun hne => ?_
    unfold testEnd at t3
    rw [if_neg hne] at t3
    cases t3
  rw [hsum] at t1 t3
  exact ⟨s0, m0, buf, g1, _, g1, m', g2, hs, f1, v1, h2, by simp [State.set, Rseq.upd], t1, v2, t3⟩

end Verif.Joint
