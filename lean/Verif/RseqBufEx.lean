import Verif.RseqBufProps
import Verif.RseqStackEx
/-
An execution that meets the hypotheses of the theorems of `RseqBufProps.lean`: a thread pushes a pointer on CPU 3,
pops it by copying, migrates, pushes it by copying on CPU 4, and pops the pointer there.
-/

namespace Verif.Rseq

def pushPSite : Site 8 where
  arch := .x86_64
  kind := .cbneStoreStore
  rel := false
  be := false
  al := exAl
  csa := 0x9000#64
  prog := x86_64_cbneStoreStore exAl false 0x9000#64
  ok := rfl

def popPSite : Site 8 where
  arch := .x86_64
  kind := .cbneCbneStore
  rel := false
  be := false
  al := exAl
  csa := 0x9100#64
  prog := x86_64_cbneCbneStore exAl false 0x9100#64
  ok := rfl

def copySite : Site 8 where
  arch := .x86_64
  kind := .cbneMemcpyStore
  rel := false
  be := false
  al := exAl
  csa := 0x9200#64
  prog := x86_64_cbneMemcpyStore exAl false 0x9200#64
  ok := rfl

def bufSites (p : Nat) : Site 8 := if p = 0 then pushPSite else if p = 1 then popPSite else copySite

/-- Two CPUs, buffers of two pointers, one local variable. -/
def exB : BufLayout 8 where
  be := false
  fld := .cpuId
  cpus := [3#32, 4#32]
  offset := fun c => if c = 3#32 then 0x1000#64 else 0x1100#64
  array := fun c => if c = 3#32 then 0x2000#64 else 0x2100#64
  cap := fun _ => 2
  isz := 8
  priv := fun t d a => t = 0 ∧ d = 0 ∧ InWord 0x3000#64 a

theorem exB_ok : exB.OK := by
  have hoff : ∀ c ∈ exB.cpus, exB.offset c = 0x1000#64 ∧ exB.array c = 0x2000#64 ∧ c = 3#32 ∨
      exB.offset c = 0x1100#64 ∧ exB.array c = 0x2100#64 ∧ c = 4#32 := by
    intro c hc
    simp only [exB, List.mem_cons, List.not_mem_nil, or_false] at hc
    rcases hc with rfl | rfl
    · exact .inl ⟨rfl, rfl, rfl⟩
    · exact .inr ⟨rfl, rfl, rfl⟩
  have harr : ∀ c a, exB.InArr c a ↔ (a - exB.array c).toNat < 16 := fun c a => Iff.rfl
  refine ⟨by decide, by decide, fun c _ => by show 2 * 8 < 2 ^ (8 * 8); decide, ?_, ?_, ?_, ?_, ?_, ?_⟩
  · intro c hc c' hc' a h1 h2
    unfold InWord at h1 h2
    rcases hoff c hc with ⟨e1, -, rfl⟩ | ⟨e1, -, rfl⟩ <;> rcases hoff c' hc' with ⟨e2, -, rfl⟩ | ⟨e2, -, rfl⟩ <;>
      first
      | rfl
      | (exfalso; rw [e1] at h1; rw [e2] at h2; bv_omega)
  · intro c hc c' hc' a h1 h2
    rw [harr] at h1 h2
    rcases hoff c hc with ⟨-, e1, rfl⟩ | ⟨-, e1, rfl⟩ <;> rcases hoff c' hc' with ⟨-, e2, rfl⟩ | ⟨-, e2, rfl⟩ <;>
      first
      | rfl
      | (exfalso; rw [e1] at h1; rw [e2] at h2; bv_omega)
  · intro c hc c' hc' a h1 h2
    rw [harr] at h2
    unfold InWord at h1
    rcases hoff c hc with ⟨e1, -, -⟩ | ⟨e1, -, -⟩ <;> rcases hoff c' hc' with ⟨-, e2, -⟩ | ⟨-, e2, -⟩ <;>
      (rw [e1] at h1; rw [e2] at h2; bv_omega)
  · rintro c hc t d a h1 ⟨-, -, h2⟩
    unfold InWord at h1 h2
    rcases hoff c hc with ⟨e1, -, -⟩ | ⟨e1, -, -⟩ <;> (rw [e1] at h1; bv_omega)
  · rintro c hc t d a h1 ⟨-, -, h2⟩
    rw [harr] at h1
    unfold InWord at h2
    rcases hoff c hc with ⟨-, e1, -⟩ | ⟨-, e1, -⟩ <;> (rw [e1] at h1; bv_omega)
  · rintro t d t' d' a ⟨rfl, rfl, -⟩ ⟨rfl, rfl, -⟩; exact ⟨rfl, rfl⟩

/-- The pointer 0x11 in the buffer of CPU 3. -/
def exBufMem : Mem 8 := stw false (stw false (fun _ => 0#8) 0x1000#64 1#64) 0x2000#64 0x11#64

def exBufs : Bufs 8 where
  buf := fun c => if c = 3#32 then [wordItem (n := 8) false 0x11#64] else []
  arg := fun _ _ => []
  got := fun _ _ => none
  rd := fun _ _ => none
  pushed := fun _ => 0
  popped := fun _ => 0

theorem exBufs_init : BufInit exB exBufMem exBufs := by
  refine ⟨?_, fun _ _ => rfl, fun _ => rfl, fun _ => rfl⟩
  intro c hc
  simp only [exB, List.mem_cons, List.not_mem_nil, or_false] at hc
  rcases hc with rfl | rfl
  · refine ⟨by decide, by decide, fun i x hx => ?_⟩
    have hl : exBufs.buf 3#32 = [wordItem (n := 8) false 0x11#64] := rfl
    rw [hl] at hx
    cases i with
    | zero => simp at hx; rw [← hx]; decide
    | succ i => simp at hx
  · refine ⟨by decide, by decide, fun i x hx => ?_⟩
    have hl : exBufs.buf 4#32 = [] := rfl
    rw [hl] at hx; simp at hx

abbrev exBReach := BReach bufSites exB exBufMem exBufs

theorem bufSites_be (p : Nat) : (bufSites p).prog.be = exB.be := by
  unfold bufSites
  split
  · rfl
  · split <;> rfl

/-- One call by a registered running thread, outside of signal handlers. -/
theorem ex_buf_call {s : State 8} {G : Bufs 8} (h : exBReach s G) (t : Nat) (c : BitVec 32) (pid : Nat)
    (op : Op 8) (hkind : (bufSites pid).kind = op.kind) (hcall : CallOK (bufSites pid).arch exAl op)
    (htidy : Tidy op)
    (hop : BufCall exB G t 0 (frame0 pid .cpuId c op s.mem)) (m' : Mem 8)
    (hres : (0, m') = pseudo false op s.mem) (hr : (s.th t).run = true)
    (htop : (s.th t).top = none) (hsv : (s.th t).saved = []) (hreg : (s.th t).reg = true)
    (hid : (s.th t).cpuId = c) :
    ∃ s' cs, exBReach s' (bufOp (G.start t 0 (itemOf exB s.mem (frame0 pid .cpuId c op s.mem))) t 0
        (frame0 pid .cpuId c op s.mem)) ∧
      s'.th = upd s.th t { s.th t with cs := cs } ∧ s'.mem = m' := by
  have hal : (bufSites pid).al = exAl := by
    unfold bufSites
    split
    · rfl
    · split <;> rfl
  obtain ⟨G1, hG1⟩ : ∃ G1, G1 = G.start t 0 (itemOf exB s.mem (frame0 pid .cpuId c op s.mem)) := ⟨_, rfl⟩
  rw [← hG1]
  refine alone_call (T := bufSites)
    (P := fun s1 => ∃ f, (s1.th t).top = some f ∧ (s1.th t).saved = [] ∧ f.op = op ∧ f.cpu = c ∧
      ((f.commits = 0 ∧ exBReach s1 G1) ∨
       (f.commits = 1 ∧ exBReach s1 (bufOp G1 t 0 (frame0 pid .cpuId c op s.mem)))))
    (t := t) (s := s) (by decide) pid .cpuId c op hkind hal (by rw [hal]; exact hcall) htidy hr htop hreg 0 m'
    (by rw [if_pos (show (s.th t).fv .cpuId = c from hid), bufSites_be]; exact hres) ?_ ?_ ?_
  · intro s' hs
    have hd : (s.th t).saved.length = 0 := by rw [hsv]; rfl
    have := BReach.step h hs (fun f hf => by injection hf with hf; subst hf; rw [hd]; exact hop)
      (fun hf => by simp at hf)
    simp only [bufStep, hd] at this
    rw [← hG1] at this
    cases hs with
    | invoke _ _ _ hst =>
      refine ⟨_, by simp only [State.set, updT_same], by simp only [State.set, updT_same]; exact hsv, rfl, rfl,
        .inl ⟨hst.commits, this⟩⟩
  · rintro a b ⟨f, hf, hsa, f1, f2, hor⟩ hs
    have hd : (a.th t).saved.length = 0 := by rw [hsa]; rfl
    obtain ⟨f', i, g, k1, k2, k3, k4, k5, k6, k7⟩ := exec_top hs
    rw [hf] at k1; injection k1 with k1; subst k1
    have hstep : ∀ G1, exBReach a G1 → exBReach b (bufStep exB bufSites a G1 t .exec) := fun G1 h1 =>
      BReach.step h1 hs (fun f hf => by simp at hf) (fun hf => by simp at hf)
    refine ⟨g, k3, k4.trans hsa, k5.trans f1, k6.trans f2, ?_⟩
    rw [k7]
    by_cases hcm : i + 1 = (bufSites f.pid).prog.commit
    · rw [if_pos hcm]
      have hcom := committing_eq (T := bufSites) hf k2 hcm
      rcases hor with ⟨q1, q2⟩ | ⟨q1, q2⟩
      · refine .inr ⟨by rw [q1], ?_⟩
        have heq : bufStep exB bufSites a G1 t .exec = bufOp G1 t 0 (frame0 pid .cpuId c op s.mem) := by
          simp only [bufStep, hcom, hd]
          unfold bufOp
          rw [f1, f2]
          rfl
        rw [← heq]
        exact hstep G1 q2
      · exfalso
        have hI := (((q2.inv (by decide) bufSites_be exB_ok exBufs_init).reach).reach (by decide)).inv (by decide)
        have := (commit_pseudo (by decide) hI hs hcom).2
        omega
    · rw [if_neg hcm]
      have hcn : committing bufSites a t .exec = none := by
        cases hx : committing bufSites a t .exec with
        | none => rfl
        | some g' =>
          obtain ⟨-, r1, i', r2, r3⟩ := committing_some hx
          rw [hf] at r1; injection r1 with r1; subst r1
          rw [k2] at r2; injection r2 with r2; subst r2
          exact absurd r3 hcm
      have hq : ∀ G1, bufStep exB bufSites a G1 t .exec = G1 := fun G1 => by simp only [bufStep, hcn]
      rcases hor with ⟨q1, q2⟩ | ⟨q1, q2⟩
      · have := hstep _ q2; rw [hq] at this; exact .inl ⟨q1, this⟩
      · have := hstep _ q2; rw [hq] at this; exact .inr ⟨q1, this⟩
  · rintro a b f ⟨f', hf', hsa, f1, f2, hor⟩ hf hpc hop' hfld hcpu _ hs
    rw [hf] at hf'; injection hf' with hf'; subst hf'
    rcases hor with ⟨q1, q2⟩ | ⟨q1, q2⟩
    · exfalso
      have := (buffer_returns (by decide) bufSites_be exB_ok exBufs_init q2 (d := (a.th t).saved.length)
        (by rw [frameAt_top rfl]; exact hf) hpc).1
      rw [q1] at this; simp at this
    · exact BReach.step q2 hs (fun f hf => by simp at hf) (fun hf => by simp at hf)

theorem ex_on_buf {s : State 8} {G : Bufs 8} (h : exBReach s G) (t : Nat) (c : BitVec 32)
    (hoth : ∀ u, u ≠ t → (s.th u).run = true → (s.th u).kcpu ≠ c ∧ (s.th u).kcid ≠ c)
    (h0 : s.th t = thread0) :
    ∃ s', exBReach s' G ∧ s'.th = upd s.th t (th1 true c c) ∧ s'.mem = s.mem := by
  have h1 := BReach.step h (Step.resume (t := t) c c (by rw [h0]; rfl) hoth) (fun f hf => by simp at hf)
    (fun hf => by simp at hf)
  have h2 := BReach.step h1 (Step.register (t := t) (by simp [State.set, upd])
    (by simp [State.set, upd, fixTop, h0, thread0]) (by simp [State.set, upd, h0, thread0])
    (by simp [State.set, upd, h0, thread0])) (fun f hf => by simp at hf) (fun hf => by simp at hf)
  refine ⟨_, h2, ?_, rfl⟩
  funext u
  simp only [State.set]
  by_cases e : u = t
  · subst e; simp [updT_same, th1, thread0, fixTop, fixCs, h0]
  · rw [updT_other _ _ e, updT_other _ _ e, updT_other _ _ e]

theorem ex_tidy (a b : W 8) (h1 : 8 ≤ (a - b).toNat) (h2 : 8 ≤ (b - a).toNat) (x : W 8)
    (h3 : (x - a).toNat < 8) : ¬ InWord b x := by
  intro h4
  unfold InWord at h4
  bv_omega

theorem ex_noOverlap (dst src : W 8) (h1 : 8 ≤ (dst - src).toNat) (h2 : 8 ≤ (src - dst).toNat) :
    NoOverlap dst src 8#64 := by
  intro i j hi hj h
  have hi : i < 8 := hi
  have hj : j < 8 := hj
  have h3 : (BitVec.ofNat (8 * 8) i).toNat = i := by
    rw [BitVec.toNat_ofNat, Nat.mod_eq_of_lt (by omega)]
  have h4 : (BitVec.ofNat (8 * 8) j).toNat = j := by
    rw [BitVec.toNat_ofNat, Nat.mod_eq_of_lt (by omega)]
  generalize BitVec.ofNat (8 * 8) i = x at *
  generalize BitVec.ofNat (8 * 8) j = y at *
  bv_omega

/-- The execution of the head comment. -/
theorem ex_buf : ∃ s G, exBReach s G ∧ G.buf 3#32 = [wordItem (n := 8) false 0x11#64] ∧ G.buf 4#32 = [] ∧
    ldw false s.mem 0x3000#64 = 0x77#64 ∧ G.got 0 0 = some (wordItem (n := 8) false 0x77#64) ∧
    G.pushed (wordItem (n := 8) false 0x77#64) = 2 ∧ ∀ y, G.pushed y = G.popped y := by
  have h0 : exBReach _ _ := BReach.init
  obtain ⟨s1, h1, e1, m1⟩ := ex_on_buf h0 0 3#32 (fun u _ h => by simp [thread0] at h) rfl
  -- push the pointer 0x77
  have r1 := BReach.read (c := 3#32) h1 (t := 0) (by simp [e1, upd, th1]) (by simp [e1, upd, th1, thread0])
    (by simp [exB])
  rw [show (s1.th 0).saved.length = 0 by simp [e1, upd, th1, thread0],
    show ldw exB.be s1.mem (exB.offset 3#32) = 1#64 by rw [m1]; decide] at r1
  obtain ⟨s2, cs2, h2, e2, m2⟩ := ex_buf_call r1 0 3#32 0
    (.cbneStoreStore 0x1000#64 1#64 0x2008#64 0x77#64 2#64) rfl trivial
    (fun x h => ex_tidy 0x2008#64 0x1000#64 (by decide) (by decide) x h)
    ⟨rfl, 1#64, by simp [Bufs.read, frame0], .inl ⟨rfl, show (1#64 : W 8) ≠ num (n := 8) 2 by decide, 0x77#64, rfl⟩⟩
    _ (by simp only [pseudo]; rw [if_neg (by rw [m1]; decide)])
    (by simp [e1, upd, th1]) (by simp [e1, upd, th1, thread0]) (by simp [e1, upd, th1, thread0])
    (by simp [e1, upd, th1]) (by simp [e1, upd, th1])
  rw [m1] at m2
  -- pop it by copying
  have r2 := BReach.read (c := 3#32) h2 (t := 0) (by simp [e2, e1, upd, th1]) (by simp [e2, e1, upd, th1, thread0])
    (by simp [exB])
  rw [show (s2.th 0).saved.length = 0 by simp [e2, e1, upd, th1, thread0],
    show ldw exB.be s2.mem (exB.offset 3#32) = 2#64 by rw [m2]; decide] at r2
  obtain ⟨s3, cs3, h3, e3, m3⟩ := ex_buf_call r2 0 3#32 2
    (.cbneMemcpyStore 0x1000#64 2#64 0x3000#64 0x2008#64 8#64 1#64) rfl
    ⟨ex_noOverlap _ _ (by decide) (by decide), fun h => by simp [bufSites, copySite, modifiesInputs] at h; exact exAl_own⟩
    (fun x h => ex_tidy 0x3000#64 0x1000#64 (by decide) (by decide) x h)
    ⟨rfl, 2#64, by simp [Bufs.read, frame0], .inr (.inr (.inr ⟨by decide, 0x3000#64, rfl, fun a ha => ⟨rfl, rfl, ha⟩⟩))⟩
    _ (by simp only [pseudo]; rw [if_neg (by rw [m2]; decide)])
    (by simp [e2, e1, upd, th1]) (by simp [e2, e1, upd, th1, thread0]) (by simp [e2, e1, upd, th1, thread0])
    (by simp [e2, e1, upd, th1]) (by simp [e2, e1, upd, th1])
  rw [m2] at m3
  -- migration
  have h4 := BReach.step h3 (Step.preempt (t := 0) (by simp [e3, e2, e1, upd, th1])) (fun f hf => by simp at hf)
    (fun hf => by simp at hf)
  obtain ⟨s4, hs4, e4, m4⟩ : ∃ s4 : State 8, s4 = s3.set 0 { s3.th 0 with run := false } ∧
      s4.th = upd s3.th 0 { s3.th 0 with run := false } ∧ s4.mem = s3.mem := ⟨_, rfl, rfl, rfl⟩
  rw [← hs4] at h4
  have h5 := BReach.step h4 (Step.resume (t := 0) 4#32 4#32 (by simp [e4, upd]) (by
    intro u hu hr
    rw [e4, updT_other _ _ hu, e3, updT_other _ _ hu, e2, updT_other _ _ hu, e1, updT_other _ _ hu] at hr
    simp [thread0] at hr)) (fun f hf => by simp at hf) (fun hf => by simp at hf)
  simp only [bufStep, committing] at h5
  obtain ⟨s5, hs5, m5, e5⟩ : ∃ s5 : State 8, s5 = s4.set 0 { s4.th 0 with
        run := true, top := fixTop bufSites (s4.th 0), cs := fixCs (s4.th 0), kcpu := 4#32, kcid := 4#32
        cpuId := if (s4.th 0).reg = true then 4#32 else (s4.th 0).cpuId
        mmCid := if (s4.th 0).reg = true then 4#32 else (s4.th 0).mmCid
        ev := (s4.th 0).ev + 1 } ∧ s5.mem = s3.mem ∧
      ((s5.th 0).run = true ∧ (s5.th 0).top = none ∧ (s5.th 0).saved = [] ∧ (s5.th 0).reg = true ∧
        (s5.th 0).cpuId = 4#32) := by
    refine ⟨_, rfl, m4, ?_⟩
    simp [State.set, e4, e3, e2, e1, upd, th1, thread0, fixTop]
  rw [← hs5] at h5
  obtain ⟨a1, a2, a3, a4, a5⟩ := e5
  rw [m3] at m5
  -- push it by copying
  have r5 := BReach.read (c := 4#32) h5 (t := 0) a1 a2 (by simp [exB])
  rw [show (s5.th 0).saved.length = 0 by rw [a3]; rfl,
    show ldw exB.be s5.mem (exB.offset 4#32) = 0#64 by rw [m5]; decide] at r5
  obtain ⟨s6, cs6, h6, e6, m6⟩ := ex_buf_call r5 0 4#32 2
    (.cbneMemcpyStore 0x1100#64 0#64 0x2100#64 0x3000#64 8#64 1#64) rfl
    ⟨ex_noOverlap _ _ (by decide) (by decide), fun h => by simp [bufSites, copySite, modifiesInputs] at h; exact exAl_own⟩
    (fun x h => ex_tidy 0x2100#64 0x1100#64 (by decide) (by decide) x h)
    ⟨rfl, 0#64, by simp [Bufs.read, frame0], .inr (.inr (.inl ⟨show (0#64 : W 8) ≠ num (n := 8) 2 by decide, 0x3000#64, rfl, fun a ha => ⟨rfl, rfl, ha⟩⟩))⟩
    _ (by simp only [pseudo]; rw [if_neg (by rw [m5]; decide)]) a1 a2 a3 a4 a5
  rw [m5] at m6
  -- pop the pointer
  have r6 := BReach.read (c := 4#32) h6 (t := 0) (by simp [e6, upd, a1]) (by simp [e6, upd, a2]) (by simp [exB])
  rw [show (s6.th 0).saved.length = 0 by simp [e6, upd, a3],
    show ldw exB.be s6.mem (exB.offset 4#32) = 1#64 by rw [m6]; decide] at r6
  obtain ⟨s7, cs7, h7, e7, m7⟩ := ex_buf_call r6 0 4#32 1
    (.cbneCbneStore 0x1100#64 1#64 0x2100#64 0x77#64 0#64) rfl trivial trivial
    ⟨rfl, 1#64, by simp [Bufs.read, frame0], .inr (.inl ⟨rfl, by decide, 0x77#64, rfl⟩)⟩
    _ (by simp only [pseudo]; rw [if_neg (by rw [m6]; decide), if_neg (by rw [m6]; decide)])
    (by simp [e6, upd, a1]) (by simp [e6, upd, a2]) (by simp [e6, upd, a3]) (by simp [e6, upd, a4])
    (by simp [e6, upd, a5])
  rw [m6] at m7
  have i1 : ∀ m, itemOf exB m (frame0 0 .cpuId 3#32
      (.cbneStoreStore 0x1000#64 1#64 0x2008#64 0x77#64 2#64) s1.mem) = wordItem (n := 8) false 0x77#64 := fun _ => rfl
  have i5 : ∀ m, itemOf exB s5.mem (frame0 2 .cpuId 4#32
      (.cbneMemcpyStore 0x1100#64 0#64 0x2100#64 0x3000#64 8#64 1#64) m) = wordItem (n := 8) false 0x77#64 := by
    intro m
    show bytes s5.mem 0x3000#64 8 = _
    rw [m5]; decide
  rw [i1, i5] at h7
  have hg1 : exBufs.buf 3#32 = [wordItem (n := 8) false 0x11#64] := rfl
  have hg2 : exBufs.buf 4#32 = [] := rfl
  refine ⟨s7, _, h7, ?_, ?_, by rw [m7]; decide, ?_, ?_, ?_⟩ <;>
    simp [bufOp, frame0, Bufs.push, Bufs.pop, Bufs.start, Bufs.read, bufStep, committing, hg1, hg2] <;>
    simp [exBufs]

/-- After that execution the buffers contain what they contained at the start. -/
example : ∃ s G, exBReach s G ∧ G.pushed (wordItem (n := 8) false 0x77#64) = 2 ∧
    (exB.cpus.flatMap G.buf).Perm (exB.cpus.flatMap exBufs.buf) := by
  obtain ⟨s, G, h, -, -, -, -, h1, h2⟩ := ex_buf
  exact ⟨s, G, h, h1, (buffer_final_check (by decide) bufSites_be exB_ok exBufs_init (by decide) h h2
    fun _ => 0).1⟩

/-- A thread that has popped the only pointer and still has it: there is room on both CPUs. -/
theorem ex_buf_room : ∃ s G, exBReach s G ∧ G.pushed (wordItem (n := 8) false 0x11#64) = 0 ∧
    G.popped (wordItem (n := 8) false 0x11#64) = 1 ∧
    ∀ c ∈ exB.cpus, ldw exB.be s.mem (exB.offset c) ≠ num (n := 8) (exB.cap c) := by
  have h0 : exBReach _ _ := BReach.init
  obtain ⟨s1, h1, e1, m1⟩ := ex_on_buf h0 0 3#32 (fun u _ h => by simp [thread0] at h) rfl
  have r1 := BReach.read (c := 3#32) h1 (t := 0) (by simp [e1, upd, th1]) (by simp [e1, upd, th1, thread0])
    (by simp [exB])
  rw [show (s1.th 0).saved.length = 0 by simp [e1, upd, th1, thread0],
    show ldw exB.be s1.mem (exB.offset 3#32) = 1#64 by rw [m1]; decide] at r1
  obtain ⟨s2, cs2, h2, e2, m2⟩ := ex_buf_call r1 0 3#32 1
    (.cbneCbneStore 0x1000#64 1#64 0x2000#64 0x11#64 0#64) rfl trivial trivial
    ⟨rfl, 1#64, by simp [Bufs.read, frame0], .inr (.inl ⟨rfl, by decide, 0x11#64, rfl⟩)⟩
    _ (by simp only [pseudo]; rw [if_neg (by rw [m1]; decide), if_neg (by rw [m1]; decide)])
    (by simp [e1, upd, th1]) (by simp [e1, upd, th1, thread0]) (by simp [e1, upd, th1, thread0])
    (by simp [e1, upd, th1]) (by simp [e1, upd, th1])
  have hg1 : exBufs.buf 3#32 = [wordItem (n := 8) false 0x11#64] := rfl
  obtain ⟨G, hG⟩ : ∃ G, G = bufOp ((exBufs.read 0 0 3#32 1#64).start 0 0 (itemOf exB s1.mem (frame0 1 .cpuId 3#32
      (.cbneCbneStore 0x1000#64 1#64 0x2000#64 0x11#64 0#64) s1.mem))) 0 0 (frame0 1 .cpuId 3#32
      (.cbneCbneStore 0x1000#64 1#64 0x2000#64 0x11#64 0#64) s1.mem) := ⟨_, rfl⟩
  rw [← hG] at h2
  have k1 : ∀ y, G.pushed y = 0 := by
    rw [hG]
    simp [bufOp, frame0, Bufs.pop, Bufs.start, Bufs.read, hg1]
    simp [exBufs]
  have k2 : G.popped (wordItem (n := 8) false 0x11#64) = 1 := by
    rw [hG]
    simp [bufOp, frame0, Bufs.pop, Bufs.start, Bufs.read, hg1]
    simp [exBufs]
  refine ⟨s2, G, h2, k1 _, k2, fun c hc => ?_⟩
  exact (buffer_push_finds_room (by decide) bufSites_be exB_ok exBufs_init (by decide) h2
    (fun y => by rw [k1]; exact Nat.zero_le _) (y := wordItem (n := 8) false 0x11#64) (by rw [k1, k2]; decide) hc
    (show 1 ≤ 2 by decide)).2

end Verif.Rseq
