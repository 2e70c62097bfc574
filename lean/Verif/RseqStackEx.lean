import Verif.RseqStackProps
import Verif.RseqLockEx
/-
An execution that meets the hypotheses of the theorems of `RseqStackProps.lean`: a thread pops a node on CPU
3, migrates, and pushes it on CPU 4.
-/

namespace Verif.Rseq

def popSite : Site 8 where
  arch := .x86_64
  kind := .cbeqStoreAddLoadStore
  rel := false
  be := false
  al := exAl
  csa := 0x9000#64
  prog := x86_64_cbeqStoreAddLoadStore exAl false 0x9000#64
  ok := rfl

def listSites (p : Nat) : Site 8 := if p = 0 then lockSite else popSite

def listHead (c : BitVec 32) : W 8 := if c = 3#32 then 0x1000#64 else 0x1100#64

/-- Two CPUs, two nodes, the local variable of thread 0. -/
def exK : ListLayout 8 where
  be := false
  fld := .cpuId
  off := 8#64
  cpus := [3#32, 4#32]
  head := listHead
  nodes := fun x => x = 0x2000#64 ∨ x = 0x2100#64
  priv := fun t d a => t = 0 ∧ d = 0 ∧ InWord 0x3000#64 a

theorem exK_ok : exK.OK := by
  have hin : ∀ a b x : W 8, InWord a x → InWord b x → ((a - b).toNat < 8 ∨ (b - a).toNat < 8) := by
    intro a b x h1 h2
    unfold InWord at h1 h2
    bv_omega
  have hd : ∀ a b x : W 8, 8 ≤ (a - b).toNat → 8 ≤ (b - a).toNat → InWord a x → ¬ InWord b x := by
    intro a b x h1 h2 h3 h4
    have := hin a b x h3 h4
    omega
  constructor
  · rintro (h | h) <;> exact absurd h (by decide)
  · intro c hc c' hc' a h1 h2
    simp only [exK, List.mem_cons, List.not_mem_nil, or_false] at hc hc'
    rcases hc with rfl | rfl <;> rcases hc' with rfl | rfl <;> first | rfl | skip
    · exact absurd h2 (hd _ _ a (by decide) (by decide) h1)
    · exact absurd h2 (hd _ _ a (by decide) (by decide) h1)
  · rintro x y a (rfl | rfl) (rfl | rfl) h1 h2 <;> first | rfl | skip
    · exact absurd h2 (hd _ _ a (by decide) (by decide) h1)
    · exact absurd h2 (hd _ _ a (by decide) (by decide) h1)
  · intro c hc x a hx h1
    simp only [exK, List.mem_cons, List.not_mem_nil, or_false] at hc
    rcases hc with rfl | rfl <;> rcases hx with rfl | rfl <;> exact hd _ _ a (by decide) (by decide) h1
  · intro c hc t d a h1 h2
    simp only [exK, List.mem_cons, List.not_mem_nil, or_false] at hc
    rcases hc with rfl | rfl <;> exact hd _ _ a (by decide) (by decide) h1 h2.2.2
  · rintro x t d a (rfl | rfl) h1 h2 <;> exact hd _ _ a (by decide) (by decide) h1 h2.2.2
  · rintro t d t' d' a ⟨rfl, rfl, -⟩ ⟨rfl, rfl, -⟩; exact ⟨rfl, rfl⟩
  · intro c hc a h1
    simp only [exK, List.mem_cons, List.not_mem_nil, or_false] at hc
    rcases hc with rfl | rfl <;> exact hd _ _ a (by decide) (by decide) h1
  · intro t d a h1 h2; exact hd _ _ a (by decide) (by decide) h1 h2.2.2

/-- Node 0x2000 then node 0x2100 on the list of CPU 3; their data are 7 and 9. -/
def exListMem : Mem 8 :=
  stw false (stw false (stw false (stw false (fun _ => 0#8) 0x1000#64 0x2000#64) 0x2008#64 0x2100#64)
    0x2000#64 7#64) 0x2100#64 9#64

def exG : Stacks 8 where
  stk := fun c => if c = 3#32 then [0x2000#64, 0x2100#64] else []
  own := fun _ => none
  got := fun _ _ => none

theorem exG_init : StackInit exK exListMem exG := by
  constructor
  · intro c hc
    simp only [exK, List.mem_cons, List.not_mem_nil, or_false] at hc
    rcases hc with rfl | rfl
    · show IsList (n := 8) _ _ _ _ [0x2000#64, 0x2100#64]
      refine ⟨by decide, by decide, ?_⟩
      refine ⟨by decide, by decide, ?_⟩
      show _ = _
      decide
    · show _ = _
      decide
  · intro c hc x hx
    simp only [exG] at hx
    split at hx
    · simp at hx; exact ⟨hx, rfl⟩
    · simp at hx
  · intro c hc
    simp only [exG]
    split
    · decide
    · exact List.nodup_nil
  · intro c hc c' hc' x h1 h2
    simp only [exG] at h1 h2
    split at h1 <;> split at h2 <;> simp_all
  · intro x o h; simp [exG] at h
  · intro x hx
    refine .inr ⟨3#32, by simp [exK], ?_⟩
    rcases hx with rfl | rfl <;> simp [exG]

abbrev exSReach := SReach listSites exK exListMem exG

theorem listSites_be (p : Nat) : (listSites p).prog.be = exK.be := by
  unfold listSites
  split <;> rfl

theorem exec_top {n : Nat} {T : Nat → Site n} {s s' : State n} {t : Nat} (hs : Step T s t .exec s') :
    ∃ f i g, (s.th t).top = some f ∧ f.l.pc = .at i ∧ (s'.th t).top = some g ∧
      (s'.th t).saved = (s.th t).saved ∧ g.op = f.op ∧ g.cpu = f.cpu ∧
      g.commits = if i + 1 = (T f.pid).prog.commit then f.commits + 1 else f.commits := by
  cases hs with
  | exec f i ins l' m' hr ht hp hc he =>
    refine ⟨f, i, _, ht, hp, congrArg Thread.top (updT_same _ _ _), by dsimp only; rw [updT_same], ?_⟩
    exact ⟨rfl, rfl, rfl⟩

/-- One list call by a registered running thread, outside of signal handlers. -/
theorem ex_list_call {s : State 8} {G : Stacks 8} (h : exSReach s G) (t : Nat) (c : BitVec 32) (pid : Nat)
    (op : Op 8) (hkind : (listSites pid).kind = op.kind) (hcall : CallOK (listSites pid).arch exAl op)
    (htidy : Tidy op)
    (hop : ListCall exK G s.mem t 0 (frame0 pid .cpuId c op s.mem)) (m' : Mem 8)
    (hres : (0, m') = pseudo false op s.mem) (hr : (s.th t).run = true)
    (htop : (s.th t).top = none) (hsv : (s.th t).saved = []) (hreg : (s.th t).reg = true)
    (hid : (s.th t).cpuId = c) :
    ∃ s' cs, exSReach s' (applyOp G t 0 (some (frame0 pid .cpuId c op s.mem))) ∧
      s'.th = upd s.th t { s.th t with cs := cs } ∧ s'.mem = m' := by
  have hal : (listSites pid).al = exAl := by unfold listSites; split <;> rfl
  refine alone_call (T := listSites)
    (P := fun s1 => ∃ f, (s1.th t).top = some f ∧ (s1.th t).saved = [] ∧ f.op = op ∧ f.cpu = c ∧
      ((f.commits = 0 ∧ exSReach s1 G) ∨
       (f.commits = 1 ∧ exSReach s1 (applyOp G t 0 (some (frame0 pid .cpuId c op s.mem))))))
    (t := t) (s := s) (by decide) pid .cpuId c op hkind hal (by rw [hal]; exact hcall) htidy hr htop hreg 0 m'
    (by rw [if_pos (show (s.th t).fv .cpuId = c from hid), listSites_be]; exact hres) ?_ ?_ ?_
  · intro s' hs
    have hd : (s.th t).saved.length = 0 := by rw [hsv]; rfl
    have := SReach.step h hs (fun f hf => by injection hf with hf; subst hf; rw [hd]; exact hop)
      (fun hf => by simp at hf)
    cases hs with
    | invoke _ _ _ hst =>
      refine ⟨_, by simp only [State.set, updT_same], by simp only [State.set, updT_same]; exact hsv, rfl, rfl,
        .inl ⟨hst.commits, this⟩⟩
  · rintro a b ⟨f, hf, hsa, f1, f2, hor⟩ hs
    have hd : (a.th t).saved.length = 0 := by rw [hsa]; rfl
    have hP : ∀ G1, exSReach a G1 → PReach listSites exListMem a :=
      fun G1 h => (h.inv (by decide) listSites_be exK_ok exG_init).reach
    obtain ⟨f', i, g, k1, k2, k3, k4, k5, k6, k7⟩ := exec_top hs
    rw [hf] at k1; injection k1 with k1; subst k1
    have hstep : ∀ G1, exSReach a G1 → exSReach b (applyOp G1 t 0 (committing listSites a t .exec)) := fun G1 h1 => by
      have := SReach.step h1 hs (fun f hf => by simp at hf) (fun hf => by simp at hf)
      rw [hd] at this
      exact this
    refine ⟨g, k3, k4.trans hsa, k5.trans f1, k6.trans f2, ?_⟩
    rw [k7]
    by_cases hcm : i + 1 = (listSites f.pid).prog.commit
    · rw [if_pos hcm]
      rw [committing_eq hf k2 hcm] at hstep
      have Z := (listSites f.pid).facts
      have hz : zone (listSites f.pid).prog f.l.pc = .body := by
        rw [k2]
        have := Z.sc; have := Z.cc; have := Z.ca; have := Z.an; have := Z.nl
        rcases zone_at_cases Z (i := i) with h'|h'|h'|h'|h'|h'|h' <;>
          first | exact h'.1 | omega
      rcases hor with ⟨q1, q2⟩ | ⟨q1, q2⟩
      · refine .inr ⟨by rw [q1], ?_⟩
        have heq : applyOp G t 0 (some f) = applyOp G t 0 (some (frame0 pid .cpuId c op s.mem)) := by
          simp only [applyOp]
          rw [f1, f2]
          rfl
        rw [← heq]
        exact hstep G q2
      · exfalso
        have hI := (hP _ q2).inv (by decide)
        have := (((hI.th t).top f hf).rng (.inr hz)).commits
        omega
    · rw [if_neg hcm]
      have hcn : committing listSites a t .exec = none := by
        cases hx : committing listSites a t .exec with
        | none => rfl
        | some g' =>
          obtain ⟨-, r1, i', r2, r3⟩ := committing_some hx
          rw [hf] at r1; injection r1 with r1; subst r1
          rw [k2] at r2; injection r2 with r2; subst r2
          exact absurd r3 hcm
      rw [hcn] at hstep
      rcases hor with ⟨q1, q2⟩ | ⟨q1, q2⟩
      · exact .inl ⟨q1, hstep G q2⟩
      · exact .inr ⟨q1, hstep _ q2⟩
  · rintro a b f ⟨f', hf', hsa, f1, f2, hor⟩ hf hpc hop' hfld hcpu _ hs
    rw [hf] at hf'; injection hf' with hf'; subst hf'
    rcases hor with ⟨q1, q2⟩ | ⟨q1, q2⟩
    · exfalso
      have := (returns_effect (by decide) listSites_be exK_ok exG_init q2 (d := (a.th t).saved.length)
        (by rw [frameAt_top rfl]; exact hf) hpc).1
      rw [q1] at this; simp at this
    · exact SReach.step q2 hs (fun f hf => by simp at hf) (fun hf => by simp at hf)

theorem ex_on_list {s : State 8} {G : Stacks 8} (h : exSReach s G) (t : Nat) (c : BitVec 32)
    (hoth : ∀ u, u ≠ t → (s.th u).run = true → (s.th u).kcpu ≠ c ∧ (s.th u).kcid ≠ c)
    (h0 : s.th t = thread0) :
    ∃ s', exSReach s' G ∧ s'.th = upd s.th t (th1 true c c) ∧ s'.mem = s.mem := by
  have h1 := SReach.step h (Step.resume (t := t) c c (by rw [h0]; rfl) hoth) (fun f hf => by simp at hf)
    (fun hf => by simp at hf)
  have h2 := SReach.step h1 (Step.register (t := t) (by simp [State.set, upd])
    (by simp [State.set, upd, fixTop, h0, thread0]) (by simp [State.set, upd, h0, thread0])
    (by simp [State.set, upd, h0, thread0])) (fun f hf => by simp at hf) (fun hf => by simp at hf)
  refine ⟨_, h2, ?_, rfl⟩
  funext u
  simp only [State.set]
  by_cases e : u = t
  · subst e; simp [updT_same, th1, thread0, fixTop, fixCs, h0]
  · rw [updT_other _ _ e, updT_other _ _ e, updT_other _ _ e]

/-- Thread 0 pops node 0x2000 on CPU 3, migrates to CPU 4, and pushes it there. -/
theorem ex_list : ∃ s G, exSReach s G ∧ G.stk 3#32 = [0x2100#64] ∧ G.stk 4#32 = [0x2000#64] ∧
    ldw false s.mem 0x3000#64 = 0x2000#64 ∧ (∀ x, G.own x = none) ∧
    ldw false s.mem 0x2000#64 = 7#64 ∧ ldw false s.mem 0x2100#64 = 9#64 := by
  have h0 : exSReach _ _ := SReach.init
  obtain ⟨s1, h1, e1, m1⟩ := ex_on_list h0 0 3#32 (fun u _ h => by simp [thread0] at h) rfl
  obtain ⟨s2, cs2, h2, e2, m2⟩ := ex_list_call h1 0 3#32 1
    (.cbeqStoreAddLoadStore (listHead 3#32) 0#_ 8#64 0x3000#64) rfl trivial
    (by intro x h1 h2; unfold InWord listHead at *; simp only [if_true] at h2; bv_omega)
    ⟨rfl, by simp [exK, frame0], .inr ⟨0x3000#64, rfl, fun a ha => ⟨rfl, rfl, ha⟩⟩⟩
    _ (by
      simp only [pseudo]
      rw [if_neg (by rw [m1]; decide)])
    (by simp [e1, upd, th1]) (by simp [e1, upd, th1, thread0]) (by simp [e1, upd, th1, thread0])
    (by simp [e1, upd, th1]) (by simp [e1, upd, th1])
  -- migration
  have h3 := SReach.step h2 (Step.preempt (t := 0) (by simp [e2, e1, upd, th1])) (fun f hf => by simp at hf)
    (fun hf => by simp at hf)
  have h4 := SReach.step h3 (Step.resume (t := 0) 4#32 4#32 (by simp [State.set, upd]) (by
    intro u hu hr
    simp only [State.set] at hr
    rw [updT_other _ _ hu, e2, updT_other _ _ hu, e1, updT_other _ _ hu] at hr
    simp [thread0] at hr)) (fun f hf => by simp at hf) (fun hf => by simp at hf)
  simp only [committing] at h3 h4
  -- the thread stores the head of CPU 4 into node->next
  have h5 := SReach.step h4 (Step.user (t := 0) (stw false s2.mem 0x2008#64 0#_) (by simp [State.set, upd])
    (by simp [e2, e1, upd, State.set, fixTop, th1, thread0])) (fun f hf => by simp at hf) (by
    intro _ a ha
    have hin : InWord 0x2008#64 a := by
      apply Classical.byContradiction
      intro hn
      exact ha (stw_other _ _ _ _ _ hn)
    refine ⟨fun c hc h => ?_, fun x hx h => ?_, fun t' d' h => ?_, fun h => ?_⟩
    · exact exK_ok.head_next c hc 0x2000#64 a (.inl rfl) h hin
    · have : x = 0x2000#64 := exK_ok.next_next x 0x2000#64 a hx (.inl rfl) h hin
      subst this
      simp [applyOp, frame0, Stacks.pop, exG, e2, e1, upd, State.set, th1, thread0]
    · exact absurd h (exK_ok.next_priv 0x2000#64 t' d' a (.inl rfl) hin)
    · simp only [exK] at h
      unfold InWord at h hin
      bv_omega)
  simp only [committing] at h5
  obtain ⟨s6, cs6, h6, e6, m6⟩ := ex_list_call h5 0 4#32 0
    (.cbneStore (listHead 4#32) 0#_ 0x2000#64) rfl trivial trivial
    ⟨rfl, by simp [exK, frame0], .inl ⟨0#_, 0x2000#64, rfl, by
      simp [applyOp, frame0, Stacks.pop, exG], by exact ldw_stw_same _ _ _ _⟩⟩
    _ (by
      simp only [pseudo]
      rw [if_neg (by rw [m2, m1]; decide)])
    (by simp [State.set, upd]) (by simp [e2, e1, upd, State.set, fixTop, th1, thread0])
    (by simp [e2, e1, upd, State.set, th1, thread0])
    (by simp [e2, e1, upd, State.set, th1]) (by simp [e2, e1, upd, State.set, th1])
  refine ⟨s6, _, h6, ?_, ?_, ?_, ?_, ?_, ?_⟩
  · simp [applyOp, frame0, Stacks.pop, Stacks.push, exG]
  · simp [applyOp, frame0, Stacks.pop, Stacks.push, exG]
  · rw [m6, m2, m1]
    decide
  · intro x
    simp only [applyOp, frame0, Stacks.pop, Stacks.push, exG, if_true]
    split
    · rfl
    · next h => simp [h]
  · rw [m6, m2, m1]; decide
  · rw [m6, m2, m1]; decide

end Verif.Rseq
