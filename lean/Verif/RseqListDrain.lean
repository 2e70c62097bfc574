import Verif.RseqBufDrain
import Verif.RseqStackProps

/-!
The threads of the list test can always finish: from every state in which threads are in the middle of the loop
(param_test.c:769-792) they can be scheduled so that all nodes are in the lists again.
-/

namespace Verif.Rseq

variable {n : Nat} {T : Nat → Site n} {K : ListLayout n} {m0 : Mem n} {G0 : Stacks n}

/-- A set of states of the list test closed under the steps of the threads: helpers, the kernel, storing to the `next`
field of a node the thread holds, and handing over a node. -/
structure ListClosed (T : Nat → Site n) (K : ListLayout n) (m0 : Mem n) (G0 : Stacks n)
    (R : State n → Stacks n → Prop) : Prop where
  reach : ∀ s G, R s G → SReach T K m0 G0 s G
  step : ∀ s G t lab s', R s G → Step T s t lab s' → lab ≠ .user →
    (∀ f, lab = .invoke f → ListCall K G s.mem t (s.th t).saved.length f) →
    R s' (applyOp G t (s.th t).saved.length (committing T s t lab))
  next : ∀ s G t x v, R s G → (s.th t).run = true → (s.th t).top = none → G.own x = some (t, (s.th t).saved.length) →
    R { s with mem := stw K.be s.mem (x + K.off) v } G
  give : ∀ s G t x t' d', R s G → (s.th t).top = none → G.own x = some (t, (s.th t).saved.length) → R s (G.give x t' d')

/-- Nobody who is gone holds a node: the holders are threads or handlers that have not returned. -/
def Kept (s : State n) (G : Stacks n) : Prop := ∀ x t d, G.own x = some (t, d) → d ≤ (s.th t).saved.length

/-- One push or pop by a registered running thread that is alone. -/
theorem list_call (hn : 4 ≤ n) (hbe : ∀ p, (T p).prog.be = K.be) (hK : K.OK) (h0 : StackInit K m0 G0)
    {R : State n → Stacks n → Prop} (hR : ListClosed T K m0 G0 R) {s : State n} {G : Stacks n}
    (h : R s G) {t : Nat} {f0 : Frame n} (hst : Starts T f0 s.mem) (hop : ListCall K G s.mem t 0 f0)
    {m' : Mem n} (hres : (0, m') = pseudo K.be f0.op s.mem)
    (hr : (s.th t).run = true) (htop : (s.th t).top = none) (hsv : (s.th t).saved = []) (hreg : (s.th t).reg = true)
    (hfv : (s.th t).fv f0.fld = f0.cpu) :
    ∃ s' cs, R s' (applyOp G t 0 (some f0)) ∧ s'.th = upd s.th t { s.th t with cs := cs } ∧ s'.mem = m' := by
  obtain ⟨G2, hG2⟩ : ∃ G2, G2 = applyOp G t 0 (some f0) := ⟨_, rfl⟩
  rw [← hG2]
  refine alone_frame (T := T)
    (P := fun s1 => ∃ f, (s1.th t).top = some f ∧ (s1.th t).saved = [] ∧ f.op = f0.op ∧ f.cpu = f0.cpu ∧
      ((f.commits = 0 ∧ R s1 G) ∨ (f.commits = 1 ∧ R s1 G2)))
    (t := t) (s := s) (f0 := f0) hn hst hr htop hreg hfv (by rw [hbe]; exact hres) ?_ ?_ ?_
  · intro s' hs
    have hd : (s.th t).saved.length = 0 := by rw [hsv]; rfl
    have := hR.step _ _ _ _ _ h hs (by simp) (fun f hf => by injection hf with hf; subst hf; rw [hd]; exact hop)
    simp only [applyOp, committing] at this
    cases hs with
    | invoke _ _ _ hst =>
      exact ⟨_, by simp only [State.set, updT_same], by simp only [State.set, updT_same]; exact hsv, rfl, rfl,
        .inl ⟨hst.commits, this⟩⟩
  · rintro a b ⟨f, hf, hsa, f1, f2, hor⟩ hs
    have hd : (a.th t).saved.length = 0 := by rw [hsa]; rfl
    obtain ⟨f', i, g, k1, k2, k3, k4, k5, k6, k7⟩ := exec_top hs
    rw [hf] at k1; injection k1 with k1; subst k1
    have hstep : ∀ G1, R a G1 → R b (applyOp G1 t 0 (committing T a t .exec)) := fun G1 h1 => by
      have := hR.step _ _ _ _ _ h1 hs (by simp) (fun f hf => by simp at hf)
      rwa [hd] at this
    refine ⟨g, k3, k4.trans hsa, k5.trans f1, k6.trans f2, ?_⟩
    rw [k7]
    by_cases hcm : i + 1 = (T f.pid).prog.commit
    · rw [if_pos hcm]
      have hcom := committing_eq (T := T) hf k2 hcm
      rw [hcom] at hstep
      rcases hor with ⟨q1, q2⟩ | ⟨q1, q2⟩
      · refine .inr ⟨by rw [q1], ?_⟩
        have heq : applyOp G t 0 (some f) = G2 := by
          rw [hG2]
          simp only [applyOp]
          rw [f1, f2]
        rw [← heq]
        exact hstep G q2
      · exfalso
        have hI := (((hR.reach _ _ q2).inv hn hbe hK h0).reach).inv hn
        have := (commit_pseudo hn hI hs hcom).2
        omega
    · rw [if_neg hcm]
      have hcn : committing T a t .exec = none := by
        cases hx : committing T a t .exec with
        | none => rfl
        | some g' =>
          obtain ⟨-, r1, i', r2, r3⟩ := committing_some hx
          rw [hf] at r1; injection r1 with r1; subst r1
          rw [k2] at r2; injection r2 with r2; subst r2
          exact absurd r3 hcm
      rw [hcn] at hstep
      rcases hor with ⟨q1, q2⟩ | ⟨q1, q2⟩
      · exact .inl ⟨q1, hstep _ q2⟩
      · exact .inr ⟨q1, hstep _ q2⟩
  · rintro a b f ⟨f', hf', hsa, f1, f2, hor⟩ hf hpc hs
    rw [hf] at hf'; injection hf' with hf'; subst hf'
    rcases hor with ⟨q1, q2⟩ | ⟨q1, q2⟩
    · exfalso
      have := (returns_effect hn hbe hK h0 (hR.reach _ _ q2) (d := (a.th t).saved.length)
        (by rw [frameAt_top rfl]; exact hf) hpc).1
      rw [q1] at this; simp at this
    · exact hR.step _ _ _ _ _ q2 hs (by simp) (fun f hf => by simp at hf)

/-- A thread that runs alone on a CPU puts back a node it holds: `this_cpu_list_push` (:685-711). -/
theorem put_back (hn : 4 ≤ n) (hbe : ∀ p, (T p).prog.be = K.be) (hK : K.OK) (h0 : StackInit K m0 G0)
    {R : State n → Stacks n → Prop} (hR : ListClosed T K m0 G0 R) (hS : CanCall T K.fld .cbneStore) {c : BitVec 32}
    (hc : c ∈ K.cpus) {s : State n} {G : Stacks n} (h : R s G) {t : Nat} {x : W n} (ho : G.own x = some (t, 0))
    (hr : (s.th t).run = true) (htop : (s.th t).top = none) (hsv : (s.th t).saved = []) (hreg : (s.th t).reg = true)
    (hfv : (s.th t).fv K.fld = c) :
    ∃ s' cs, R s' (G.push c x) ∧ s'.th = upd s.th t { s.th t with cs := cs } := by
  have hd : (s.th t).saved.length = 0 := by rw [hsv]; rfl
  have hx : K.nodes x := ((hR.reach _ _ h).inv hn hbe hK h0).ownN x _ ho
  obtain ⟨e, he⟩ : ∃ e, e = ldw K.be s.mem (K.head c) := ⟨_, rfl⟩
  have h1 := hR.next _ _ t x e h hr htop (by rw [hd]; exact ho)
  obtain ⟨m1, hm1⟩ : ∃ m1, m1 = stw K.be s.mem (x + K.off) e := ⟨_, rfl⟩
  rw [← hm1] at h1
  have hhd : ldw K.be m1 (K.head c) = e := by
    rw [he, hm1]
    exact ldw_agree fun a ha => stw_other _ _ _ _ _ (hK.head_next c hc x a hx ha)
  have hnx : ldw K.be m1 (x + K.off) = e := by rw [hm1]; exact ldw_stw_same _ _ _ _
  obtain ⟨f0, f1, f2, f3, f4⟩ := hS (.cbneStore (K.head c) e x) c m1 rfl trivial trivial
  obtain ⟨s', cs, q1, q2, -⟩ := list_call hn hbe hK h0 hR h1 (t := t) (f0 := f0) f1
    ⟨f4, by rw [f3]; exact hc, .inl ⟨e, x, by rw [f3]; exact f2, ho, hnx⟩⟩
    (m' := stw K.be m1 (K.head c) x)
    (by
      rw [f2]
      simp only [pseudo]
      rw [if_neg (not_not_intro hhd)])
    hr htop hsv hreg (by rw [f4, f3]; exact hfv)
  refine ⟨s', cs, ?_, q2⟩
  simp only [applyOp] at q1
  rw [f2, f3] at q1
  exact q1

/-- The thread hands the nodes it holds at its current level to its own outermost level. -/
theorem hand_over {R : State n → Stacks n → Prop} (hR : ListClosed T K m0 G0 R) {s : State n} {t : Nat}
    (htop : (s.th t).top = none) (hpos : 0 < (s.th t).saved.length) : ∀ (L : List (W n)) (G : Stacks n), R s G → Kept s G →
    (∀ x, G.own x = some (t, (s.th t).saved.length) → x ∈ L) →
    ∃ G', R s G' ∧ Kept s G' ∧ ∀ x, G'.own x ≠ some (t, (s.th t).saved.length) := by
  intro L
  induction L with
  | nil => exact fun G h hk hL => ⟨G, h, hk, fun x hx => by cases hL x hx⟩
  | cons y L ih =>
    intro G h hk hL
    by_cases hy : G.own y = some (t, (s.th t).saved.length)
    · refine ih (G.give y t 0) (hR.give _ _ t y t 0 h htop hy) (fun x u d hx => ?_) fun x hx => ?_
      · simp only [Stacks.give] at hx
        split at hx
        · injection hx with hx
          injection hx with h1 h2
          omega
        · exact hk x u d hx
      · simp only [Stacks.give] at hx
        split at hx
        · injection hx with hx
          injection hx with h1 h2
          omega
        · rename_i hne
          rcases List.mem_cons.1 (hL x hx) with e | e
          · exact absurd e hne
          · exact e
    · refine ih G h hk fun x hx => ?_
      rcases List.mem_cons.1 (hL x hx) with e | e
      · exact absurd (e ▸ hx) hy
      · exact e

/-- The state after a call commits: nodes are held by the same, by nobody, or by the thread that made the call. -/
theorem own_applyOp (G : Stacks n) (t d : Nat) (o : Option (Frame n)) {x : W n} {u e : Nat}
    (h : (applyOp G t d o).own x = some (u, e)) : G.own x = some (u, e) ∨ (u = t ∧ e = d) := by
  unfold applyOp at h
  split at h
  · split at h
    · simp only [Stacks.push] at h
      split at h
      · cases h
      · exact .inl h
    · unfold Stacks.pop at h
      split at h
      · exact .inl h
      · dsimp only at h
        split at h
        · injection h with h
          injection h with h1 h2
          exact .inr ⟨h1.symm, h2.symm⟩
        · exact .inl h
    · exact .inl h
  · exact .inl h

/-- From every state of the list test the threads can be scheduled so that all are outside of the helpers and handlers and
every node is in a list. -/
theorem lists_drain (hn : 4 ≤ n) (hbe : ∀ p, (T p).prog.be = K.be) (hK : K.OK) (h0 : StackInit K m0 G0)
    {R : State n → Stacks n → Prop} (hR : ListClosed T K m0 G0 R) (hS : CanCall T K.fld .cbneStore) {c : BitVec 32}
    (hc : c ∈ K.cpus) {L : List (W n)} (hL : ∀ x, K.nodes x → x ∈ L) {s : State n} {G : Stacks n} (h : R s G)
    (hk : Kept s G) : ∃ s' G', R s' G' ∧ (∀ x, G'.own x = none) ∧ ∀ u, Idle (s'.th u) := by
  have hinv : ∀ {s G}, R s G → SInv T K m0 s G := fun h => (hR.reach _ _ h).inv hn hbe hK h0
  have hlive := (hinv h).reach.any.live
  obtain ⟨M, hM⟩ := hlive.few
  obtain ⟨s0, ⟨G1, h1, k1⟩, -, hid⟩ := settle (M := M) (P := fun s => ∃ G, R s G ∧ Kept s G)
    (fun s s' t lab _ ⟨G, h, hk⟩ hs hl => by
      have hlab : lab ≠ .user := by rcases hl with e | e | e | e | e <;> rw [e] <;> simp
      have hinvk : ∀ f, lab ≠ .invoke f := fun f => by rcases hl with e | e | e | e | e <;> rw [e] <;> simp
      by_cases hsr : lab = .sigret
      · subst hsr
        cases hs with
        | sigret f rest hr ht hsv =>
          obtain ⟨G', a1, a2, a3⟩ := hand_over hR ht (by rw [hsv]; simp) L G h hk
            fun x hx => hL x ((hinv h).ownN x _ hx)
          refine ⟨G', hR.step _ _ _ _ _ a1 (.sigret f rest hr ht hsv) (by simp) (fun f hf => by simp at hf), ?_⟩
          intro x u d hx
          simp only [State.set]
          have b := a2 x u d hx
          by_cases e : u = t
          · subst e
            rw [updT_same]
            have c := a3 x
            rw [hx, hsv] at c
            rw [hsv] at b
            show d ≤ rest.length
            have : d ≠ rest.length + 1 := fun e => c (by rw [e]; rfl)
            simp only [List.length_cons] at b
            omega
          · rw [updT_other _ _ e]; exact b
      · refine ⟨_, hR.step _ _ _ _ _ h hs hlab (fun f hf => absurd hf (hinvk f)), fun x u d hx => ?_⟩
        have hlen : ∀ u, (s'.th u).saved.length = (s.th u).saved.length := by
          intro u
          by_cases e : u = t
          · subst e
            rcases hl with e | e | e | e | e
            · subst e; cases hs; simp only [updT_same]
            · subst e; cases hs; simp only [State.set, updT_same]
            · exact absurd e hsr
            · subst e; cases hs; simp only [State.set, updT_same]
            · subst e; cases hs; simp only [State.set, updT_same]
          · rw [hs.other (Ne.symm e)]
        rw [hlen]
        rcases own_applyOp _ _ _ _ hx with e | ⟨rfl, rfl⟩
        · exact hk x u d e
        · exact Nat.le_refl _) ⟨G, h, hk⟩ hlive hM
  have key : ∀ (L : List (W n)), ∃ s' G', R s' G' ∧ (∀ x, x ∈ L → G'.own x = none) ∧ (∀ u, Idle (s'.th u)) ∧ Kept s' G' := by
    intro L
    induction L with
    | nil => exact ⟨s0, G1, h1, fun x hx => (by cases hx), hid, k1⟩
    | cons y L ih =>
      obtain ⟨s1, G2, a1, a2, a3, a4⟩ := ih
      cases hy : G2.own y with
      | none =>
        refine ⟨s1, G2, a1, fun x hx => ?_, a3, a4⟩
        rcases List.mem_cons.1 hx with e | e
        · rw [e]; exact hy
        · exact a2 x e
      | some o =>
        obtain ⟨k, d⟩ := o
        have hd : d = 0 := by have := a4 y k d hy; rw [(a3 k).2.2] at this; simpa using this
        subst hd
        obtain ⟨s2, z, b1, -, b3, b4, b5, b6, b7, b8, b9⟩ := put_on (T := T) (t := k) (P := fun s => R s G2)
          (fun s s' lab h hs hl => by
            have := hR.step _ _ _ _ _ h hs (by rcases hl with e | e <;> rw [e] <;> simp)
              (fun f hf => by rcases hl with e | e <;> rw [e] at hf <;> simp at hf)
            rcases hl with e | e <;> subst e <;> simpa only [applyOp, committing] using this) a1 a3 c
        have hx : s2.th k = z := by rw [b3, updT_same]
        obtain ⟨s3, cs, d1, d2⟩ := put_back hn hbe hK h0 hR hS hc b1 hy (by rw [hx]; exact b4)
          (by rw [hx]; exact b5) (by rw [hx]; exact b6) (by rw [hx]; exact b7) (by rw [hx]; cases K.fld <;> assumption)
        have h3 : s3.th k = { z with cs := cs } := by rw [d2, updT_same, hx]
        have hst := Step.preempt (T := T) (s := s3) (t := k) (by rw [h3]; exact b4)
        have d3 := hR.step _ _ _ _ _ d1 hst (by simp) (fun f hf => by simp at hf)
        simp only [applyOp, committing] at d3
        have hidle : ∀ u, Idle ((s3.set k { s3.th k with run := false }).th u) := fun u => by
          simp only [State.set]
          by_cases e : u = k
          · subst e; rw [updT_same, h3]; exact ⟨rfl, b5, b6⟩
          · rw [updT_other _ _ e, d2, updT_other _ _ e, b3, updT_other _ _ e]; exact a3 u
        refine ⟨_, _, d3, fun x hx => ?_, hidle, fun x u d hx => ?_⟩
        · simp only [Stacks.push]
          split
          · rfl
          · rename_i hne
            rcases List.mem_cons.1 hx with e | e
            · exact absurd e hne
            · exact a2 x e
        · simp only [Stacks.push] at hx
          split at hx
          · cases hx
          · have := a4 x u d hx
            rw [(a3 u).2.2] at this
            exact Nat.le_trans this (Nat.zero_le _)
  obtain ⟨s', G', a1, a2, a3, -⟩ := key L
  refine ⟨s', G', a1, fun x => ?_, a3⟩
  cases hx : G'.own x with
  | none => rfl
  | some o => rw [a2 x (hL x ((hinv a1).ownN x o hx))] at hx; cases hx

end Verif.Rseq
