import Verif.RseqStack
import Verif.RseqCounterEx
/-
C39: per-CPU lists are stacks.
-/

namespace Verif.Rseq

variable {n : Nat} {T : Nat → Site n} {K : ListLayout n} {m0 : Mem n} {G0 : Stacks n}

/-- **C39: no node is lost or duplicated.**  In every state memory contains, for each CPU, exactly the
abstract stack of that CPU; and every node is either held by exactly one thread (at one signal depth) and in
no stack, or held by nobody and in exactly one stack, once. -/
theorem lists_are_stacks (hn : 4 ≤ n) (hbe : ∀ p, (T p).prog.be = K.be) (hK : K.OK)
    (h0 : StackInit K m0 G0) {s : State n} {G : Stacks n} (h : SReach T K m0 G0 s G) :
    (∀ c ∈ K.cpus, IsList K.be K.off s.mem (ldw K.be s.mem (K.head c)) (G.stk c)) ∧
    ∀ x, K.nodes x →
      ((∃ o, G.own x = some o) ∧ ∀ c ∈ K.cpus, x ∉ G.stk c) ∨
      (G.own x = none ∧ ∃ c ∈ K.cpus, (G.stk c).count x = 1 ∧ ∀ c' ∈ K.cpus, c' ≠ c → x ∉ G.stk c') := by
  have hI := h.inv hn hbe hK h0
  refine ⟨hI.list, fun x hx => ?_⟩
  rcases hI.all x hx with ⟨o, ho⟩ | ⟨c, hc, hm⟩
  · refine .inl ⟨⟨o, ho⟩, fun c hc hm => ?_⟩
    rw [(hI.mem c hc x hm).2] at ho; simp at ho
  · refine .inr ⟨(hI.mem c hc x hm).2, c, hc, (hI.nodup c hc).count.trans (by simp [hm]), ?_⟩
    intro c' hc' hne hm'
    exact hne (hI.disj c' hc' c hc x hm' hm)

/-- **C39: what the final store of a call does.**  A push puts its node, which the caller holds, on top of the
stack of the CPU named in the call.  A pop finds that stack non-empty and takes its top node, which from then
on only the caller holds.  No other step changes the stacks (`SReach`).  There is no assumption on the
history of the head: the head having been changed and changed back (ABA) between the caller's read and
its call is allowed. -/
theorem final_store_effect (hn : 4 ≤ n) (hbe : ∀ p, (T p).prog.be = K.be) (hK : K.OK)
    (h0 : StackInit K m0 G0) {s s' : State n} {G : Stacks n} (h : SReach T K m0 G0 s G) {t : Nat}
    {lab : Lab n} (hs : Step T s t lab s') {f : Frame n} (hc : committing T s t lab = some f) :
    f.cpu ∈ K.cpus ∧ f.commits = 0 ∧
    ((∃ e x, f.op = .cbneStore (K.head f.cpu) e x ∧ G.own x = some (t, (s.th t).saved.length) ∧
        x ∉ G.stk f.cpu) ∨
     (∃ load x r, f.op = .cbeqStoreAddLoadStore (K.head f.cpu) 0#_ K.off load ∧ G.stk f.cpu = x :: r ∧
        G.own x = none)) := by
  have hI := h.inv hn hbe hK h0
  have hV := hI.reach.inv hn
  obtain ⟨hl, ht, i, hp, hcm⟩ := committing_some hc
  subst hl
  obtain ⟨-, f2, hop⟩ := hI.frames t _ f (by rw [frameAt_top rfl]; exact ht)
  have Z := (T f.pid).facts
  have hz : zone (T f.pid).prog f.l.pc = .body := by
    rw [hp]
    have := Z.sc; have := Z.cc; have := Z.ca; have := Z.an; have := Z.nl
    rcases zone_at_cases Z (i := i) with h'|h'|h'|h'|h'|h'|h' <;>
      first | exact h'.1 | omega
  have hc0 : f.commits = 0 := (((hV.th t).top f ht).rng (.inr hz)).commits
  refine ⟨f2, hc0, ?_⟩
  rcases hop with ⟨e, x, hop, hx⟩ | ⟨load, hop, -, -⟩
  · refine .inl ⟨e, x, hop, (hx hc0).1, fun hm => ?_⟩
    have := (hI.mem f.cpu f2 x hm).2
    rw [(hx hc0).1] at this; simp at this
  · refine .inr ?_
    have hps : pseudo K.be f.op s.mem = (0, s'.mem) := by
      cases hs with
      | exec f' i' ins l' m' hr ht' hp' hc he =>
        rw [ht] at ht'; injection ht' with ht'; subst ht'
        rw [hp] at hp'; injection hp' with hp'; subst hp'
        rcases (body_access hn hV hr ht hp hc he).2.2.2 with ⟨-, h⟩ | ⟨h, -⟩
        · rw [hbe] at h; exact h
        · exact absurd hcm h
    rw [hop] at hps
    simp only [pseudo] at hps
    have hlist := hI.list f.cpu f2
    cases hstk : G.stk f.cpu with
    | nil =>
      rw [hstk] at hlist
      rw [if_pos (show ldw K.be s.mem (K.head f.cpu) = 0#_ from hlist)] at hps
      simp at hps
    | cons x r =>
      refine ⟨load, x, r, hop, rfl, ?_⟩
      exact (hI.mem f.cpu f2 x (by rw [hstk]; simp)).2

/-- **C39: what a call that returns has done.**  A call about to return 0 has executed exactly one final
store, any other none; a push about to return anything else still holds its node; a pop about to return 0
has left in the caller's variable the node that its final store took off the stack, and the caller holds it;
a pop about to return 1 has found a null head. -/
theorem returns_effect (hn : 4 ≤ n) (hbe : ∀ p, (T p).prog.be = K.be) (hK : K.OK)
    (h0 : StackInit K m0 G0) {s : State n} {G : Stacks n} (h : SReach T K m0 G0 s G) {t d : Nat}
    {f : Frame n} {r : Int} (hf : frameAt (s.th t) d = some f) (hr : f.l.pc = .ret r) :
    f.commits = (if r = 0 then 1 else 0) ∧
    (∀ v e x, f.op = .cbneStore v e x → r ≠ 0 → G.own x = some (t, d)) ∧
    (∀ v e o load, f.op = .cbeqStoreAddLoadStore v e o load → r = 0 →
      ∃ x, G.got t d = some x ∧ G.own x = some (t, d) ∧ ldw K.be s.mem load = x) ∧
    (∀ v e o load, f.op = .cbeqStoreAddLoadStore v e o load → r = 1 →
      ldw K.be f.last (K.head f.cpu) = 0#_) := by
  have hI := h.inv hn hbe hK h0
  have hV := hI.reach.inv hn
  have hfi : ∃ b, FInv T s.mem (s.th t) b f := by
    rcases frameAt_any hf with h | h
    · exact ⟨_, (hV.th t).top f h⟩
    · exact ⟨_, (hV.th t).saved f h⟩
  obtain ⟨b, hfi⟩ := hfi
  have hz : zone (T f.pid).prog f.l.pc = .done r := by rw [hr]; rfl
  obtain ⟨-, -, hop⟩ := hI.frames t d f hf
  have hcm : f.commits = if r = 0 then 1 else 0 := by
    rcases hfi.done r hz with e | e | e
    · subst e; exact (hfi.post (.inr hz)).2
    · subst e; exact (hfi.neq (.inr hz)).2.1
    · subst e; exact hfi.abt (.inr hz)
  refine ⟨hcm, ?_, ?_, ?_⟩
  · intro v e x ho hne
    rw [if_neg hne] at hcm
    rcases hop with ⟨e', x', ho', hx⟩ | ⟨load, ho', -⟩
    · rw [ho] at ho'; injection ho' with _ _ h3; subst h3; exact (hx hcm).1
    · rw [ho] at ho'; simp at ho'
  · intro v e o load ho he
    rw [if_pos he] at hcm
    rcases hop with ⟨e', x', ho', hx⟩ | ⟨load', ho', -, hx⟩
    · rw [ho] at ho'; simp at ho'
    · rw [ho] at ho'; injection ho' with _ _ _ h4; subst h4; exact hx (by omega)
  · intro v e o load ho he
    subst he
    have := (hfi.neq (.inr hz)).2.2
    rcases hop with ⟨e', x', ho', hx⟩ | ⟨load', ho', -, hx⟩
    · rw [ho] at ho'; simp at ho'
    · rw [ho', hbe] at this
      simp only [pseudo] at this
      split at this
      · next h => exact h
      · simp at this

/-- **C39, the check at the end of `test_percpu_list`** (lines 310-322): when nobody holds a node, walking the
lists of all CPUs visits every node exactly once. -/
theorem final_walk (hn : 4 ≤ n) (hbe : ∀ p, (T p).prog.be = K.be) (hK : K.OK)
    (h0 : StackInit K m0 G0) {s : State n} {G : Stacks n} (h : SReach T K m0 G0 s G)
    (hq : ∀ x, G.own x = none) (hcpus : K.cpus.Nodup) (x : W n) :
    (K.nodes x → (K.cpus.flatMap G.stk).count x = 1) ∧ (¬ K.nodes x → (K.cpus.flatMap G.stk).count x = 0) := by
  have hI := h.inv hn hbe hK h0
  have key : ∀ l : List (BitVec 32), l.Nodup → (∀ c ∈ l, c ∈ K.cpus) →
      (l.flatMap G.stk).count x = if ∃ c ∈ l, x ∈ G.stk c then 1 else 0 := by
    intro l
    induction l with
    | nil => intro _ _; simp
    | cons c r ih =>
      intro hnd hsub
      rw [List.flatMap_cons, List.count_append,
        ih (List.nodup_cons.1 hnd).2 fun c hc => hsub c (List.mem_cons_of_mem _ hc)]
      have hcc := (hI.nodup c (hsub c (by simp))).count (a := x)
      by_cases h1 : x ∈ G.stk c
      · have h2 : ¬ ∃ c' ∈ r, x ∈ G.stk c' := by
          rintro ⟨c', hc', h2⟩
          have := hI.disj c (hsub c (by simp)) c' (hsub c' (List.mem_cons_of_mem _ hc')) x h1 h2
          subst this
          exact (List.nodup_cons.1 hnd).1 hc'
        rw [if_neg h2, hcc, if_pos h1, if_pos ⟨c, by simp, h1⟩]
      · rw [hcc, if_neg h1]
        by_cases h2 : ∃ c' ∈ r, x ∈ G.stk c'
        · rw [if_pos h2, if_pos]
          obtain ⟨c', hc', h2⟩ := h2
          exact ⟨c', List.mem_cons_of_mem _ hc', h2⟩
        · rw [if_neg h2, if_neg]
          rintro ⟨c', hc', h3⟩
          rcases List.mem_cons.1 hc' with rfl | hc'
          · exact h1 h3
          · exact h2 ⟨c', hc', h3⟩
  rw [key K.cpus hcpus fun _ h => h]
  refine ⟨fun hx => if_pos ?_, fun hx => if_neg ?_⟩
  · rcases hI.all x hx with ⟨o, ho⟩ | h
    · rw [hq x] at ho; simp at ho
    · exact h
  · rintro ⟨c, hc, hm⟩
    exact hx (hI.mem c hc x hm).1

end Verif.Rseq
