import Verif.RseqTwiceStep
import Verif.RseqConcProps
/-
Whole calls in `RSEQ_COMPARE_TWICE` builds correspond to whole calls in normal builds.
-/

namespace Verif.Rseq

variable {n : Nat} {T : Nat → Site n}

theorem rst_init (m0 : Mem n) : RSt T { mem := m0, th := fun _ => thread0 }
    { mem := m0, th := fun _ => thread0 } :=
  ⟨rfl, fun _ => ⟨trivial, .nil, rfl, rfl, rfl, rfl, rfl, rfl, rfl, rfl⟩⟩

/-- Every reachable state of the new build has a counterpart. -/
theorem TReach.sim (hn : 4 ≤ n) {m0 : Mem n} {s' : State n} (h : TReach T (tw T) m0 s') :
    ∃ s, PReach T m0 s ∧ RSt T s s' := by
  induction h with
  | init => exact ⟨_, .init, rst_init m0⟩
  | step h hs hp ih =>
    obtain ⟨s, h1, h2⟩ := ih
    rcases sim_step hn (h1.inv hn) h2 hs hp with ⟨-, -, h⟩ | ⟨s1, a, b, c⟩
    · exact ⟨s, h1, h⟩
    · exact ⟨s1, h1.step a b, c⟩

theorem RSav.isSome {a b : Option (Frame n)} (h : RSav T a b) : b.isSome = a.isSome := by
  cases a <;> cases b <;> first | rfl | exact h.elim

theorem RTop.isSome {mem : Mem n} {x : Thread n} {a b : Option (Frame n)} (h : RTop T mem x a b) :
    b.isSome = a.isSome := by
  cases a <;> cases b <;> first | rfl | exact h.elim

theorem RL.at {fs gs : List (Option (Frame n))} (h : RL T fs gs) (i : Nat) :
    (gs[i]?).join.isSome = (fs[i]?).join.isSome := by
  induction h generalizing i with
  | nil => rfl
  | @cons f g fs gs h _ ih =>
    cases i with
    | zero => exact h.isSome
    | succ i => exact ih i

theorem RT.frameAt {mem : Mem n} {x y : Thread n} (h : RT T mem x y) (d : Nat) :
    (frameAt y d).isSome = (Rseq.frameAt x d).isSome := by
  have hl := h.saved.length
  unfold Rseq.frameAt
  rw [hl]
  split
  · exact h.top.isSome
  · by_cases hd : d < x.saved.length
    · rw [List.getElem?_reverse (by omega), List.getElem?_reverse (by omega), hl]
      exact h.saved.at _
    · rw [List.getElem?_eq_none (by simp; omega), List.getElem?_eq_none (by simp; omega)]

/-- Corresponding pieces of execution. -/
inductive Match (T : Nat → Site n) : List (Ev n) → List (Ev n) → Prop
  | nil : Match T [] []
  | both {es es' : List (Ev n)} {e e' : Ev n} (h : Match T es es') (hs : RSt T e.s e'.s)
      (hs' : RSt T e.s' e'.s') (hw : e'.who = e.who) (hl : e'.lab = e.lab) : Match T (e :: es) (e' :: es')
  | skip {es es' : List (Ev n)} {e' : Ev n} (h : Match T es es') (hm : e'.s'.mem = e'.s.mem) :
      Match T es (e' :: es')

theorem TCall.sim (hn : 4 ≤ n) {t d : Nat} {s0 s0' s' : State n} {es' : List (Ev n)} (hI : Inv T s0)
    (hR : RSt T s0 s0') (h : TCall T (tw T) t d s0' es' s') :
    ∃ es s, Call T t d s0 es s ∧ RSt T s s' ∧ Match T es es' := by
  induction h with
  | nil => exact ⟨[], s0, .nil, hR, .nil⟩
  | @cons es' s' s1' u lab h hs hp hin ih =>
    obtain ⟨es, s, h1, h2, h3⟩ := ih
    have hIs := (Call.events hn hI h1).1
    rcases sim_step hn hIs h2 hs hp with ⟨-, hm, h⟩ | ⟨s1, a, b, c⟩
    · exact ⟨es, s, h1, h, .skip h3 hm⟩
    · refine ⟨_, s1, .cons h1 a b ?_, c, .both h3 h2 c rfl rfl⟩
      rw [← (c.th t).frameAt]; exact hin

theorem Own.of {t d : Nat} {e e' : Ev n} (hs : RSt T e.s e'.s) (hw : e'.who = e.who)
    (hl : e'.lab = e.lab) : Own t d e' ↔ Own t d e := by
  unfold Own
  rw [hw, hl, (hs.th t).saved.length]

theorem On.of {t : Nat} {fl : Fld} {cpu : BitVec 32} {s s' : State n} (h : RSt T s s') :
    On t fl cpu s' ↔ On t fl cpu s := by
  constructor
  · intro o
    exact ⟨by rw [← (h.th t).run]; exact o.run, by rw [← (h.th t).reg]; exact o.reg,
      by rw [← (h.th t).kv]; exact o.kv⟩
  · intro o
    exact ⟨by rw [(h.th t).run]; exact o.run, by rw [(h.th t).reg]; exact o.reg,
      by rw [(h.th t).kv]; exact o.kv⟩

/-- A bound on the effects of a call's instructions carries over. -/
theorem Match.all {es es' : List (Ev n)} (h : Match T es es') {t d : Nat} (Q : Mem n → Mem n → Prop)
    (hq : ∀ m, Q m m) (ha : ∀ e ∈ es, Own t d e → Q e.s.mem e.s'.mem) :
    ∀ e ∈ es', Own t d e → Q e.s.mem e.s'.mem := by
  induction h with
  | nil => intro e he; simp at he
  | @both es es' e e' h hs hs' hw hl ih =>
    intro x hx ho
    rcases List.mem_cons.1 hx with rfl | hx
    · rw [hs.mem, hs'.mem]
      exact ha e (by simp) ((Own.of hs hw hl).1 ho)
    · exact ih (fun e he => ha e (List.mem_cons_of_mem _ he)) x hx ho
  | @skip es es' e' h hm ih =>
    intro x hx ho
    rcases List.mem_cons.1 hx with rfl | hx
    · rw [hm]; exact hq _
    · exact ih ha x hx ho

/-- A step of the old execution is a step of the new one. -/
theorem Match.split {es es' : List (Ev n)} (h : Match T es es') :
    ∀ {es1 es2 : List (Ev n)} {e : Ev n}, es = es1 ++ e :: es2 → ∃ es1' e' es2', es' = es1' ++ e' :: es2' ∧
      RSt T e.s e'.s ∧ RSt T e.s' e'.s' ∧ e'.who = e.who ∧ e'.lab = e.lab ∧
      Match T es1 es1' ∧ Match T es2 es2' := by
  induction h with
  | nil => intro es1 es2 e h; simp at h
  | @both es es' e0 e0' h hs hs' hw hl ih =>
    intro es1 es2 e heq
    cases es1 with
    | nil =>
      simp only [List.nil_append, List.cons.injEq] at heq
      obtain ⟨rfl, rfl⟩ := heq
      exact ⟨[], e0', es', rfl, hs, hs', hw, hl, .nil, h⟩
    | cons a es1 =>
      simp only [List.cons_append, List.cons.injEq] at heq
      obtain ⟨rfl, heq⟩ := heq
      obtain ⟨es1', e', es2', h1, h2, h3, h4, h5, h6, h7⟩ := ih heq
      exact ⟨e0' :: es1', e', es2', by rw [h1]; rfl, h2, h3, h4, h5, .both h6 hs hs' hw hl, h7⟩
  | @skip es es' e0' h hm ih =>
    intro es1 es2 e heq
    obtain ⟨es1', e', es2', h1, h2, h3, h4, h5, h6, h7⟩ := ih heq
    exact ⟨e0' :: es1', e', es2', by rw [h1]; rfl, h2, h3, h4, h5, .skip h6 hm, h7⟩

/-- A state of the old execution is one of the new one. -/
theorem Match.state {es es' : List (Ev n)} {s0 s0' : State n} (h : Match T es es') (h0 : RSt T s0 s0') :
    ∀ sx ∈ sts s0 es, ∃ sx' ∈ sts s0' es', RSt T sx sx' := by
  induction h with
  | nil =>
    intro sx hx
    simp only [sts, List.map_nil, List.nil_append, List.mem_singleton] at hx
    subst hx
    exact ⟨s0', by simp [sts], h0⟩
  | @both es es' e e' h hs hs' hw hl ih =>
    intro sx hx
    rcases List.mem_cons.1 hx with rfl | hx
    · exact ⟨e'.s', by simp [sts], hs'⟩
    · obtain ⟨sx', a, b⟩ := ih sx hx
      exact ⟨sx', List.mem_cons_of_mem _ a, b⟩
  | @skip es es' e' h hm ih =>
    intro sx hx
    obtain ⟨sx', a, b⟩ := ih sx hx
    exact ⟨sx', List.mem_cons_of_mem _ a, b⟩

/-- A complete call in a `RSEQ_COMPARE_TWICE` build, as `WholeCall`. -/
structure TWholeCall (T : Nat → Site n) (m0 : Mem n) (t d : Nat) (f0 : Frame n) (sb s0 : State n)
    (es : List (Ev n)) (s1 : State n) (r : Int) : Prop where
  reach : TReach T (tw T) m0 sb
  begin_ : TStep T (tw T) sb t (.invoke f0) s0
  polite : TPolite (tw T) sb t s0
  depth : (sb.th t).saved.length = d
  mid : TCall T (tw T) t d s0 es s1
  top : (s1.th t).saved.length = d
  ret : ∃ f, (s1.th t).top = some f ∧ f.l.pc = .ret r

theorem TWholeCall.sim (hn : 4 ≤ n) {m0 : Mem n} {t d : Nat} {f0 : Frame n} {sb s0 s1 : State n}
    {es : List (Ev n)} {r : Int} (h : TWholeCall T m0 t d f0 sb s0 es s1 r) :
    ∃ sb' s0' es' s1', WholeCall T m0 t d f0 sb' s0' es' s1' r ∧ RSt T sb' sb ∧ RSt T s0' s0 ∧
      Match T es' es := by
  obtain ⟨sb', h1, h2⟩ := h.reach.sim hn
  rcases sim_step hn (h1.inv hn) h2 h.begin_ h.polite with ⟨hl, -, -⟩ | ⟨s0', a, b, c⟩
  · simp at hl
  obtain ⟨es', s1', h3, h4, h5⟩ := h.mid.sim hn ((h1.inv hn).step hn a b) c
  refine ⟨sb', s0', es', s1', ⟨h1, a, b, ?_, h3, ?_, ?_⟩, h2, c, h5⟩
  · rw [← (h2.th t).saved.length]; exact h.depth
  · rw [← (h4.th t).saved.length]; exact h.top
  · obtain ⟨g, hg, hp⟩ := h.ret
    obtain ⟨f, hf, hs, hmode⟩ := (h4.th t).top.some hg
    refine ⟨f, hf, ?_⟩
    have key : g.l.pc = f.l.pc.shift (T f.pid).tp (T f.pid).tk → f.l.pc = .ret r := by
      intro h
      rw [hp] at h
      cases hpc : f.l.pc with
      | ret r' => rw [hpc] at h; exact h.symm
      | «at» i => rw [hpc] at h; simp [Pc.shift] at h
    rcases hmode with h | h | h
    · exact key (by rw [h.1])
    · obtain ⟨-, -, j, -, hgl, -⟩ := h
      rw [hp] at hgl; simp at hgl
    · exact key h.2

end Verif.Rseq
