import Verif.RseqOwn
import Verif.RseqCut
import Verif.RseqWord
/-
Lemmas for client programs: how the calls in progress change in one step, and when a failed comparison
makes a section insensitive to what others do.
-/

namespace Verif.Rseq

variable {n : Nat} {T : Nat → Site n}

/-! ### Calls in progress -/

theorem frameAt_list (x : Thread n) (d : Nat) :
    frameAt x d = ((x.saved.reverse ++ [x.top])[d]?).join := by
  unfold frameAt
  by_cases h : d = x.saved.length
  · subst h
    rw [if_pos rfl, List.getElem?_append_right (by simp)]
    simp
  · rw [if_neg h]
    by_cases h1 : d < x.saved.length
    · rw [List.getElem?_append_left (by simpa using h1)]
    · rw [List.getElem?_eq_none (by simp; omega), List.getElem?_eq_none (by simp; omega)]

theorem join_append_none (l : List (Option (Frame n))) (d : Nat) :
    ((l ++ [none])[d]?).join = (l[d]?).join := by
  by_cases h : d < l.length
  · rw [List.getElem?_append_left h]
  · rw [List.getElem?_eq_none (by omega : l.length ≤ d)]
    by_cases h1 : d = l.length
    · subst h1; simp
    · rw [List.getElem?_eq_none (by simp; omega)]

/-- A change of the executing frame only. -/
theorem frameAt_setTop (x y : Thread n) (hs : y.saved = x.saved) (d : Nat) :
    frameAt y d = if d = x.saved.length then y.top else frameAt x d := by
  unfold frameAt
  rw [hs]
  split <;> rfl

theorem frameAt_case {x y : Thread n} {d : Nat} {g : Frame n} (h : frameAt y d = some g)
    (hs : y.saved = x.saved) : (d = x.saved.length ∧ y.top = some g) ∨
      (d ≠ x.saved.length ∧ frameAt x d = some g) := by
  rw [frameAt_setTop x y hs] at h
  split at h
  · next e => exact .inl ⟨e, h⟩
  · next e => exact .inr ⟨e, h⟩

theorem frameAt_any {x : Thread n} {d : Nat} {f : Frame n} (h : frameAt x d = some f) :
    x.top = some f ∨ some f ∈ x.saved := by
  unfold frameAt at h
  split at h
  · exact .inl h
  · right
    cases hx : x.saved.reverse[d]? with
    | none => rw [hx] at h; simp at h
    | some o =>
      rw [hx] at h
      simp only [Option.join_some] at h
      subst h
      have := List.mem_of_getElem? hx
      simpa using this

theorem fixTop_keep {x : Thread n} {g : Frame n} (h : fixTop T x = some g) :
    ∃ f, x.top = some f ∧ g.pid = f.pid ∧ g.fld = f.fld ∧ g.cpu = f.cpu ∧ g.op = f.op ∧
      g.commits = f.commits := by
  obtain ⟨f, hf⟩ := fixTop_some h
  refine ⟨f, hf, ?_⟩
  unfold fixTop at h
  rw [hf] at h
  dsimp only at h
  split at h
  · injection h with h; subst h; exact ⟨rfl, rfl, rfl, rfl, rfl⟩
  · split at h <;> (injection h with h; subst h; exact ⟨rfl, rfl, rfl, rfl, rfl⟩)

/-- How the calls in progress of a thread change: one is added by an invocation, one goes on by an
instruction (and may commit), one goes away by a return, and all others stay. -/
theorem frameAt_step {s s' : State n} {t : Nat} {lab : Lab n} (hs : Step T s t lab s') (d : Nat)
    (g : Frame n) (hg : frameAt (s'.th t) d = some g) :
    lab = .invoke g ∧ d = (s.th t).saved.length ∨
    ∃ f, frameAt (s.th t) d = some f ∧ g.pid = f.pid ∧ g.fld = f.fld ∧ g.cpu = f.cpu ∧ g.op = f.op ∧
      (g.commits = f.commits ∨
        (∃ i, (s.th t).top = some f ∧ d = (s.th t).saved.length ∧ f.l.pc = .at i ∧
          i + 1 = (T f.pid).prog.commit ∧ g.commits = f.commits + 1 ∧ lab = .exec)) ∧
      ¬ (d = (s.th t).saved.length ∧ ∃ r, lab = .ret ∧ f.l.pc = .ret r) := by
  have same : ∀ {y : Thread n}, frameAt y d = some g → y.saved = (s.th t).saved → y.top = (s.th t).top →
      frameAt (s.th t) d = some g := by
    intro y h h1 h2
    rcases frameAt_case h h1 with ⟨e, h⟩ | ⟨e, h⟩
    · rw [frameAt_top e, ← h2]; exact h
    · exact h
  cases hs with
  | invoke f hr ht hf hu =>
    simp only [State.set, updT_same] at hg
    rcases frameAt_case (x := s.th t) hg rfl with ⟨h, hg⟩ | ⟨h, hg⟩
    · injection hg with hg; subst hg; exact .inl ⟨rfl, h⟩
    · exact .inr ⟨g, hg, rfl, rfl, rfl, rfl, .inl rfl, by simp⟩
  | exec f i ins l' m' hr ht hp hc he =>
    dsimp only at hg
    rw [updT_same] at hg
    right
    rcases frameAt_case (x := s.th t) hg rfl with ⟨h, hg⟩ | ⟨h, hg⟩
    · injection hg with hg
      refine ⟨f, by rw [frameAt_top h]; exact ht, by rw [← hg], by rw [← hg], by rw [← hg],
        by rw [← hg], ?_, by simp⟩
      by_cases hcm : i + 1 = (T f.pid).prog.commit
      · exact .inr ⟨i, ht, h, hp, hcm, by rw [← hg]; simp [hcm], rfl⟩
      · exact .inl (by rw [← hg]; simp [hcm])
    · exact ⟨g, hg, rfl, rfl, rfl, rfl, .inl rfl, by simp⟩
  | ret f r hr ht hp =>
    simp only [State.set, updT_same] at hg
    rcases frameAt_case (x := s.th t) hg rfl with ⟨h, hg⟩ | ⟨h, hg⟩
    · simp at hg
    · exact .inr ⟨g, hg, rfl, rfl, rfl, rfl, .inl rfl, by simp [h]⟩
  | user m' hr ht => exact .inr ⟨g, hg, rfl, rfl, rfl, rfl, .inl rfl, by simp⟩
  | preempt hr =>
    simp only [State.set, updT_same] at hg
    exact .inr ⟨g, same hg rfl rfl, rfl, rfl, rfl, rfl, .inl rfl, by simp⟩
  | resume c k hr hd =>
    simp only [State.set, updT_same] at hg
    right
    rcases frameAt_case (x := s.th t) hg rfl with ⟨h, hg⟩ | ⟨h, hg⟩
    · obtain ⟨f, hf, h1, h2, h3, h4, h5⟩ := fixTop_keep hg
      exact ⟨f, by rw [frameAt_top h]; exact hf, h1, h2, h3, h4, .inl h5, by simp⟩
    · exact ⟨g, hg, rfl, rfl, rfl, rfl, .inl rfl, by simp⟩
  | signal hr =>
    simp only [State.set, updT_same] at hg
    rw [frameAt_list] at hg
    dsimp only at hg
    rw [join_append_none, List.reverse_cons] at hg
    have hg := (frameAt_list { s.th t with top := fixTop T (s.th t) } d).trans hg
    right
    rcases frameAt_case (x := s.th t) hg rfl with ⟨h, hg⟩ | ⟨h, hg⟩
    · obtain ⟨f, hf, h1, h2, h3, h4, h5⟩ := fixTop_keep hg
      exact ⟨f, by rw [frameAt_top h]; exact hf, h1, h2, h3, h4, .inl h5, by simp⟩
    · exact ⟨g, hg, rfl, rfl, rfl, rfl, .inl rfl, by simp⟩
  | sigret f rest hr ht hs' =>
    simp only [State.set, updT_same] at hg
    rw [frameAt_list] at hg
    dsimp only at hg
    refine .inr ⟨g, ?_, rfl, rfl, rfl, rfl, .inl rfl, by simp⟩
    rw [frameAt_list, hs', ht, join_append_none, List.reverse_cons]
    exact hg
  | register =>
    simp only [State.set, updT_same] at hg
    exact .inr ⟨g, same hg rfl rfl, rfl, rfl, rfl, rfl, .inl rfl, by simp⟩
  | unregister =>
    simp only [State.set, updT_same] at hg
    exact .inr ⟨g, same hg rfl rfl, rfl, rfl, rfl, rfl, .inl rfl, by simp⟩
  | clear =>
    simp only [State.set, updT_same] at hg
    exact .inr ⟨g, same hg rfl rfl, rfl, rfl, rfl, rfl, .inl rfl, by simp⟩

/-! ### One read, then a comparison -/

theorem zone_body_ge {p : Prog n} (Z : ZoneFacts p) {i : Nat} (h : zone p (.at i) = .body) : p.chk ≤ i := by
  rcases zone_at_cases Z (i := i) with h'|h'|h'|h'|h'|h'|h' <;> rw [h'.1] at h <;>
    first | (simp at h; done) | exact h'.2.1

theorem zone_after {p : Prog n} (Z : ZoneFacts p) {i : Nat}
    (h : zone p (.at i) = .post ∨ zone p (.at i) = .abt ∨ zone p (.at i) = .neq) : p.chk < i := by
  have := Z.cc; have := Z.ca; have := Z.an
  rcases zone_at_cases Z (i := i) with h'|h'|h'|h'|h'|h'|h' <;> rw [h'.1] at h <;>
    first | (simp at h; done) | omega

theorem zone_at_done {p : Prog n} (Z : ZoneFacts p) {i : Nat} {r : Int} : zone p (.at i) ≠ .done r := by
  intro h
  rcases zone_at_cases Z (i := i) with h'|h'|h'|h'|h'|h'|h' <;> rw [h'.1] at h <;> simp at h

/-- In the body, after the first instruction and before the final store, nothing accesses memory and control
goes forward or to the exit of a failed comparison. -/
def oneRead (p : Prog n) (i : Nat) (ins : Instr) : Bool :=
  if i < p.chk then true else if p.commit ≤ i + 1 then true
  else (i == p.chk || memFree ins) && (succs i ins).all fun t => t == .at (i + 1) || neqExit p t

def oneReadAll (p : Prog n) : Nat → List Instr → Bool
  | _, [] => true
  | i, ins :: r => oneRead p i ins && oneReadAll p (i + 1) r

set_option maxRecDepth 4000 in
theorem cbneStore_oneRead (al : Opnd → Nat) (be : Bool) (csa : W n) (arch : Arch) (rel : Bool)
    (p : Prog n) (hp : program al be csa arch .cbneStore rel = some p) :
    oneReadAll p 0 p.code = true := by
  cases arch <;> cases rel <;>
    first
      | (simp only [program, reduceCtorEq] at hp; done)
      | (simp only [program, Option.some.injEq] at hp; subst hp; rfl)

theorem oneReadAll_get (p : Prog n) : ∀ (c : List Instr) (j i : Nat) (ins : Instr),
    oneReadAll p j c = true → c[i]? = some ins → oneRead p (j + i) ins = true := by
  intro c
  induction c with
  | nil => intro j i ins _ h; simp at h
  | cons a r ih =>
    intro j i ins h hi
    simp only [oneReadAll, Bool.and_eq_true] at h
    cases i with
    | zero => simp at hi; subst hi; exact h.1
    | succ i =>
      have := ih (j + 1) i ins h.2 (by simpa using hi)
      rwa [show j + 1 + i = j + (i + 1) by omega] at this

theorem oneRead_step {p : Prog n} (Z : ZoneFacts p) (h : oneReadAll p 0 p.code = true) {i : Nat}
    {ins : Instr} (hc : p.code[i]? = some ins) (hz : zone p (.at i) = .body) (hcm : i + 1 ≠ p.commit) :
    (i ≠ p.chk → memFree ins = true) ∧ ∀ fv l (m : Mem n),
      (exec p fv i ins l m).1.pc = .at (i + 1) ∨ neqExit p (exec p fv i ins l m).1.pc = true := by
  have hi : p.chk ≤ i ∧ i < p.commit := by
    rcases zone_at_cases Z (i := i) with h|h|h|h|h|h|h <;> simp_all
  have := oneReadAll_get p p.code 0 i ins h hc
  rw [Nat.zero_add] at this
  unfold oneRead at this
  rw [if_neg (by omega), if_neg (by omega), Bool.and_eq_true] at this
  refine ⟨fun hne => ?_, fun fv l m => ?_⟩
  · have := this.1
    simpa [hne] using this
  · have ht := List.all_eq_true.1 this.2 _ (exec_succs p fv i ins l m)
    simpa using ht

theorem neq_cpuFree {p : Prog n} (Z : ZoneFacts p) {i : Nat} {ins : Instr} (hc : p.code[i]? = some ins)
    (hz : zone p (.at i) = .neq) : cpuFree ins = true := by
  have h := Z.get i ins hc
  have hi : p.ne ≤ i := by
    rcases zone_at_cases Z (i := i) with h|h|h|h|h|h|h <;> simp_all
  have := Z.sc; have := Z.cc; have := Z.ca; have := Z.an
  simp only [instrOK, show ¬ i < p.start by omega, show ¬ i < p.chk by omega,
    show ¬ i < p.commit by omega, show ¬ i < p.abort by omega, show ¬ i < p.ne by omega, if_false,
    Bool.and_eq_true] at h
  exact h.2.1

/-- The exit of a failed comparison is quiet. -/
theorem quiet_exit {p : Prog n} (Z : ZoneFacts p) (fv : BitVec 32) (m : Mem n) : ∀ (k : Nat) (l : LSt n),
    (zone p l.pc = .neq ∨ l.pc = .ret 1) → (∃ r, (run p fv k (l, m)).1.pc = .ret r) → Quiet p l := by
  intro k
  induction k with
  | zero =>
    intro l hz ⟨r, hr⟩
    rcases hz with hz | hz
    · simp only [run] at hr; rw [hr] at hz; simp [zone] at hz
    · exact .done hz
  | succ k ih =>
    intro l hz ⟨r, hr⟩
    rcases hz with hz | hz
    · cases hpc : l.pc with
      | ret r' => rw [hpc] at hz; simp [zone] at hz
      | «at» i =>
        rw [hpc] at hz
        obtain ⟨ins, hc⟩ := zone_code Z (i := i) (by rw [hz]; simp)
        obtain ⟨h1, h2, h3⟩ := neq_step Z hc hz (fv := fv) (l := l) (m := m)
        have hcf := neq_cpuFree Z hc hz
        refine .step hpc hc h1 hcf (l' := (exec p fv i ins l m).1) ?_ (ih _ ?_ ⟨r, ?_⟩)
        · intro fv' m'
          rw [exec_cpuFree hcf p fv' fv i l m', (exec_memFree h1 p fv i l m' m).2]
        · rcases h3 with h3 | h3
          · exact .inl h3
          · right
            cases hq : (exec p fv i ins l m).1.pc with
            | «at» j =>
              rw [hq] at h3
              rcases zone_at_cases Z (i := j) with h|h|h|h|h|h|h <;> rw [h.1] at h3 <;> simp at h3
            | ret r' => rw [hq] at h3; simp [zone] at h3; rw [h3]
        · have : step p fv (l, m) = ((exec p fv i ins l m).1, m) := by
            simp only [step, hpc, hc]
            exact Prod.ext rfl (exec_memFree h1 p fv i l m m).1
          rw [run, this] at hr
          exact hr
    · exact .done hz

/-- In such a program, a section that has read the variable and found that the comparison fails only has
memory-free instructions ahead. -/
theorem quiet_body {p : Prog n} (Z : ZoneFacts p) (h1 : oneReadAll p 0 p.code = true) (fv : BitVec 32)
    (m : Mem n) : ∀ (k : Nat) (l : LSt n) (i : Nat), l.pc = .at i → zone p (.at i) = .body → i ≠ p.chk →
      (run p fv k (l, m)).1.pc = .ret 1 → Quiet p l := by
  intro k
  induction k with
  | zero =>
    intro l i hp _ _ hr
    simp only [run] at hr; rw [hr] at hp; simp at hp
  | succ k ih =>
    intro l i hpc hz hne hr
    obtain ⟨ins, hc⟩ := zone_code Z (i := i) (by rw [hz]; simp)
    have hst : step p fv (l, m) = exec p fv i ins l m := by simp only [step, hpc, hc]
    rw [run, hst] at hr
    obtain ⟨b1, b2, b3, b4⟩ := body_step Z hc hz (fv := fv) (l := l) (m := m)
    by_cases hcm : i + 1 = p.commit
    · have := post_run Z fv k (exec p fv i ins l m) (.inl (b3 hcm).2)
      rw [hr] at this
      simp [zone] at this
    · obtain ⟨c1, c2⟩ := oneRead_step Z h1 hc hz hcm
      have hm := c1 hne
      have hme : exec p fv i ins l m = ((exec p fv i ins l m).1, m) :=
        Prod.ext rfl (exec_memFree hm p fv i l m m).1
      refine .step hpc hc hm b1 (l' := (exec p fv i ins l m).1) ?_ ?_
      · intro fv' m'
        rw [exec_cpuFree b1 p fv' fv i l m', (exec_memFree hm p fv i l m' m).2]
      · rw [hme] at hr
        rcases c2 fv l m with h | h
        · rcases (b4 hcm).2 with hb | hb | hb
          · have hi : p.chk ≤ i := zone_body_ge Z hz
            exact ih _ (i + 1) h (by rw [← h]; exact hb) (by omega) hr
          · exact quiet_exit Z fv m k _ (.inl hb) ⟨1, hr⟩
          · rw [h] at hb
            rcases zone_at_cases Z (i := i + 1) with h|h|h|h|h|h|h <;> rw [h.1] at hb <;> simp at hb
        · refine quiet_exit Z fv m k _ ?_ ⟨1, hr⟩
          simpa [neqExit] using h

/-- A section that is still at its first body instruction has touched nothing. -/
theorem Rep.first {p : Prog n} (Z : ZoneFacts p) (h1 : oneReadAll p 0 p.code = true) {fv : BitVec 32}
    {m : Mem n} {l0 l : LSt n} {F : W n → Prop} (h : Rep p fv m l0 l F)
    (h0 : l0.pc = .at 0) : (∀ a, ¬ F a) ∨ (∀ i, l.pc = .at i → p.chk < i) := by
  induction h with
  | refl => exact .inl fun _ h => h
  | @step l l' F i ins hr hp hc he ih =>
    have hl' : l' = (Rseq.exec p fv i ins l m).1 := by rw [he]
    rcases zone_at_cases Z (i := i) with hz|hz|hz|hz|hz|hz|hz
    · obtain ⟨q1, -⟩ := pre_step Z hc hz.1 (fv := fv) (l := l) (m := m)
      rcases ih with ih | ih
      · left; intro a ha
        rcases ha with ha | ha
        · exact memFree_touched q1 l a ha
        · exact ih a ha
      · have := ih i hp; have := Z.sc; omega
    · obtain ⟨q1, -⟩ := chk_step Z hc hz.1 (fv := fv) (l := l) (m := m)
      rcases ih with ih | ih
      · left; intro a ha
        rcases ha with ha | ha
        · exact memFree_touched q1 l a ha
        · exact ih a ha
      · have := ih i hp; omega
    all_goals right; intro j hj; rw [hl'] at hj
    · have hge : p.chk ≤ i := hz.2.1
      by_cases hcm : i + 1 = p.commit
      · have := ((body_step Z hc hz.1 (fv := fv) (l := l) (m := m)).2.2.1 hcm).2
        rw [hj] at this
        exact zone_after Z (.inl this)
      · rcases (oneRead_step Z h1 hc hz.1 hcm).2 fv l m with h | h
        · rw [h] at hj; injection hj with hj; omega
        · rw [hj] at h
          simp [neqExit] at h
          have := Z.cc; have := Z.ca; have := Z.an
          rcases zone_at_cases Z (i := j) with h'|h'|h'|h'|h'|h'|h' <;> rw [h'.1] at h <;>
            first | (simp at h; done) | omega
    · have := (post_step Z hc hz.1 (fv := fv) (l := l) (m := m)).2.2
      rw [hj] at this
      rcases this with h | h
      · exact zone_after Z (.inl h)
      · exact absurd h (zone_at_done Z)
    · have := (abt_step Z hc hz.1 (fv := fv) (l := l) (m := m)).2.2
      rw [hj] at this
      rcases this with h | h
      · exact zone_after Z (.inr (.inl h))
      · exact absurd h (zone_at_done Z)
    · have := (neq_step Z hc hz.1 (fv := fv) (l := l) (m := m)).2.2
      rw [hj] at this
      rcases this with h | h
      · exact zone_after Z (.inr (.inr h))
      · exact absurd h (zone_at_done Z)
    · have : i < p.code.length := by
        have := List.getElem?_eq_some_iff.1 hc
        exact this.1
      omega

/-- **A comparison that fails makes the section insensitive**: a running `rseq_load_cbne_store` section that
has read `v`, which contains something else than `expect`, is bound to return 1. -/
theorem cbneStore_quiet (hn : 4 ≤ n) {s : State n} (hI : Inv T s) {t : Nat} {f : Frame n} {v e w : W n}
    (hrun : (s.th t).run = true) (ht : (s.th t).top = some f)
    (hz : zone (T f.pid).prog f.l.pc = .body) (hop : f.op = .cbneStore v e w)
    (hne : ldw (T f.pid).prog.be s.mem v ≠ e) :
    (∀ a, ¬ f.foot a) ∨ Quiet (T f.pid).prog f.l := by
  have hi := (hI.th t).top f ht
  have Z := (T f.pid).facts
  have hrng := hi.rng (.inr hz)
  have hreg := (body_on hn hI hrun ht hz).reg
  obtain ⟨r4, r5, r6⟩ := (hrng.regd hreg).2.2 hrun
  rcases r6 with r6 | r6
  · have hrep := r5.agree r6
    have h1 : oneReadAll (T f.pid).prog 0 (T f.pid).prog.code = true :=
      cbneStore_oneRead (T f.pid).al (T f.pid).be (T f.pid).csa (T f.pid).arch (T f.pid).rel _ (by
        have := (T f.pid).ok
        rw [hi.base.kind, hop] at this; exact this)
    rcases hrep.first Z h1 hi.base.setup.pc with hF | hF
    · exact .inl hF
    · right
      cases hpc : f.l.pc with
      | ret r => rw [hpc] at hz; simp [zone] at hz
      | «at» i =>
        have hfv := Rep.cpu_eq Z (hi.base.impl hn) hi.base.setup hrep (.inl hz)
        obtain ⟨k, hk⟩ := hrep.run
        obtain ⟨k', a, b, -⟩ := (hi.base.impl hn f.cpu _ f.l0 s.mem hi.base.setup).1 hfv
        obtain ⟨j, hj⟩ := returns_through hk a
        refine quiet_body Z h1 ((s.th t).fv f.fld) s.mem j f.l i hpc (by rw [← hpc]; exact hz) ?_ ?_
        · have := hF i hpc; omega
        · rw [hj, a, hop]
          simp only [pseudo]
          rw [if_pos hne]
  · exact .inr r6

end Verif.Rseq
