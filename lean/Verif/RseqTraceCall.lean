import Verif.RseqSymGood
import Verif.RseqRaceProps
/-
The accesses of one call, in an execution with arbitrary races.
-/

namespace Verif.Rseq

variable {n : Nat} {T : Nat → Site n} {m0 : Mem n}

/-- A relation between the steps since the beginning of a call and the call's frame holds throughout if steps
of others, the kernel's rule and the call's own instructions keep it. -/
theorem RCall.frames (hn : 4 ≤ n) {t d : Nat} {f0 : Frame n} {s0 s : State n} {es : List (Ev n)}
    {F : List (Ev n) → Frame n → Prop}
    (hskip : ∀ es f (e : Ev n), ¬ Own t d e → F es f → F (e :: es) f)
    (hfix : ∀ es f g (x : Thread n) (e : Ev n), ¬ Own t d e → F es f → x.top = some f → fixTop T x = some g →
      F (e :: es) g)
    (hexec : ∀ (s : State n) es f (e : Ev n) i ins l' m', AnyReach T m0 s → AInv T s → F es f →
      (s.th t).run = true → (s.th t).top = some f → f.l.pc = .at i →
      (T f.pid).prog.code[i]? = some ins →
      Rseq.exec (T f.pid).prog ((s.th t).fv f.fld) i ins f.l s.mem = (l', m') →
      e.s = s → e.s'.mem = m' → Own t d e →
      F (e :: es) { f with
          l := l'
          foot := fun x => touched ins f.l x ∨ f.foot x
          last := if memFree ins = true then f.last else m'
          commits := if i + 1 = (T f.pid).prog.commit then f.commits + 1 else f.commits
          ep := if isCs ins = true then (s.th t).ev else f.ep })
    (hR : AnyReach T m0 s0) (hb : frameAt (s0.th t) d = some f0) (h0 : F [] f0) (h : RCall T t d s0 es s) :
    AnyReach T m0 s ∧ ∃ f, frameAt (s.th t) d = some f ∧ F es f := by
  induction h with
  | nil =>
    exact ⟨hR, f0, hb, h0⟩
  | @cons es s s' u lab hcall hs hin ih =>
    obtain ⟨hR, f, hf, hcf⟩ := ih
    refine ⟨hR.step hs, ?_⟩
    have hI := hR.inv hn
    by_cases hu : u = t
    · subst hu
      have hsame : d ≠ (s.th u).saved.length → (s'.th u).saved = (s.th u).saved →
          ∃ f, frameAt (s'.th u) d = some f ∧ F (⟨s, u, lab, s'⟩ :: es) f := by
        intro hd he
        refine ⟨f, ?_, hskip _ _ _ ?_ hcf⟩
        · rw [frameAt_saved (by rw [he]; exact hd), he, ← frameAt_saved hd]; exact hf
        · intro ho; exact hd ho.2.2.symm
      cases hs with
      | invoke g hr ht hg hg' =>
        refine hsame ?_ (by simp [State.set, upd])
        intro hd; rw [frameAt_top hd, ht] at hf; simp at hf
      | exec g i ins l' m' hr ht hp' hc he =>
        by_cases hd : d = (s.th u).saved.length
        · rw [frameAt_top hd, ht] at hf
          injection hf with hf
          subst hf
          refine ⟨_, (frameAt_top (by simpa [upd] using hd)).trans (congrArg Thread.top (updT_same _ _ _)), ?_⟩
          exact hexec s es g _ i ins l' m' hR hI hcf hr ht hp' hc he rfl rfl ⟨rfl, trivial, hd.symm⟩
        · exact hsame hd (by simp [upd])
      | ret g r hr ht hp' =>
        refine hsame ?_ (by simp [State.set, upd])
        intro hd
        rw [frameAt_top (by simpa [State.set, upd] using hd)] at hin
        simp [State.set, upd] at hin
      | user m' hr ht =>
        refine hsame ?_ rfl
        intro hd; rw [frameAt_top hd, ht] at hf; simp at hf
      | preempt hr =>
        refine ⟨f, ?_, hskip _ _ _ (fun h => h.2.1) hcf⟩
        rw [← hf]; simp [State.set, upd, frameAt]
      | resume c k hr hd =>
        by_cases hd : d = (s.th u).saved.length
        · rw [frameAt_top hd] at hf
          rw [frameAt_top (by simpa [State.set, upd] using hd)] at hin ⊢
          simp only [State.set, updT_same] at hin ⊢
          obtain ⟨g, hg⟩ := Option.isSome_iff_exists.1 hin
          exact ⟨g, hg, hfix _ f g (s.th u) _ (fun h => h.2.1) hcf hf hg⟩
        · exact hsame hd (by simp [State.set, upd])
      | signal hr =>
        by_cases hd : d = (s.th u).saved.length
        · rw [frameAt_top hd] at hf
          have hsv : ((s.set u { s.th u with
              top := none, saved := fixTop T (s.th u) :: (s.th u).saved, cs := fixCs (s.th u),
              ev := (s.th u).ev + 1 }).th u).saved = fixTop T (s.th u) :: (s.th u).saved := by
            simp [State.set, upd]
          have hne : d ≠ (fixTop T (s.th u) :: (s.th u).saved).length := by simp; omega
          rw [frameAt_saved (by rw [hsv]; exact hne), hsv] at hin ⊢
          have hget : ((fixTop T (s.th u) :: (s.th u).saved).reverse[d]?).join = fixTop T (s.th u) := by
            rw [List.reverse_cons, List.getElem?_append_right (by simp [hd])]
            simp [hd]
          rw [hget] at hin ⊢
          obtain ⟨g, hg⟩ := Option.isSome_iff_exists.1 hin
          exact ⟨g, hg, hfix _ f g (s.th u) _ (fun h => h.2.1) hcf hf hg⟩
        · have hlt : d < (s.th u).saved.length := by
            rw [frameAt_saved hd, Option.join_eq_some_iff] at hf
            have := (List.getElem?_eq_some_iff.1 hf).1
            simpa using this
          refine ⟨f, ?_, hskip _ _ _ (fun h => h.2.1) hcf⟩
          rw [frameAt_saved (by simp [State.set, upd]; omega)]
          rw [frameAt_saved hd] at hf
          rw [← hf]
          simp only [State.set, updT_same]
          rw [List.reverse_cons, List.getElem?_append_left (by simpa using hlt)]
      | sigret g rest hr ht hs' =>
        have hd : d ≠ (s.th u).saved.length := by
          intro hd; rw [frameAt_top hd, ht] at hf; simp at hf
        have hlt : d < (s.th u).saved.length := by
          rw [frameAt_saved hd, Option.join_eq_some_iff] at hf
          have := (List.getElem?_eq_some_iff.1 hf).1
          simpa using this
        refine ⟨f, ?_, hskip _ _ _ (fun h => h.2.1) hcf⟩
        rw [frameAt_saved hd, hs'] at hf
        rw [hs'] at hlt
        by_cases hd' : d = rest.length
        · rw [frameAt_top (by simp [State.set, upd, hd'])]
          simp only [State.set, updT_same]
          rw [← hf, List.reverse_cons, List.getElem?_append_right (by simp [hd'])]
          simp [hd']
        · rw [frameAt_saved (by simpa [State.set, upd] using hd')]
          simp only [State.set, updT_same]
          rw [← hf, List.reverse_cons, List.getElem?_append_left (by simp at hlt ⊢; omega)]
      | register hr ht hs' hn' =>
        exfalso
        by_cases hd : d = (s.th u).saved.length
        · rw [frameAt_top hd, ht] at hf; simp at hf
        · have := hs' _ (frameAt_mem hd hf); simp at this
      | unregister hr ht hs' hn' =>
        exfalso
        by_cases hd : d = (s.th u).saved.length
        · rw [frameAt_top hd, ht] at hf; simp at hf
        · have := hs' _ (frameAt_mem hd hf); simp at this
      | clear hr ht =>
        refine hsame ?_ (by simp [State.set, upd])
        intro hd; rw [frameAt_top hd, ht] at hf; simp at hf
    · have ho := hs.other hu
      exact ⟨f, by rw [ho]; exact hf, hskip _ _ _ (fun h => hu h.1) hcf⟩

/-- The accesses of thread `t`'s call at depth `d`, in the order of execution (the events are listed latest
first): each instruction of the call does nothing, one access, or a load and a store of the same word, on the memory of
that moment, and it does an access only while the thread runs on CPU `cpu`. -/
inductive Trace (be : Bool) (t d : Nat) (fld : Fld) (cpu : BitVec 32) : List (Ev n) → List (Acc n) → Prop
  | nil : Trace be t d fld cpu [] []
  | skip {e : Ev n} {es : List (Ev n)} {as : List (Acc n)} (he : ¬ Own t d e)
      (h : Trace be t d fld cpu es as) : Trace be t d fld cpu (e :: es) as
  | own {e : Ev n} {es : List (Ev n)} {as as1 : List (Acc n)} (he : Own t d e)
      (hd : Does be e.s.mem as1 e.s'.mem) (ho : as1 ≠ [] → On t fld cpu e.s)
      (h : Trace be t d fld cpu es as) : Trace be t d fld cpu (e :: es) (as ++ as1)

/-- Where the call is in the tree. -/
structure TF (T : Nat → Site n) (t d : Nat) (f0 : Frame n) (es : List (Ev n)) (f : Frame n) : Prop where
  pid : f.pid = f0.pid
  fld : f.fld = f0.fld
  cpu : f.cpu = f0.cpu
  op : f.op = f0.op
  l0 : f.l0 = f0.l0
  at_ : ∃ as rest, Trace (T f0.pid).prog.be t d f0.fld f0.cpu es as ∧
    Runs (f0.op.tree (rereads (T f0.pid).arch) (f0.op.order (backwards (T f0.pid).arch))) as rest ∧
    ((∃ q σ env, (T f0.pid).IsSym q ∧ Good (T f0.pid).arch f0.op.kind q σ ∧ Rel (T f0.pid).al env σ f.l ∧
        σ.tree.conc env = rest) ∨
      ((zone (T f0.pid).prog f.l.pc = .abt ∨ zone (T f0.pid).prog f.l.pc = .done (-1)) ∧ rest ≠ .ret 0))

theorem TF.skip {t d : Nat} {f0 : Frame n} {es : List (Ev n)} {f : Frame n} (h : TF T t d f0 es f) {e : Ev n}
    (he : ¬ Own t d e) : TF T t d f0 (e :: es) f := by
  obtain ⟨as, rest, h1, h2⟩ := h.at_
  exact ⟨h.pid, h.fld, h.cpu, h.op, h.l0, as, rest, .skip he h1, h2⟩

theorem TF.fix (hn : 4 ≤ n) {t d : Nat} {f0 : Frame n} {es : List (Ev n)} {f g : Frame n} {x : Thread n}
    (h : TF T t d f0 es f) (ht : x.top = some f) (hg : fixTop T x = some g) {e : Ev n} (he : ¬ Own t d e) :
    TF T t d f0 (e :: es) g := by
  have h' := h.skip he
  unfold fixTop at hg
  rw [ht] at hg
  dsimp only at hg
  split at hg
  · injection hg with hg; subst hg; exact h'
  · rename_i i hi
    split at hg
    · rename_i hc
      injection hg with hg; subst hg
      refine ⟨h'.pid, h'.fld, h'.cpu, h'.op, h'.l0, ?_⟩
      obtain ⟨as, rest, h1, h2, h3⟩ := h'.at_
      refine ⟨as, rest, h1, h2, .inr ⟨.inl ?_, ?_⟩⟩
      · dsimp only
        rw [h.pid]
        exact zone_abort (T f0.pid).facts
      · rcases h3 with ⟨q, σ, env, hq, hG, hR, rfl⟩ | h3
        · have hpq := Site.sym_prog hq
          rw [h.pid, hpq] at hc
          exact good_abort (by omega) hG (by rw [← hR.pc]; exact hi) hc.2.2.1 hc.2.2.2 env
        · exact h3.2
    · injection hg with hg; subst hg; exact h'

theorem TF.exec (hn : 4 ≤ n) {t d : Nat} {f0 : Frame n} {s : State n} {es : List (Ev n)} {f : Frame n}
    {m' : Mem n} (hI : AInv T s) (hst : FBase T f0) (h : TF T t d f0 es f) (hrun : (s.th t).run = true)
    (ht : (s.th t).top = some f) {i : Nat} {ins : Instr} {l' : LSt n}
    (hp : f.l.pc = .at i) (hc : (T f.pid).prog.code[i]? = some ins)
    (he : Rseq.exec (T f.pid).prog ((s.th t).fv f.fld) i ins f.l s.mem = (l', m')) {e : Ev n}
    (hes : e.s = s) (hes' : e.s'.mem = m') (hon : Own t d e) :
    TF T t d f0 (e :: es) { f with
          l := l'
          foot := fun x => touched ins f.l x ∨ f.foot x
          last := if memFree ins = true then f.last else m'
          commits := if i + 1 = (T f.pid).prog.commit then f.commits + 1 else f.commits
          ep := if isCs ins = true then (s.th t).ev else f.ep } := by
  have Z := (T f.pid).facts
  have hi := (hI.th t).top f ht
  have hl' : l' = (Rseq.exec (T f.pid).prog ((s.th t).fv f.fld) i ins f.l s.mem).1 := by rw [he]
  have hm' : m' = (Rseq.exec (T f.pid).prog ((s.th t).fv f.fld) i ins f.l s.mem).2 := by rw [he]
  have hOn : zone (T f.pid).prog (.at i) = .body → On t f0.fld f0.cpu e.s := by
    intro hz
    have hb := hi.body (by rw [hp]; exact hz)
    have hfl := (hI.th t).flds hb.reg hrun
    rw [hes]
    refine ⟨hrun, hb.reg, ?_⟩
    have := (hb.here hrun).2
    rw [← h.fld, ← h.cpu, ← this]
    cases f.fld <;> simp [Thread.fv, Thread.kv, hfl.1, hfl.2]
  have hfree : zone (T f.pid).prog (.at i) ≠ .body → memFree ins = true := by
    intro hz
    rcases zone_at_cases Z (i := i) with hz'|hz'|hz'|hz'|hz'|hz'|hz'
    · exact (pre_step Z hc hz'.1 (fv := (s.th t).fv f.fld) (l := f.l) (m := s.mem)).1
    · exact (chk_step Z hc hz'.1 (fv := (s.th t).fv f.fld) (l := f.l) (m := s.mem)).1
    · exact absurd hz'.1 hz
    · exact (post_step Z hc hz'.1 (fv := (s.th t).fv f.fld) (l := f.l) (m := s.mem)).1
    · exact (abt_step Z hc hz'.1 (fv := (s.th t).fv f.fld) (l := f.l) (m := s.mem)).1
    · exact (neq_step Z hc hz'.1 (fv := (s.th t).fv f.fld) (l := f.l) (m := s.mem)).1
    · exact absurd (by rw [hp]; exact hz'.1) hi.out
  refine ⟨h.pid, h.fld, h.cpu, h.op, h.l0, ?_⟩
  obtain ⟨as, rest, h1, h2, h3⟩ := h.at_
  dsimp only
  rcases h3 with ⟨q, σ, env, hq, hG, hR, rfl⟩ | ⟨hz, hne⟩
  · have hpq := Site.sym_prog hq
    have hall := all_tree _ _ _ _ _ q hq
    rw [hst.kind] at hall
    have hsep := entry_sep hst.setup hst.ok
    have hc' := hc
    rw [h.pid, hpq] at hc'
    simp only [Prog.ren, List.getElem?_map, Option.map_eq_some_iff] at hc'
    obtain ⟨ins0, hc0, hins⟩ := hc'
    obtain ⟨σ', env', as1, g1, g2, g3, g4, g5⟩ := good_step (by omega) hsep hall hG hR hp hc0 (T f.pid).prog
      ((s.th t).fv f.fld) s.mem
    rw [hins, ← hl'] at g2
    rw [hins, ← hm'] at g5
    refine ⟨as ++ as1, _, .own hon ?_ ?_ h1, h2.trans g3, .inl ⟨q, σ', env', hq, g1, g2, rfl⟩⟩
    · rw [hes, hes', ← h.pid]; exact g5
    · intro hne
      apply hOn
      apply Decidable.byContradiction
      intro hz
      have := hfree hz
      rw [← hins] at this
      rw [show memFree (ins0.ren (rn (T f0.pid).al)) = memFree ins0 by cases ins0 <;> rfl] at this
      exact hne (g4 this)
  · have hz' : zone (T f.pid).prog (.at i) = .abt := by
      rw [hp, ← h.pid] at hz
      rcases hz with hz | hz
      · exact hz
      · rcases zone_at_cases Z (i := i) with hz'|hz'|hz'|hz'|hz'|hz'|hz' <;> rw [hz'.1] at hz <;> cases hz
    obtain ⟨q1, q2, q3⟩ := abt_step Z hc hz' (fv := (s.th t).fv f.fld) (l := f.l) (m := s.mem)
    rw [← hl', h.pid] at q3
    refine ⟨as ++ [], rest, .own hon ?_ (fun h => absurd rfl h) h1, by rw [List.append_nil]; exact h2, .inr ⟨q3, hne⟩⟩
    have hmm := (exec_memFree q1 (T f.pid).prog ((s.th t).fv f.fld) i f.l s.mem s.mem).1
    rw [← hm'] at hmm
    rw [hes', hes, hmm]
    exact .none

/-- The call as a whole. -/
theorem RCall.tf (hn : 4 ≤ n) {t d : Nat} {f0 : Frame n} {s0 s : State n} {es : List (Ev n)} {m : Mem n}
    (hR : AnyReach T m0 s0) (hb : frameAt (s0.th t) d = some f0) (hst : Starts T f0 m)
    (h : RCall T t d s0 es s) : AnyReach T m0 s ∧ ∃ f, frameAt (s.th t) d = some f ∧ TF T t d f0 es f := by
  have hB : FBase T f0 := ⟨hst.kind, hst.setup, hst.ok, hst.tidy⟩
  refine RCall.frames (F := TF T t d f0) hn ?_ ?_ ?_ hR hb ?_ h
  · intro es f e he h; exact h.skip he
  · intro es f g x e he h ht hg; exact h.fix hn ht hg he
  · intro s es f e i ins l' m' _ hI h hr ht hp hc he h1 h2 ho
    exact h.exec hn hI hB hr ht hp hc he h1 h2 ho
  · obtain ⟨q, hq, -⟩ := (T f0.pid).exSym
    have hall := all_tree _ _ _ _ _ q hq
    rw [hst.kind] at hall
    refine ⟨rfl, rfl, rfl, rfl, rfl, [], _, .nil, .nil, .inl ⟨q, _, env0 f0.op, hq, good_entry hall, ?_, ?_⟩⟩
    · rw [hst.l]; exact entry_rel hst.setup _ _
    · exact entry_tree _ _ _

end Verif.Rseq
