import Verif.RseqSpinProps

/-!
No lock of the spinlock tests is lost: a lock word that is 1 has an owner, or a call is about to return with it.
-/

namespace Verif.Rseq

variable {n : Nat} {T : Nat → Site n} {fld : Fld} {be : Bool} {lock ctr : BitVec 32 → W n} {cpus : List (BitVec 32)}
  {N : Nat} {m0 : Mem n}

/-- A call that has made its final store stays so until it returns. -/
theorem pend_keep {s s' : State n} {u : Nat} {lab : Lab n} (hI : Inv T s) (hs : Step T s u lab s') {c : BitVec 32}
    {t d : Nat} (h : Pend s c t d) : Pend s' c t d ∨ (t = u ∧ d = (s.th u).saved.length ∧ lab = .ret) := by
  obtain ⟨f, hf, h1, h2⟩ := h
  by_cases e : t = u
  case neg => exact .inl ⟨f, by rw [hs.other (fun e' => e e'.symm)]; exact hf, h1, h2⟩
  subst e
  have hset : ∀ (x : Thread n), x.saved = (s.th t).saved → (d = (s.th t).saved.length → ∃ g, x.top = some g ∧
      g.commits = 1 ∧ g.cpu = c) → ∃ g, frameAt x d = some g ∧ g.commits = 1 ∧ g.cpu = c := by
    intro x hx hd
    by_cases e : d = (s.th t).saved.length
    · obtain ⟨g, g1, g2⟩ := hd e
      exact ⟨g, by rw [frameAt_top (by rw [hx]; exact e)]; exact g1, g2⟩
    · refine ⟨f, ?_, h1, h2⟩
      rw [frameAt_saved (by rw [hx]; exact e), hx, ← frameAt_saved e]
      exact hf
  have htop : d = (s.th t).saved.length → (s.th t).top = some f := fun e => by rw [← frameAt_top e]; exact hf
  have hfix : (s.th t).top = some f → ∃ g, fixTop T (s.th t) = some g ∧ g.commits = 1 ∧ g.cpu = c := by
    intro ht
    cases hg : fixTop T (s.th t) with
    | none =>
      unfold fixTop at hg
      rw [ht] at hg
      dsimp only at hg
      split at hg
      · cases hg
      · split at hg <;> cases hg
    | some g =>
      obtain ⟨f', k1, -, -, k2, -, k3⟩ := fixTop_keep hg
      rw [ht] at k1
      injection k1 with k1
      subst k1
      exact ⟨g, rfl, k3.trans h1, k2.trans h2⟩
  unfold Pend
  cases hs with
  | invoke g hr ht hg hu =>
    refine .inl ?_
    simp only [State.set, updT_same]
    refine hset _ rfl fun e => ?_
    have := htop e
    rw [ht] at this
    cases this
  | exec g i ins l' m' hr ht hp hc he =>
    refine .inl ?_
    simp only [updT_same]
    refine hset _ rfl fun e => ⟨_, rfl, ?_, ?_⟩
    · have hfg := htop e
      rw [ht] at hfg
      injection hfg with hfg
      subst hfg
      dsimp only
      by_cases hcm : i + 1 = (T g.pid).prog.commit
      · exfalso
        have hz : zone (T g.pid).prog g.l.pc = .body := by
          rw [hp]
          have Z := (T g.pid).facts
          have := Z.sc; have := Z.cc; have := Z.ca; have := Z.an; have := Z.nl
          rcases zone_at_cases Z (i := i) with h'|h'|h'|h'|h'|h'|h' <;> first | exact h'.1 | omega
        have := (((hI.th t).top g ht).rng (.inr hz)).commits
        omega
      · rw [if_neg hcm]; exact h1
    · have hfg := htop e
      rw [ht] at hfg
      injection hfg with hfg
      subst hfg
      exact h2
  | ret g r hr ht hp =>
    by_cases e : d = (s.th t).saved.length
    · exact .inr ⟨rfl, e, rfl⟩
    · refine .inl ?_
      simp only [State.set, updT_same]
      exact hset _ rfl fun e' => absurd e' e
  | user m' hr ht => exact .inl ⟨f, hf, h1, h2⟩
  | preempt hr =>
    refine .inl ?_
    simp only [State.set, updT_same]
    exact hset _ rfl fun e => ⟨f, htop e, h1, h2⟩
  | resume c' k hr hd =>
    refine .inl ?_
    simp only [State.set, updT_same]
    exact hset _ rfl fun e => hfix (htop e)
  | signal hr =>
    refine .inl ?_
    simp only [State.set, updT_same]
    obtain ⟨g, g1, g2⟩ := hset { s.th t with top := fixTop T (s.th t) } rfl fun e => hfix (htop e)
    refine ⟨g, ?_, g2⟩
    rw [frameAt_list] at g1 ⊢
    dsimp only at g1 ⊢
    rw [join_append_none, List.reverse_cons]
    exact g1
  | sigret f' rest hr ht hq =>
    refine .inl ?_
    simp only [State.set, updT_same]
    refine ⟨f, ?_, h1, h2⟩
    rw [frameAt_list] at hf ⊢
    dsimp only
    rw [ht, hq, join_append_none, List.reverse_cons] at hf
    exact hf
  | register hr ht hq hn' =>
    refine .inl ?_
    simp only [State.set, updT_same]
    exact hset _ rfl fun e => ⟨f, htop e, h1, h2⟩
  | unregister hr ht hq hn' =>
    refine .inl ?_
    simp only [State.set, updT_same]
    exact hset _ rfl fun e => ⟨f, htop e, h1, h2⟩
  | clear hr ht =>
    refine .inl ?_
    simp only [State.set, updT_same]
    exact hset _ rfl fun e => ⟨f, htop e, h1, h2⟩

/-- A lock word that is 1 has an owner, or a call that has stored it and not yet returned. -/
theorem LReach.taken (hn : 4 ≤ n) (hbe : ∀ p, (T p).prog.be = be)
    (hd : ∀ c ∈ cpus, ∀ c' ∈ cpus, ∀ a, InWord (lock c) a → InWord (lock c') a → c = c')
    (h0 : ∀ c ∈ cpus, ldw be m0 (lock c) = 0#_) {s : State n} {own : Owners}
    (h : LReach T fld be lock cpus m0 s own) :
    ∀ c ∈ cpus, ldw be s.mem (lock c) = 1#_ → own c ≠ none ∨ ∃ t d, Pend s c t d := by
  have h10 := one_ne_zero_w hn
  induction h with
  | init => exact fun c hc h1 => absurd (h1.symm.trans (h0 c hc)) h10
  | @step s s' own t lab h hs hi hu ih =>
    intro c hc h1
    have hL := h.inv hn hbe hd h0
    have hI := hL.reach.inv hn
    rcases hL.val c hc with hz | hz
    · -- the word has changed: the step is the final store of a call
      have hch : ∃ a, InWord (lock c) a ∧ s'.mem a ≠ s.mem a := by
        refine Classical.byContradiction fun hno => h10 (h1.symm.trans (Eq.trans ?_ hz))
        exact ldw_agree fun x hx => Classical.byContradiction fun hne => hno ⟨x, hx, hne⟩
      obtain ⟨a, ha, hne⟩ := hch
      cases hs with
      | exec f i ins l' m' hr ht hp hcd he =>
        obtain ⟨-, f2, f3⟩ := (hL.frames t).1 f ht
        have hacc := body_access hn hI hr ht hp hcd he
        rcases hacc.2.2.2 with ⟨k1, k2⟩ | ⟨k1, k2⟩
        · right
          have hfo := hacc.2.2.1 a hne
          rw [f3] at hfo
          have hcpu := hd c hc f.cpu f2 a ha hfo
          have hzn : zone (T f.pid).prog f.l.pc = .body := by
            rw [hp]
            have Z := (T f.pid).facts
            have := Z.sc; have := Z.cc; have := Z.ca; have := Z.an; have := Z.nl
            rcases zone_at_cases Z (i := i) with h'|h'|h'|h'|h'|h'|h' <;> first | exact h'.1 | omega
          have hc0 := (((hI.th t).top f ht).rng (.inr hzn)).commits
          refine ⟨t, (s.th t).saved.length, ?_⟩
          simp only [Pend, updT_same]
          exact ⟨_, frameAt_top rfl, by dsimp only; rw [if_pos k1, hc0], hcpu.symm⟩
        · rw [f3] at k2
          exact absurd (k2 a hne) (by exact fun h => h)
      | user m' hr ht => exact absurd (hu rfl c hc a ha) hne
      | _ => exact absurd rfl hne
    · rcases ih c hc hz with ho | ⟨t', d', hp⟩
      · left
        rcases acquire_cases own s t lab with e | ⟨-, f, -, -, e⟩
        · rw [e]; exact ho
        · rw [e]
          unfold setOwner
          split
          · simp
          · exact ho
      · rcases pend_keep hI hs hp with hp' | ⟨e1, e2, e3⟩
        · exact .inr ⟨t', d', hp'⟩
        · left
          subst e1 e2 e3
          obtain ⟨f, hf, f1, f2⟩ := hp
          rw [frameAt_top rfl] at hf
          cases hs with
          | ret f' r hr ht hpc =>
            rw [ht] at hf
            injection hf with hf
            subst hf
            have F := (hI.th t').top f' ht
            have hr0 : r = 0 := by
              have hzr : zone (T f'.pid).prog f'.l.pc = .done r := by rw [hpc]; rfl
              rcases F.done r hzr with e | e | e
              · exact e
              · subst e
                have := (F.neq (.inr hzr)).2.1
                omega
              · subst e
                have := F.abt (.inr hzr)
                omega
            subst hr0
            unfold acquire
            rw [ht]
            dsimp only
            rw [if_pos hpc, f2]
            simp [setOwner]
  | @unlock s own t c' h hc' ho hs ih =>
    intro c hc h1
    have hL := h.inv hn hbe hd h0
    by_cases e : c = c'
    · subst e
      exact absurd (h1.symm.trans (ldw_stw_same be s.mem _ _)) h10
    · have h1 : ldw be s.mem (lock c) = 1#_ := by
        rw [← ldw_stw_ne be s.mem (lock c') (lock c) 0#_ fun x hx hx' => e (hd c hc c' hc' x hx hx')]
        exact h1
      rcases ih c hc h1 with k | k
      · left
        unfold setOwner
        rw [if_neg e]
        exact k
      · exact .inr k

/-- While no thread is between lock and unlock of a CPU and no thread is in a call, the lock is free. -/
theorem spin_free (hn : 4 ≤ n) (hbe : ∀ p, (T p).prog.be = be) (hA : SpinApart lock ctr cpus)
    (h0 : ∀ c ∈ cpus, ldw be m0 (lock c) = 0#_) {s : State n} {P : Loops n}
    (h : SpinReach T fld be lock ctr cpus N m0 s P) (hq : ∀ t, (s.th t).top = none ∧ ∀ f ∈ (s.th t).saved, f = none)
    {c : BitVec 32} (hc : c ∈ cpus) (hp : ∀ t d, (P.ph t d).holds ≠ some c) : ldw be s.mem (lock c) = 0#_ := by
  obtain ⟨own, I⟩ := h.inv hn hbe hA h0
  rcases (I.reach.inv hn hbe hA.lock_lock h0).val c hc with e | e
  · exact e
  exfalso
  rcases I.reach.taken hn hbe hA.lock_lock h0 c hc e with ho | ⟨t, d, f, hf, -⟩
  · cases ho' : own c with
    | none => exact ho ho'
    | some td => exact hp td.1 td.2 ((I.owns td.1 td.2 c).2 ho')
  · rcases frameAt_any hf with k | k
    · rw [(hq t).1] at k; cases k
    · have := (hq t).2 _ k
      cases this

end Verif.Rseq
