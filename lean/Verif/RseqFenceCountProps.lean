import Verif.RseqFenceCount
/-
C95: `test_membarrier` reports no failure (tests/param_test.c:1407-1685): the manager's comparisons of the
inactive list hold in every iteration, and at the end both lists together have counted every increment.
-/

namespace Verif.Rseq

variable {n : Nat} {T : Nat → Site n} {m0 : Mem n} {L : TwoLists n} {be : Bool} {fl : Fld}
  {cpus : List (BitVec 32)} {N : Nat}

/-- **C95, no increment is lost.**  At every moment the counters of both lists together are the initial
total plus the amounts of the calls that returned 0 plus those of the calls that have executed their final
addition and are about to return, however the manager switches the pointer. -/
theorem lists_count_exact (hn : 4 ≤ n) (hL : L.OK) (hm : L.Holds be m0) (hnd : cpus.Nodup)
    (hcp : ∀ c, L.cpus c ↔ c ∈ cpus) {s : State n} {es : List (Ev n)} (h : Run T (init m0) es s)
    (hN : ∀ e ∈ es, L.Nice T be fl e) (hwho : ∀ e ∈ es, e.who < N) :
    L.total be cpus s.mem = L.total be cpus m0 + lsum Ev.credit es + tsum (fun t => dpend (s.th t)) N := by
  induction h with
  | nil =>
    have : ∀ N, tsum (fun _ => dpend (thread0 : Thread n)) N = 0#(8 * n) := by
      intro N
      induction N with
      | zero => rfl
      | succ N ih => rw [tsum, ih]; simp [dpend, lsum, dpendF, thread0]
    show L.total be cpus m0 = L.total be cpus m0 + lsum Ev.credit [] + tsum (fun _ => dpend (thread0 : Thread n)) N
    rw [this, lsum]; simp
  | @cons es s s' t lab h hs ih =>
    have hN' : ∀ e ∈ es, L.Nice T be fl e := fun e he => hN e (List.mem_cons_of_mem _ he)
    have i3 := ih hN' fun e he => hwho e (List.mem_cons_of_mem _ he)
    have ht : t < N := hwho _ (List.mem_cons_self ..)
    have hnice := hN _ (List.mem_cons_self ..)
    obtain ⟨-, hH, hA⟩ := lists_hold hn hL hm h hN'
    have hI := (h.reach .init).inv hn
    have oth : ∀ u, u ≠ t → dpend (s'.th u) = dpend (s.th u) := by
      intro u hut; rw [hs.other (fun e => hut e.symm)]
    have ht1 := tsum_upd (fun u => dpend (s'.th u)) (fun u => dpend (s.th u)) t oth N ht
    have same : L.total be cpus s'.mem = L.total be cpus s.mem → dpend (s'.th t) = dpend (s.th t) →
        lab ≠ .ret → L.total be cpus s'.mem =
        L.total be cpus m0 + lsum Ev.credit (⟨s, t, lab, s'⟩ :: es) + tsum (fun t => dpend (s'.th t)) N := by
      intro h1 h2 h3
      have hcr : Ev.credit ⟨s, t, lab, s'⟩ = 0#(8 * n) := by
        have : Ev.won ⟨s, t, lab, s'⟩ = false := by
          unfold Ev.won
          dsimp only
          split
          · exact absurd rfl h3
          · rfl
        unfold Ev.credit
        rw [this]
        split <;> simp
      rw [h1, lsum, hcr, i3]
      rw [h2] at ht1
      grind
    cases hs with
    | invoke f hr htop hf hu' =>
      refine same rfl ?_ (by simp)
      simp only [State.set, updT_same, dpend, lsum, htop, dpendF, hf.commits]
      simp
    | exec f i ins l' m' hr htop hp hc he =>
      have hw := (hA t).1 f htop
      rcases worker_adds hn h hH htop hw hr hp hc he with ⟨hcm, hz, b, hmem⟩ | ⟨hcm, hmem⟩
      · have hc0 : f.commits = 0 := (((hI.th t).top f htop).body hz).commits
        have hsum := total_add (be := be) hL hnd (fun c hc => (hcp c).2 hc) ((hcp _).1 hw.2.1) b s.mem f.op.amount
        rw [← hmem] at hsum
        have hp1 : dpend ({ s.th t with
          top := some { f with
            l := l'
            foot := fun x => touched ins f.l x ∨ f.foot x
            last := if memFree ins = true then f.last else m'
            commits := if i + 1 = (T f.pid).prog.commit then f.commits + 1 else f.commits
            ep := if isCs ins = true then (s.th t).ev else f.ep }
          cs := if isCs ins = true then some f.pid else (s.th t).cs } : Thread n) =
            dpend (s.th t) + f.op.amount := by
          simp only [dpend, lsum, htop, dpendF, if_pos hcm, hc0]
          simp
          grind
        have hcr : Ev.credit ⟨s, t, .exec, { s with mem := m', th := upd s.th t { s.th t with
          top := some { f with
            l := l'
            foot := fun x => touched ins f.l x ∨ f.foot x
            last := if memFree ins = true then f.last else m'
            commits := if i + 1 = (T f.pid).prog.commit then f.commits + 1 else f.commits
            ep := if isCs ins = true then (s.th t).ev else f.ep }
          cs := if isCs ins = true then some f.pid else (s.th t).cs } }⟩ = 0#(8 * n) := by
          unfold Ev.credit
          dsimp only
          rw [htop]
          simp [Ev.won]
        rw [lsum, hcr]
        dsimp only at ht1 ⊢
        rw [updT_same, hp1] at ht1
        rw [hsum, i3]
        grind
      · refine same (by rw [← hmem]) ?_ (by simp)
        dsimp only
        rw [updT_same]
        simp only [dpend, lsum, htop, dpendF, if_neg hcm]
    | ret f r hr htop hp =>
      have hI' := (hI.th t).top f htop
      have hdn := hI'.done r (by rw [hp]; rfl)
      have hp1 : dpend (s.th t) = dpendF (some f) +
          dpend ({ s.th t with top := none } : Thread n) := by
        simp only [dpend, lsum, htop]
        simp [dpendF]
      have hcr : ∀ s', Ev.credit ⟨s, t, .ret, s'⟩ = if f.l.pc = .ret 0 then f.op.amount else 0#(8 * n) := by
        intro s'
        unfold Ev.credit Ev.won
        dsimp only
        rw [htop]
        simp
      rw [lsum, hcr]
      simp only [State.set, updT_same] at ht1 ⊢
      rw [hp1] at ht1
      by_cases hr0 : f.l.pc = .ret 0
      · rw [if_pos hr0]
        have hcm := (hI'.post (.inr (by rw [hr0]; rfl))).2
        simp only [dpendF, if_pos hcm] at ht1
        rw [i3]
        grind
      · rw [if_neg hr0]
        have hcm : f.commits = 0 := by
          rcases hdn with rfl | rfl | rfl
          · exact absurd hp hr0
          · exact (hI'.neq (.inr (by rw [hp]; rfl))).2
          · exact hI'.abt (.inr (by rw [hp]; rfl))
        simp only [dpendF, hcm] at ht1
        rw [i3]
        simp at ht1
        grind
    | user m' hr htop =>
      have hmem : ∀ b, lsum (fun c => ldw be m' (L.node b c)) cpus =
          lsum (fun c => ldw be s.mem (L.node b c)) cpus := by
        intro b
        refine lsum_congr _ _ cpus fun c hc => ldw_agree fun x hx => ?_
        exact hnice.nodes rfl b c x ((hcp c).2 hc) hx
      refine same ?_ rfl (by simp)
      unfold TwoLists.total
      dsimp only
      rw [hmem, hmem]
    | preempt hr => exact same rfl (by simp only [State.set, updT_same]; rfl) (by simp)
    | resume c k hr hd' =>
      refine same rfl ?_ (by simp)
      simp only [State.set, updT_same, dpend, lsum, dpendF_fix]
    | signal hr =>
      refine same rfl ?_ (by simp)
      simp only [State.set, updT_same, dpend, lsum, dpendF_fix]
      simp [dpendF]
    | sigret f rest hr htop hs' =>
      refine same rfl ?_ (by simp)
      simp only [State.set, updT_same, dpend, lsum, htop, hs']
      simp [dpendF]
    | register => exact same rfl (by simp only [State.set, updT_same]; rfl) (by simp)
    | unregister => exact same rfl (by simp only [State.set, updT_same]; rfl) (by simp)
    | clear => exact same rfl (by simp only [State.set, updT_same]; rfl) (by simp)

/-- Calls of thread `t` that returned 0. -/
def wins (es : List (Ev n)) (t : Nat) : Nat := es.countP fun e => e.won && e.who == t

/-- Sum over the threads `0 .. N-1`. -/
def ntot (f : Nat → Nat) : Nat → Nat
  | 0 => 0
  | k + 1 => ntot f k + f k

theorem ntot_one (f g : Nat → Nat) (t : Nat) (h : ∀ u, u ≠ t → g u = f u) (ht : g t = f t + 1) :
    ∀ N, ntot g N = ntot f N + if t < N then 1 else 0 := by
  intro N
  induction N with
  | zero => simp [ntot]
  | succ N ih =>
    rw [ntot, ntot, ih]
    by_cases e : N = t
    · subst e; rw [ht]; simp; omega
    · rw [h N e]
      by_cases h' : t < N
      · simp [h', Nat.lt_succ_of_lt h']; omega
      · rw [if_neg h', if_neg (by omega)]; omega

theorem ntot_congr {f g : Nat → Nat} : ∀ {N}, (∀ t, t < N → g t = f t) → ntot g N = ntot f N
  | 0, _ => rfl
  | N + 1, h => by rw [ntot, ntot, ntot_congr fun t ht => h t (by omega), h N (by omega)]

theorem ntot_const (k : Nat) : ∀ N, ntot (fun _ => k) N = N * k
  | 0 => by simp [ntot]
  | N + 1 => by rw [ntot, ntot_const k N, Nat.succ_mul]

/-- If all calls have amount 1, the credits are the number of calls that returned 0. -/
theorem credits_eq {s : State n} {es : List (Ev n)} (hn : 4 ≤ n) (hL : L.OK) (hm : L.Holds be m0)
    (h : Run T (init m0) es s) (hN : ∀ e ∈ es, L.Nice T be fl e)
    (h1 : ∀ e ∈ es, ∀ f, e.lab = .invoke f → f.op.amount = 1#(8 * n)) (hwho : ∀ e ∈ es, e.who < N) :
    lsum Ev.credit es = BitVec.ofNat (8 * n) (ntot (wins es) N) ∧
    AllFrames (fun _ f => f.op.amount = 1#(8 * n)) s := by
  have hP : ArgsOnly (fun _ (f : Frame n) => f.op.amount = 1#(8 * n)) := by
    intro t f g _ _ _ h4 h
    rw [← h4]; exact h
  induction h with
  | nil =>
    refine ⟨?_, AllFrames.init _⟩
    have : ntot (wins ([] : List (Ev n))) N = 0 := by
      refine (ntot_congr (f := fun _ => 0) (fun t _ => rfl)).trans ?_
      rw [ntot_const]; simp
    rw [this, lsum]
  | @cons es s s' t lab h hs ih =>
    obtain ⟨i1, i2⟩ := ih (fun e he => hN e (List.mem_cons_of_mem _ he))
      (fun e he => h1 e (List.mem_cons_of_mem _ he)) (fun e he => hwho e (List.mem_cons_of_mem _ he))
    refine ⟨?_, i2.step hP hs fun f hf => h1 _ (List.mem_cons_self ..) f hf⟩
    have ht : t < N := hwho _ (List.mem_cons_self ..)
    rw [lsum, i1]
    cases hw : Ev.won ⟨s, t, lab, s'⟩ with
    | false =>
      have : wins (⟨s, t, lab, s'⟩ :: es) = wins es := by
        funext u
        simp [wins, List.countP_cons, hw]
      have hc : Ev.credit ⟨s, t, lab, s'⟩ = 0#(8 * n) := by
        unfold Ev.credit
        rw [hw]
        split <;> simp
      rw [this, hc]; simp
    | true =>
      have h2 := ntot_one (wins es) (wins (⟨s, t, lab, s'⟩ :: es)) t
        (by
          intro u hu
          have : (t == u) = false := by simp; omega
          simp [wins, List.countP_cons, hw, this])
        (by simp [wins, List.countP_cons, hw]) N
      have hc : Ev.credit ⟨s, t, lab, s'⟩ = 1#(8 * n) := by
        have htop : ∃ f, (s.th t).top = some f := by
          unfold Ev.won at hw
          dsimp only at hw
          split at hw
          · exact ⟨_, ‹_›⟩
          · cases hw
        obtain ⟨f, htop⟩ := htop
        unfold Ev.credit
        rw [hw]
        dsimp only
        rw [htop]
        simpa using (i2 t).1 f htop
      rw [h2, hc, if_pos ht, BitVec.ofNat_add]
      exact BitVec.add_comm _ _

/-- **C95, the final count.**  The counters start at 0, every call adds 1, the `threads` workers (threads
`0 .. threads - 1`) have each had `reps` calls that returned 0, the manager none, and all calls have
returned.  Then the test's `total_count` is `threads * reps`. -/
theorem membarrier_total (hn : 4 ≤ n) (hL : L.OK) (hm : L.Holds be m0) (hnd : cpus.Nodup)
    (hcp : ∀ c, L.cpus c ↔ c ∈ cpus) (hz : ∀ b c, L.cpus c → ldw be m0 (L.node b c) = 0#(8 * n))
    {s : State n} {es : List (Ev n)} (h : Run T (init m0) es s)
    (hN : ∀ e ∈ es, L.Nice T be fl e) {threads reps : Nat} (hwho : ∀ e ∈ es, e.who < threads + 1)
    (h1 : ∀ e ∈ es, ∀ f, e.lab = .invoke f → f.op.amount = 1#(8 * n))
    (hw : ∀ t, t < threads → wins es t = reps) (hM : wins es threads = 0)
    (hq : ∀ t, t < threads + 1 → (s.th t).top = none ∧ (s.th t).saved = []) :
    L.total be cpus s.mem = BitVec.ofNat (8 * n) (threads * reps) := by
  rw [lists_count_exact hn hL hm hnd hcp h hN hwho, (credits_eq hn hL hm h hN h1 hwho).1]
  have p : ∀ k, k ≤ threads + 1 → tsum (fun t => dpend (s.th t)) k = 0#(8 * n) := by
    intro k
    induction k with
    | zero => intro _; rfl
    | succ k ih =>
      intro hk
      rw [tsum, ih (by omega)]
      obtain ⟨h1, h2⟩ := hq k (by omega)
      simp [dpend, h1, h2, lsum, dpendF]
  have z : ∀ b (l : List (BitVec 32)), (∀ c ∈ l, L.cpus c) →
      lsum (fun c => ldw be m0 (L.node b c)) l = 0#(8 * n) := by
    intro b l
    induction l with
    | nil => intro _; rfl
    | cons a l ih =>
      intro h
      rw [lsum, ih fun c hc => h c (List.mem_cons_of_mem _ hc), hz b a (h a (List.mem_cons_self ..))]
      simp
  rw [p _ (Nat.le_refl _)]
  have hz' : L.total be cpus m0 = 0#(8 * n) := by
    unfold TwoLists.total
    rw [z _ _ fun c hc => (hcp c).2 hc, z _ _ fun c hc => (hcp c).2 hc]; simp
  rw [hz', ntot, hM, ntot_congr hw, ntot_const]
  simp

/-! ### The manager -/

/-- Where the manager is in its loop (param_test.c:1557-1601).  `ready b c v`: list `b` is active, and the
counter of CPU `c` in the other list is expected to be `v` (`expect_a`/`expect_b`).  `called b c`: it has
made list `b` active and calls the barrier for CPU `c`.  `fenced b c`: the barrier has returned. -/
inductive MPhase (n : Nat)
  | ready (b : Bool) (c : BitVec 32) (v : W n)
  | called (b : Bool) (c : BitVec 32)
  | fenced (b : Bool) (c : BitVec 32)

/-- The manager thread `M` in its loop, list a (`false`) first; other threads act as workers; nobody else
changes the pointer.  The next switch is reached only if the comparison before it holds (otherwise the test
prints "Membarrier test failed" and aborts). -/
inductive Mgr (T : Nat → Site n) (L : TwoLists n) (be : Bool) (fl : Fld) (M : Nat) (m0 : Mem n) :
    List (Ev n) → State n → MPhase n → Prop
  | start {c : BitVec 32} (hc : L.cpus c) : Mgr T L be fl M m0 [] (init m0) (.ready false c 0#(8 * n))
  | step {es : List (Ev n)} {s s' : State n} {p : MPhase n} {u : Nat} {lab : Lab n}
      (h : Mgr T L be fl M m0 es s p) (hs : Step T s u lab s') (hN : L.Nice T be fl ⟨s, u, lab, s'⟩)
      (hp : lab = .user → ldw be s'.mem L.ptr = ldw be s.mem L.ptr) :
      Mgr T L be fl M m0 (⟨s, u, lab, s'⟩ :: es) s' p
  | switch {es : List (Ev n)} {s s' : State n} {b : Bool} {c c' : BitVec 32} {v : W n}
      (h : Mgr T L be fl M m0 es s (.ready b c v)) (hchk : ldw be s.mem (L.node (!b) c) = v)
      (hs : Step T s M .user s') (hN : L.Nice T be fl ⟨s, M, .user, s'⟩)
      (hp : ldw be s'.mem L.ptr = L.base (!b)) (hc : L.cpus c') :
      Mgr T L be fl M m0 (⟨s, M, .user, s'⟩ :: es) s' (.called (!b) c')
  | fence {es0 es : List (Ev n)} {sb se : State n} {b : Bool} {c : BitVec 32}
      (h : Mgr T L be fl M m0 es0 sb (.called b c)) (hb : BarrierFor T fl c sb es se)
      (hN : ∀ e ∈ es, L.Nice T be fl e)
      (hp : ∀ e ∈ es, e.lab = .user → ldw be e.s'.mem L.ptr = ldw be e.s.mem L.ptr) :
      Mgr T L be fl M m0 (es ++ es0) se (.fenced b c)
  | read {es : List (Ev n)} {s : State n} {b : Bool} {c : BitVec 32}
      (h : Mgr T L be fl M m0 es s (.fenced b c)) :
      Mgr T L be fl M m0 es s (.ready b c (ldw be s.mem (L.node (!b) c)))

/-- The list `b` has been active since the barrier for CPU `c`, or from the beginning. -/
def Since (T : Nat → Site n) (L : TwoLists n) (be : Bool) (fl : Fld) (m0 : Mem n) (b : Bool)
    (c : BitVec 32) (es : List (Ev n)) (s : State n) : Prop :=
  (∃ es0 sb es1 se es2, es = es2 ++ (es1 ++ es0) ∧ Run T (init m0) es0 sb ∧ BarrierFor T fl c sb es1 se ∧
    Run T se es2 s ∧ ∀ e ∈ es2 ++ es1, ldw be e.s.mem L.ptr = L.base b) ∨
  ∀ e ∈ es, ldw be e.s.mem L.ptr = L.base b

theorem Since.step {b : Bool} {c : BitVec 32} {es : List (Ev n)} {s s' : State n} {u : Nat} {lab : Lab n}
    (h : Since T L be fl m0 b c es s) (hp : ldw be s.mem L.ptr = L.base b) (hs : Step T s u lab s') :
    Since T L be fl m0 b c (⟨s, u, lab, s'⟩ :: es) s' := by
  rcases h with ⟨es0, sb, es1, se, es2, rfl, h1, h2, h3, h4⟩ | h
  · refine .inl ⟨es0, sb, es1, se, _ :: es2, rfl, h1, h2, h3.cons hs, ?_⟩
    intro e he
    rcases List.mem_cons.1 he with rfl | he
    · exact hp
    · exact h4 e he
  · refine .inr fun e he => ?_
    rcases List.mem_cons.1 he with rfl | he
    · exact hp
    · exact h e he

/-- The pointer is not changed by the workers' instructions. -/
theorem ptr_kept (hn : 4 ≤ n) (hL : L.OK) (hm : L.Holds be m0) {s s' : State n} {es : List (Ev n)}
    (h : Run T (init m0) es s) (hN : ∀ e ∈ es, L.Nice T be fl e) {t : Nat} {lab : Lab n}
    (hs : Step T s t lab s') (hu : lab = .user → ldw be s'.mem L.ptr = ldw be s.mem L.ptr) :
    ldw be s'.mem L.ptr = ldw be s.mem L.ptr := by
  by_cases h1 : lab = .exec
  · subst h1
    obtain ⟨-, i2, i3⟩ := lists_hold hn hL hm h hN
    refine ldw_agree fun x hx => ?_
    apply Decidable.byContradiction
    intro hc
    obtain ⟨f, i, hf, -⟩ := race_store_confined hn (h.reach .init) hs hc
    have hw := (i3 t).1 f hf
    obtain ⟨b, hb⟩ := worker_store hn h i2 hf hw hs hc
    exact hL.ptr_node b _ x hw.2.1 hx hb
  · by_cases h2 : lab = .user
    · exact hu h2
    · rw [hs.mem_same h1 h2]

/-- While list `b` has been active since the barrier or from the beginning, a step does not change the
counter of the other list. -/
theorem since_stable (hn : 4 ≤ n) (hL : L.OK) (hm : L.Holds be m0) {s s' : State n} {es : List (Ev n)}
    (h : Run T (init m0) es s) (hN : ∀ e ∈ es, L.Nice T be fl e) {b : Bool} {c : BitVec 32}
    (hcpu : L.cpus c) (hS : Since T L be fl m0 b c es s) (hp : ldw be s.mem L.ptr = L.base b) {u : Nat}
    {lab : Lab n} (hs : Step T s u lab s') (hne : L.Nice T be fl ⟨s, u, lab, s'⟩) :
    ldw be s'.mem (L.node (!b) c) = ldw be s.mem (L.node (!b) c) := by
  rcases hS with ⟨es0, sb, es1, se, es2, rfl, h1, h2, h3, h4⟩ | hS
  · have a1 := inactive_list_stable hn hL hm h1 hcpu h2 h3 hN h4
    have a2 := inactive_list_stable hn hL hm h1 hcpu h2 (h3.cons hs)
      (by
        intro e he
        rcases List.mem_cons.1 he with rfl | he
        · exact hne
        · exact hN e he)
      (by
        intro e he
        rcases List.mem_cons.1 he with rfl | he
        · exact hp
        · exact h4 e he)
    rw [a2, a1]
  · by_cases hl : lab = .exec
    · subst hl
      obtain ⟨-, i2, i3⟩ := lists_hold hn hL hm h hN
      refine ldw_agree fun a ha => ?_
      apply Decidable.byContradiction
      intro hc
      have hR := h.reach (m0 := m0) .init
      obtain ⟨f, i, hf, hpc, hz, hon, -⟩ := race_store_confined hn hR hs hc
      obtain ⟨⟨inc, hop⟩, w2, rfl, -⟩ := (i3 u).1 f hf
      obtain ⟨hp6, hst⟩ := deref_store hn hR hf hop hs hc
      have hev : ((init m0 : State n).th u).ev < (s.th u).ev := by
        obtain ⟨q1, q2⟩ := h.steady u
        apply Decidable.byContradiction
        intro hlt
        have := (q2 (by omega)).1 hon.run
        simp [init, thread0] at this
      obtain ⟨e, k1, B, rfl, k2⟩ := (deref_loaded hn .init h (P := (· = L.base b)) hS rfl hop hf hon.run
        hon.reg (.inr (by rw [hpc]; exact hz)) hev).2.2 hp6
      rw [k2, (i2 e k1).heads b _ w2] at hst
      refine hL.node_node _ _ _ _ a hcpu w2 (fun h => ?_) ha hst
      cases b <;> simp at h
    · by_cases h2 : lab = .user
      · exact ldw_agree fun a ha => hne.nodes h2 _ c a hcpu ha
      · rw [hs.mem_same hl h2]

/-- What holds in each phase. -/
def MPhase.Inv (T : Nat → Site n) (L : TwoLists n) (be : Bool) (fl : Fld) (m0 : Mem n) (es : List (Ev n))
    (s : State n) : MPhase n → Prop
  | .ready b c v => L.cpus c ∧ ldw be s.mem L.ptr = L.base b ∧ Since T L be fl m0 b c es s ∧
      ldw be s.mem (L.node (!b) c) = v
  | .called b c => L.cpus c ∧ ldw be s.mem L.ptr = L.base b
  | .fenced b c => L.cpus c ∧ ldw be s.mem L.ptr = L.base b ∧ Since T L be fl m0 b c es s

theorem Mgr.inv (hn : 4 ≤ n) (hL : L.OK) (hm : L.Holds be m0) (ha : ldw be m0 L.ptr = L.base false)
    (hz : ∀ b c, L.cpus c → ldw be m0 (L.node b c) = 0#(8 * n)) {M : Nat} {es : List (Ev n)}
    {s : State n} {p : MPhase n} (h : Mgr T L be fl M m0 es s p) :
    Run T (init m0) es s ∧ (∀ e ∈ es, L.Nice T be fl e) ∧ p.Inv T L be fl m0 es s := by
  induction h with
  | start hc => exact ⟨.nil, by simp, hc, ha, .inr (by simp), hz _ _ hc⟩
  | @step es s s' p u lab h hs hN hp ih =>
    obtain ⟨i1, i2, i3⟩ := ih
    have hk := ptr_kept hn hL hm i1 i2 hs hp
    refine ⟨i1.cons hs, ?_, ?_⟩
    · intro e he
      rcases List.mem_cons.1 he with rfl | he
      · exact hN
      · exact i2 e he
    · cases p with
      | ready b c v =>
        obtain ⟨j1, j2, j3, j4⟩ := i3
        exact ⟨j1, by rw [hk]; exact j2, j3.step j2 hs, by
          rw [since_stable hn hL hm i1 i2 j1 j3 j2 hs hN]; exact j4⟩
      | called b c => exact ⟨i3.1, by rw [hk]; exact i3.2⟩
      | fenced b c =>
        obtain ⟨j1, j2, j3⟩ := i3
        exact ⟨j1, by rw [hk]; exact j2, j3.step j2 hs⟩
  | @switch es s s' b c c' v h hchk hs hN hp hc ih =>
    obtain ⟨i1, i2, -⟩ := ih
    refine ⟨i1.cons hs, ?_, hc, hp⟩
    intro e he
    rcases List.mem_cons.1 he with rfl | he
    · exact hN
    · exact i2 e he
  | @fence es0 es sb se b c h hb hN hp ih =>
    obtain ⟨i1, i2, i3, i4⟩ := ih
    have key : ∀ {es : List (Ev n)} {s : State n}, Run T sb es s → (∀ e ∈ es, L.Nice T be fl e) →
        (∀ e ∈ es, e.lab = .user → ldw be e.s'.mem L.ptr = ldw be e.s.mem L.ptr) →
        ldw be s.mem L.ptr = L.base b ∧ ∀ e ∈ es, ldw be e.s.mem L.ptr = L.base b := by
      intro es s h
      induction h with
      | nil => intro _ _; exact ⟨i4, by simp⟩
      | @cons es s s' u lab h hs ih =>
        intro hN hp
        have hN' : ∀ e ∈ es, L.Nice T be fl e := fun e he => hN e (List.mem_cons_of_mem _ he)
        obtain ⟨k1, k2⟩ := ih hN' fun e he => hp e (List.mem_cons_of_mem _ he)
        have hk := ptr_kept hn hL hm (i1.trans h) (by
          intro e he
          rcases List.mem_append.1 he with he | he
          · exact hN' e he
          · exact i2 e he) hs (hp _ (List.mem_cons_self ..))
        refine ⟨by rw [hk]; exact k1, fun e he => ?_⟩
        rcases List.mem_cons.1 he with rfl | he
        · exact k1
        · exact k2 e he
    obtain ⟨k1, k2⟩ := key hb.run hN hp
    refine ⟨i1.trans hb.run, ?_, i3, k1, .inl ⟨es0, sb, es, se, [], rfl, i1, hb, .nil, k2⟩⟩
    intro e he
    rcases List.mem_append.1 he with he | he
    · exact hN e he
    · exact i2 e he
  | read h ih =>
    obtain ⟨i1, i2, j1, j2, j3⟩ := ih
    exact ⟨i1, i2, j1, j2, j3, rfl⟩

/-- **C95, the manager's comparisons.**  Whenever the manager compares a counter of the inactive list with
the value it expects, at whatever moment of whatever iteration, they are equal: the test never prints
"Membarrier test failed". -/
theorem membarrier_test_passes (hn : 4 ≤ n) (hL : L.OK) (hm : L.Holds be m0)
    (ha : ldw be m0 L.ptr = L.base false) (hz : ∀ b c, L.cpus c → ldw be m0 (L.node b c) = 0#(8 * n))
    {M : Nat} {es : List (Ev n)} {s : State n} {b : Bool} {c : BitVec 32} {v : W n}
    (h : Mgr T L be fl M m0 es s (.ready b c v)) : ldw be s.mem (L.node (!b) c) = v :=
  (h.inv hn hL hm ha hz).2.2.2.2.2

end Verif.Rseq
