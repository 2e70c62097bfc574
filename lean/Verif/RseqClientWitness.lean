import Verif.RseqWitness
import Verif.RseqCounterEx
import Verif.RseqLockEx
import Verif.RseqStackProps
import Verif.RseqStackEx
import Verif.RseqBufProps
import Verif.RseqBufEx
import Verif.RseqFenceEx
import Verif.RseqOrderProps
import Verif.RseqUnloadProps
import Verif.RseqPoolProps
import Verif.RseqTraceEx
/-
The theorems about the test programs' data structures, applied to executions of two threads: their
hypotheses are met.
-/

namespace Verif.Rseq

/-- `counters_exact` -/
example : ∃ s, exCReach s 7#64 ∧ lsum (fun c => ldw false s.mem (exCtr c)) exCpus =
    lsum (fun c => ldw false (fun _ => 0#8) (exCtr c)) exCpus + 7#64 + tsum (fun t => pend (s.th t)) 2 := by
  obtain ⟨s, h, -⟩ := ex_counters
  exact ⟨s, h, (counters_exact (by decide) (fun _ => rfl) (by decide) exCtr_apart h).2.2⟩

/-- A lock that is held was returned by a call. -/
theorem exLReach.returned {s : State 8} {own : Owners} (h : exLReach s own) :
    (∀ c, own c = none) ∨ ∃ s1 own1 t f, exLReach s1 own1 ∧
      frameAt (s1.th t) (s1.th t).saved.length = some f ∧ f.l.pc = .ret 0 := by
  induction h with
  | init => exact .inl fun _ => rfl
  | @step s s' own t lab h hs hi hu ih =>
    rcases acquire_cases own s t lab with h1 | ⟨-, f, h2, h3, -⟩
    · rw [h1]; exact ih
    · exact .inr ⟨s, own, t, f, h, by simp [frameAt, h2], h3⟩
  | unlock c h hc ho hs ih =>
    rcases ih with h1 | h1
    · rw [h1 c] at ho; cases ho
    · exact .inr h1

theorem lock_be (_ : Nat) : lockSite.prog.be = false := rfl

theorem exLock_zero : ∀ c ∈ exCpus, ldw false (fun _ => 0#8) (exCtr c) = 0#(8 * 8) := by
  intro c hc
  simp only [exCpus, List.mem_cons, List.not_mem_nil, or_false] at hc
  rcases hc with rfl | rfl <;> rfl

/-- `lock_exclusive` -/
example : ∃ (s : State 8) (own : Owners) (t : Nat) (f : Frame 8), exLReach s own ∧
    frameAt (s.th t) (s.th t).saved.length = some f ∧ f.l.pc = .ret 0 ∧ own f.cpu = none := by
  obtain ⟨s, own, -, -, h, ho, -⟩ := ex_locks
  rcases h.returned with h1 | ⟨s1, own1, t, f, h1, h2, h3⟩
  · rw [h1] at ho; cases ho
  · exact ⟨s1, own1, t, f, h1, h2, h3,
      (lock_exclusive (by decide) lock_be exCtr_apart exLock_zero h1 h2 h3).1⟩

/-- `unlock_assertion` -/
example : ∃ (s : State 8) (own : Owners), exLReach s own ∧ own 3#32 = some (0, 0) ∧
    ldw false s.mem (exCtr 3#32) = 1#(8 * 8) := by
  obtain ⟨s, own, -, -, h, ho, -⟩ := ex_locks
  exact ⟨s, own, h, ho, (unlock_assertion (by decide) lock_be exCtr_apart exLock_zero h
    (c := 3#32) (by decide)).1 (by rw [ho]; intro e; cases e)⟩

/-- `lists_are_stacks`, `final_walk` -/
example : ∃ (s : State 8) (G : Stacks 8), exSReach s G ∧ G.stk 4#32 = [0x2000#64] ∧
    IsList false 8#64 s.mem (ldw false s.mem (listHead 4#32)) [0x2000#64] ∧
    (exK.cpus.flatMap G.stk).count 0x2100#64 = 1 := by
  obtain ⟨s, G, h, -, h4, -, ho, -⟩ := ex_list
  have h1 := (lists_are_stacks (by decide) listSites_be exK_ok exG_init h).1 4#32 (by decide)
  rw [h4] at h1
  exact ⟨s, G, h, h4, h1, (final_walk (by decide) listSites_be exK_ok exG_init h ho (by decide)
    0x2100#64).1 (.inr rfl)⟩

/-- Stacks only change by final stores. -/
theorem exSReach.committed {s : State 8} {G : Stacks 8} (h : exSReach s G) :
    G.stk = exG.stk ∨ ∃ s1 G1 t lab s2 f, exSReach s1 G1 ∧ Step listSites s1 t lab s2 ∧
      committing listSites s1 t lab = some f := by
  induction h with
  | init => exact .inl rfl
  | @step s s' G t lab h hs hi hu ih =>
    cases hc : committing listSites s t lab with
    | none => exact ih
    | some f => exact .inr ⟨s, G, t, lab, s', f, h, hs, hc⟩
  | give x t' d' h ht ho ih => exact ih

/-- `final_store_effect` -/
example : ∃ (s s' : State 8) (G : Stacks 8) (t : Nat) (lab : Lab 8) (f : Frame 8), exSReach s G ∧
    Step listSites s t lab s' ∧ committing listSites s t lab = some f ∧ f.cpu ∈ exK.cpus := by
  obtain ⟨s, G, h, -, h4, -⟩ := ex_list
  rcases h.committed with h1 | ⟨s1, G1, t, lab, s2, f, h1, h2, h3⟩
  · rw [h1] at h4; cases h4
  · exact ⟨s1, s2, G1, t, lab, f, h1, h2, h3,
      (final_store_effect (by decide) listSites_be exK_ok exG_init h1 h2 h3).1⟩

/-- `buffers_are_stacks`, `buffer_conservation` -/
example : ∃ (s : State 8) (G : Bufs 8), exBReach s G ∧
    G.pushed (wordItem (n := 8) false 0x77#64) = 2 ∧
    (ldw false s.mem 0x1000#64).toNat = 1 ∧
    (exB.cpus.flatMap G.buf).count (wordItem (n := 8) false 0x77#64) +
      G.popped (wordItem (n := 8) false 0x77#64) = (exB.cpus.flatMap exBufs.buf).count
      (wordItem (n := 8) false 0x77#64) + 2 := by
  obtain ⟨s, G, h, h3, -, -, -, hp, -⟩ := ex_buf
  have h1 := (buffers_are_stacks (by decide) bufSites_be exB_ok exBufs_init h (c := 3#32) (by decide)).1
  have h2 := buffer_conservation (by decide) bufSites_be exB_ok exBufs_init (by decide) h
    (wordItem (n := 8) false 0x77#64)
  rw [hp] at h2
  rw [h3] at h1
  exact ⟨s, G, h, hp, h1, h2⟩

/-- Buffers only change by final stores. -/
theorem exBReach.committed {s : State 8} {G : Bufs 8} (h : exBReach s G) :
    G.pushed = exBufs.pushed ∨ ∃ s1 G1 t s2 f, exBReach s1 G1 ∧ Step bufSites s1 t .exec s2 ∧
      committing bufSites s1 t .exec = some f := by
  induction h with
  | init => exact .inl rfl
  | @step s s' G t lab h hs hi hu ih =>
    cases lab with
    | exec =>
      cases hc : committing bufSites s t .exec with
      | none => simp only [bufStep, hc]; exact ih
      | some f => exact .inr ⟨s, G, t, s', f, h, hs, hc⟩
    | _ => exact ih
  | read h hr ht hc ih => exact ih

/-- `buffer_final_store`, `buffer_attempts_above` -/
example : ∃ (s s' : State 8) (G : Bufs 8) (t : Nat) (f : Frame 8), exBReach s G ∧
    Step bufSites s t .exec s' ∧ committing bufSites s t .exec = some f ∧ f.cpu ∈ exB.cpus ∧
    ∀ a, s'.mem a ≠ s.mem a → ∀ c ∈ exB.cpus, InWord (exB.offset c) a → c = f.cpu := by
  obtain ⟨s, G, h, -, -, -, -, hp, -⟩ := ex_buf
  rcases h.committed with h1 | ⟨s1, G1, t, s2, f, h1, h2, h3⟩
  · rw [h1] at hp; cases hp
  · refine ⟨s1, s2, G1, t, f, h1, h2, h3,
      (buffer_final_store (by decide) bufSites_be exB_ok exBufs_init h1 h2 h3).1, fun a ha c hc hi => ?_⟩
    obtain ⟨g, -, -, h5⟩ := buffer_attempts_above (by decide) bufSites_be exB_ok exBufs_init h1 h2 ha
    obtain ⟨h6, h7⟩ := h5 c hc hi
    rw [h3] at h7
    cases h7
    exact h6

/-- `inactive_list_stable` -/
example : ∃ (se s : State 8) (es' : List (Ev 8)), Run exT se es' s ∧ ctr true se ≠ ctr true s ∧
    ctr false se = 1#64 ∧ ctr false s = ctr false se := by
  obtain ⟨es0, sb, es, se, es', s, h1, h2, h3, h4, h5, h6, h7, h8, h9⟩ := ex_barrier
  have h := inactive_list_stable (by decide) exLists_ok exListMem_holds h1 (c := 3#32) (by simp [exLists])
    h2 h3 h4 (b := true) h5
  rw [Bool.not_true] at h
  exact ⟨se, s, es', h3, by rw [h7, h9]; decide, h6, h⟩

/-- A byte that changes during a run is changed by one of its events. -/
theorem Run.changed {n : Nat} {T : Nat → Site n} {s0 s : State n} {es : List (Ev n)} (h : Run T s0 es s)
    {a : W n} (ha : s.mem a ≠ s0.mem a) :
    ∃ es1 e es2, es = es1 ++ e :: es2 ∧ Run T s0 es2 e.s ∧ Step T e.s e.who e.lab e.s' ∧
      e.s'.mem a ≠ e.s.mem a := by
  induction h with
  | nil => exact absurd rfl ha
  | @cons es s s' u lab h hs ih =>
    by_cases he : s'.mem a = s.mem a
    · obtain ⟨es1, e, es2, h1, h2⟩ := ih (by rw [← he]; exact ha)
      exact ⟨_ :: es1, e, es2, by rw [h1]; rfl, h2⟩
    · exact ⟨[], ⟨s, u, lab, s'⟩, es, rfl, h, hs, he⟩

/-- After the barrier, a worker stores into the list that is active now. -/
theorem ex_after_barrier : ∃ (sb se s s' : State 8) (es es' : List (Ev 8)) (t : Nat) (f : Frame 8) (a : W 8)
    (inc : W 8),
    AnyReach exT exTwoMem sb ∧ BarrierFor exT f.fld f.cpu sb es se ∧ Run exT se es' s ∧
    (∀ e ∈ es' ++ es, ldw false e.s.mem 0x1000#64 = 0x2000#64) ∧ (s.th t).top = some f ∧
    f.op = .addLoadLoadAddStore 0x1000#64 (exLists.off f.cpu) inc ∧ Step exT s t .exec s' ∧
    s'.mem a ≠ s.mem a := by
  obtain ⟨es0, sb, es, se, es', s, h1, h2, h3, h4, h5, h6, h7, h8, h9⟩ := ex_barrier
  have hne : ∃ a, InWord (exLists.node true 3#32) a ∧ s.mem a ≠ se.mem a := by
    apply Classical.byContradiction
    intro hno
    have : ctr true s = ctr true se := by
      unfold ctr
      refine ldw_agree fun a ha => ?_
      exact Classical.byContradiction fun hx => hno ⟨a, ha, hx⟩
    rw [h7, h9] at this
    exact absurd this (by decide)
  obtain ⟨a, ha, hne⟩ := hne
  obtain ⟨es1, e, es2, he, hr, hs, hc⟩ := h3.changed hne
  have hmem : e ∈ es' := by rw [he]; simp
  have hlab : e.lab = .exec := by
    apply Classical.byContradiction
    intro hx
    by_cases hu : e.lab = .user
    · exact hc ((h4 e (by simp [hmem])).nodes hu true 3#32 a (by simp [exLists]) ha)
    · exact hc (by rw [Step.mem_same hs hx hu])
  have hrun : Run exT (init exTwoMem) (es2 ++ (es ++ es0)) e.s := (h1.trans h2.run).trans hr
  have hN : ∀ x ∈ es2 ++ (es ++ es0), exLists.Nice exT false .cpuId x := by
    intro x hx
    apply h4
    rw [he]
    simp only [List.mem_append, List.mem_cons] at hx ⊢
    rcases hx with hx | hx | hx <;> simp [hx]
  obtain ⟨-, hH, hF⟩ := lists_hold (by decide) exLists_ok exListMem_holds hrun hN
  rw [hlab] at hs
  obtain ⟨f, i, g, htop, -⟩ := exec_top hs
  have hw := (hF e.who).1 f htop
  obtain ⟨b, hb⟩ := worker_store (by decide) hrun hH htop hw hs hc
  obtain ⟨⟨inc, hop⟩, hcpu, -, hfl⟩ := hw
  have h3c : f.cpu = 3#32 := by
    apply Classical.byContradiction
    intro hx
    exact exLists_ok.node_node b f.cpu true 3#32 a hcpu (by simp [exLists]) (fun h => hx h.2) hb ha
  refine ⟨sb, se, e.s, e.s', es, es2, e.who, f, a, inc, h1.reach .init, ?_, hr, ?_, htop, hop, hs, hc⟩
  · rw [hfl, h3c]; exact h2
  · intro x hx
    refine h5 x ?_
    rw [he]
    simp only [List.mem_append, List.mem_cons] at hx ⊢
    rcases hx with hx | hx <;> simp [hx]

/-- `barrier_pointer_switch` -/
example : ∃ (s s' : State 8) (t : Nat) (f : Frame 8) (a : W 8) (e : Ev 8), (s.th t).top = some f ∧
    Step exT s t .exec s' ∧ s'.mem a ≠ s.mem a ∧
    InWord (ldw false e.s.mem (0x2000#64 + exLists.off f.cpu)) a := by
  obtain ⟨sb, se, s, s', es, es', t, f, a, inc, h0, hb, h, hB, ht, hop, hs, ha⟩ := ex_after_barrier
  obtain ⟨e, -, he⟩ := barrier_pointer_switch (by decide) h0 hb h hB ht hop hs ha
  exact ⟨s, s', t, f, a, e, ht, hs, ha, he⟩

/-- `barrier_restarts` -/
example : ∃ (s : State 8) (t : Nat) (f : Frame 8) (e : Ev 8), (s.th t).top = some f ∧
    zone (exT f.pid).prog f.l.pc = .body ∧ StoresCs exT t f e := by
  obtain ⟨sb, se, s, s', es, es', t, f, a, inc, h0, hb, h, hB, ht, hop, hs, ha⟩ := ex_after_barrier
  have hreach := h.reach (hb.run.reach h0)
  have hz : zone (exT f.pid).prog f.l.pc = .body := by
    obtain ⟨g, i, hg, hp, hz, -⟩ := race_store_confined (by decide) hreach hs ha
    rw [ht] at hg
    injection hg with hg
    subst hg
    rw [hp]; exact hz
  have hrun : (s.th t).run = true := by cases hs; assumption
  obtain ⟨es1, e, es2, -, h1, -⟩ := barrier_restarts (by decide) h0 hb h hrun ht hz
  exact ⟨s, t, f, e, ht, hz, h1⟩

/-- `release_message_passing` -/
example (arch : Arch) (p : Prog 8) (hp : program exAl false 0#64 arch exPub.kind true = some p) :
    ∃ s : OSt 8, ldw p.be s.mem (pubVar exPub) ≠ ldw p.be (fun _ => 0#8) (pubVar exPub) ∧
      ∀ a, targets exPub a → s.mem a = (pseudo p.be exPub (fun _ => 0#8)).2 a := by
  obtain ⟨s, h1, h2⟩ := ex_release arch p hp
  exact ⟨s, h2, fun a ha => release_message_passing (by decide) hp trivial (.inr rfl) trivial exPub_tidy
    (entry_setup (by decide) arch exPub 0#32) (b0 := []) (fun e he => by simp at he) h1 h2 .refl ha⟩

/-- `unload_safe`, `unload_conservative` -/
example : ∃ u : UState 8, u.gone 0 ∧ AnyReach (fun _ => exSite) exMem u.s ∧
    ∀ t, (u.s.th t).cs ≠ some 0 := by
  obtain ⟨u, h, hg⟩ := ex_unload
  exact ⟨u, hg, unload_conservative h, fun t ht => (unload_safe h t).1 0 ht hg⟩

/-- Counters only change by instructions of helpers. -/
theorem exCReach.stored {s : State 8} {R : W 8} (h : exCReach s R) {c : BitVec 32} (hc : c ∈ exCpus)
    {a : W 8} (ha : InWord (exCtr c) a) : s.mem a = 0#8 ∨ ∃ s1 R1 t s2, exCReach s1 R1 ∧
      Step (fun _ => addSite) s1 t .exec s2 ∧ s2.mem a ≠ s1.mem a := by
  induction h with
  | init => exact .inl rfl
  | @step s s' R t lab h hs ht hi hu ih =>
    by_cases he : s'.mem a = s.mem a
    · rw [he]; exact ih
    · by_cases h1 : lab = .exec
      · subst h1; exact .inr ⟨s, R, t, s', h, hs, he⟩
      · by_cases h2 : lab = .user
        · exact absurd (hu h2 c hc a ha) he
        · exact absurd (by rw [Step.mem_same hs h1 h2]) he

/-- `OReach.step_polite`: a step that changes a counter -/
example : ∃ (s s' : State 8) (t : Nat), Step (fun _ => addSite) s t .exec s' ∧ s'.mem ≠ s.mem ∧
    Polite (fun _ => addSite) s t s' := by
  obtain ⟨s, h, -, h7⟩ := ex_counters
  have hne : ∃ c ∈ exCpus, ∃ a, InWord (exCtr c) a ∧ s.mem a ≠ 0#8 := by
    apply Classical.byContradiction
    intro hno
    have hz : ∀ c ∈ exCpus, ldw false s.mem (exCtr c) = 0#(8 * 8) := by
      intro c hc
      rw [ldw_agree (m' := fun _ => 0#8) fun a ha =>
        Classical.byContradiction fun hx => hno ⟨c, hc, a, ha, hx⟩]
      exact exLock_zero c hc
    simp only [exCpus, List.mem_cons, List.not_mem_nil, or_false, forall_eq_or_imp, forall_eq] at hz
    simp only [exCpus, lsum, hz.1, hz.2] at h7
    exact absurd h7 (by decide)
  obtain ⟨c, hc, a, ha, hne⟩ := hne
  rcases h.stored hc ha with h0 | ⟨s1, R1, t, s2, h1, h2, h3⟩
  · exact absurd h0 hne
  · exact ⟨s1, s2, t, h2, fun e => h3 (by rw [e]),
      (counters_exact (be := false) (by decide) (fun _ => rfl) (by decide) exCtr_apart h1).1.step_polite
        (by decide) h2 nofun⟩

/-- `race_trace`: a call that another thread races with -/
example : ∃ (es : List (Ev 8)) (ord : List (W 8)) (as : List (Acc 8)), IsOrder racePopOp ord ∧
    Trace racePop.prog.be 0 0 .cpuId 3#32 es as ∧
    Runs (racePopOp.tree (rereads racePop.arch) ord) as (.ret 0) := by
  obtain ⟨s0, es, s1, h, -⟩ := pop_race_excluded
  obtain ⟨ord, as, rest, h1, h2, h3, h4, -⟩ := race_trace (by decide) h
  exact ⟨es, ord, as, h1, h2, by rw [h4 (.inl rfl)] at h3; exact h3⟩

end Verif.Rseq

namespace Verif.Joint

open Mempool (Config Ghost Hist cpuAddr InRegion exRobust)

attribute [local instance] le64

/-- Items that helpers use change only by helpers. -/
theorem Reach.stored {T : Nat → Rseq.Site wb} {Q : Nat → Rseq.Frame wb → Prop} {c : Config} {uaf : Bool}
    {I : List Nat} {N : Nat} {g0 : Ghost} {fld : Rseq.Fld} (hg : Hist c uaf g0) (hI : ∀ p ∈ I, p ∈ g0.live)
    (hQ : ∀ t f, Q t f → UsesItems fld c I (T f.pid).prog.be f)
    {s : Rseq.State wb} {g : Ghost} {R : Rseq.W wb} (h : Reach T Q c uaf I N g0 s g R) {k : Nat}
    {a : Rseq.W wb} (hk : k < c.ncpu) (ha : InItem c I k a.toNat) :
    s.mem a = view c g0.s.mem a ∨ ∃ s1 g1 R1 t lab s2, Reach T Q c uaf I N g0 s1 g1 R1 ∧
      Rseq.Step T s1 t lab s2 ∧ lab ≠ .user ∧ s2.mem a ≠ s1.mem a := by
  induction h with
  | init => exact .inl rfl
  | @helper s s' g g' R t lab h hs ht hl hi hst hm ih =>
    by_cases he : s'.mem a = s.mem a
    · rw [he]; exact ih
    · exact .inr ⟨s, g, R, t, lab, s', h, hs, hl, he⟩
  | @pool s g g' R t h hr htop ht hp ih =>
    obtain ⟨h1, h2, h3, -⟩ := joint_sound hg hI hQ h
    rcases ih with ih | ih
    · left
      rw [← ih, h3]
      exact hp.keeps h1 h2 hk ha
    · exact .inr ih

/-- `joint_confined`: an instruction of the counter's increment -/
example : ∃ (p : Nat) (s s' : Rseq.State wb) (t : Nat) (lab : Rseq.Lab wb) (a : Rseq.W wb) (f : Rseq.Frame wb),
    Rseq.Step (fun _ => exCtrSite) s t lab s' ∧ s'.mem a ≠ s.mem a ∧ (s.th t).top = some f ∧
    InItem exRobust [p] f.cpu.toNat a.toNat := by
  obtain ⟨g, p, s0, s, g', hg, hz, h, hq, -, -, h5⟩ := ex_joint
  have henv : Mempool.EnvOK exRobust g.s.pool.ranges g.s.mem { base := none } :=
    Mempool.ex_env ..
  have hg0 : Hist exRobust false ⟨s0, p :: g.live, g.freed.erase p⟩ :=
    ⟨hg.valid, .step _ _ hg.reach (.mallocPtr _ _ _ p s0 henv hz), hg.mode⟩
  have hp : p ∈ (⟨s0, p :: g.live, g.freed.erase p⟩ : Ghost).live := List.mem_cons_self
  have hI : ∀ q ∈ [p], q ∈ (⟨s0, p :: g.live, g.freed.erase p⟩ : Ghost).live :=
    fun q hq => by rw [List.mem_singleton.1 hq]; exact hp
  have hQ : ∀ t f, Increments .cpuId exRobust p 8 t f →
      UsesItems .cpuId exRobust [p] ((fun _ => exCtrSite : Nat → Rseq.Site wb) f.pid).prog.be f :=
    fun t f h => h.uses hg0 hp (by decide)
  have z := pool_counter_exact (T := fun _ => exCtrSite) (be := false) (fun _ => rfl) hg henv hz (by decide)
    (off := 8) (by decide) (fld := .cpuId) (N := 1) .init (fun t _ => ⟨rfl, rfl⟩)
  obtain ⟨-, -, hm, -⟩ := joint_sound hg0 hI hQ h
  have hne : ∃ k ∈ cpus exRobust, ∃ a, Rseq.InWord (ctr exRobust p 8 k) a ∧
      s.mem a ≠ view exRobust s0.mem a := by
    apply Classical.byContradiction
    intro hno
    have e : ∀ k ∈ cpus exRobust, Rseq.ldw false (view exRobust g'.s.mem) (ctr exRobust p 8 k) =
        Rseq.ldw false (view exRobust s0.mem) (ctr exRobust p 8 k) := by
      intro k hk
      refine Rseq.ldw_agree fun a ha => ?_
      rw [← hm]
      exact Classical.byContradiction fun hx => hno ⟨k, hk, a, ha, hx⟩
    rw [Rseq.lsum_congr _ _ _ e, z] at h5
    exact absurd h5 (by decide)
  obtain ⟨k, hk, a, ha, hne⟩ := hne
  have hkn := (mem_cpus (by decide)).1 hk
  obtain ⟨o, ho, hao⟩ := inWord_ctr hg0 hp (by decide) hkn ha
  have hin : InItem exRobust [p] k.toNat a.toNat :=
    ⟨p, by simp, 8 + o, by have : wb = 8 := rfl; have : exRobust.itemLen = 16 := (by decide); omega, hao⟩
  rcases h.stored hg0 hI hQ hkn hin with h1 | ⟨s1, g1, R1, t, lab, s2, h1, h2, h3, h4⟩
  · exact absurd h1 hne
  · obtain ⟨f, k1, -, -, -, k2⟩ := joint_confined hg0 hI hQ h1 h2 h3 a h4
    exact ⟨p, s1, s2, t, lab, a, f, h2, h4, k1, k2⟩

end Verif.Joint
