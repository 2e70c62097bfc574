import Verif.RseqFence
import Verif.RseqRaceProps
import Verif.RseqOwn
/-
C62: switching a pointer that critical sections dereference, followed by a barrier
(tests/param_test.c:1405-1629, `test_membarrier`).
-/

namespace Verif.Rseq

variable {n : Nat} {T : Nat → Site n} {m0 : Mem n}

/-- `sys_membarrier(MEMBARRIER_CMD_PRIVATE_EXPEDITED_RSEQ, MEMBARRIER_CMD_FLAG_CPU, c)`, called in state
`sb` and back in state `se` after the events `es` (latest first): at some instant in between, the kernel's
interrupt handler has CPU `c`, so no thread of the process executes there; a thread that was interrupted
returns through `Step.resume`.  (With errno ENXIO, there is no such CPU and no thread on it.) -/
def Barrier (T : Nat → Site n) (c : BitVec 32) (sb : State n) (es : List (Ev n)) (se : State n) : Prop :=
  ∃ es1 x es2, es = es2 ++ es1 ∧ Run T sb es1 x ∧ Run T x es2 se ∧
    ∀ t, (x.th t).run = true → (x.th t).kcpu ≠ c

/-- The barrier for sections that compare the field `fl` with `c`: on CPU `c`, or, as there is none for a
concurrency id (param_test.c:337-347), on all CPUs. -/
def BarrierFor (T : Nat → Site n) (fl : Fld) (c : BitVec 32) (sb : State n) (es : List (Ev n))
    (se : State n) : Prop :=
  match fl with
  | .cpuId => Barrier T c sb es se
  | .mmCid => ∀ k, Barrier T k sb es se

/-- A thread that is running on CPU `c` after the barrier has been interrupted since the barrier began, and
the section it is in began later. -/
theorem barrier_aux (hn : 4 ≤ n) {sb se s : State n} {es es' : List (Ev n)} {fl : Fld} {c : BitVec 32}
    (h0 : AnyReach T m0 sb) (hb : BarrierFor T fl c sb es se) (h : Run T se es' s) {t : Nat}
    (hon : On t fl c s) :
    ∃ es1 x es2, es = es2 ++ es1 ∧ Run T sb es1 x ∧ AnyReach T m0 x ∧ Run T x (es' ++ es2) s ∧
      (x.th t).ev < (s.th t).ev := by
  have key : ∀ k, (s.th t).kcpu = k → Barrier T k sb es se → ∃ es1 x es2, es = es2 ++ es1 ∧
      Run T sb es1 x ∧ AnyReach T m0 x ∧ Run T x (es' ++ es2) s ∧ (x.th t).ev < (s.th t).ev := by
    rintro k hk ⟨es1, x, es2, h1, h2, h3, h4⟩
    have hr := h3.trans h
    refine ⟨es1, x, es2, h1, h2, h2.reach h0, hr, ?_⟩
    obtain ⟨q1, q2⟩ := hr.steady t
    apply Decidable.byContradiction
    intro hlt
    obtain ⟨r1, r2, -⟩ := q2 (by omega)
    exact h4 t (r1 hon.run) (by rw [← r2, hk])
  cases fl with
  | cpuId => exact key c hon.kv hb
  | mmCid => exact key _ rfl (hb _)

/-- **C62.** After the barrier, a thread between CPU check and commit of a section for CPU `c` has executed
the whole section so far, from the store of the descriptor on, after the barrier began, without being
interrupted. -/
theorem barrier_restarts (hn : 4 ≤ n) {sb se s : State n} {es es' : List (Ev n)}
    (h0 : AnyReach T m0 sb) {t : Nat} {f : Frame n} (hb : BarrierFor T f.fld f.cpu sb es se)
    (h : Run T se es' s) (hrun : (s.th t).run = true) (ht : (s.th t).top = some f)
    (hz : zone (T f.pid).prog f.l.pc = .body) :
    ∃ es1 e es2, es' ++ es = es1 ++ e :: es2 ∧ StoresCs T t f e ∧
      ∀ e' ∈ es1, e'.who = t → e'.lab = .exec := by
  have hR : AnyReach T m0 s := by
    have : ∃ es, Run T sb es s := by
      have : ∃ es1 x es2, Run T sb es1 x ∧ Run T x es2 se := by
        cases hf : f.fld <;> rw [hf] at hb
        · obtain ⟨es1, x, es2, -, h1, h2, -⟩ := hb; exact ⟨es1, x, es2, h1, h2⟩
        · obtain ⟨es1, x, es2, -, h1, h2, -⟩ := hb 0#32; exact ⟨es1, x, es2, h1, h2⟩
      obtain ⟨es1, x, es2, h1, h2⟩ := this
      exact ⟨_, (h1.trans h2).trans h⟩
    exact this.choose_spec.reach h0
  have hpc : ∃ i, f.l.pc = .at i := by
    cases hp : f.l.pc with
    | «at» i => exact ⟨i, rfl⟩
    | ret r => rw [hp] at hz; simp [zone] at hz
  obtain ⟨i, hp⟩ := hpc
  have hon := (race_commit_on_cpu hn hR hrun ht hp (by rw [← hp]; exact hz)).1
  obtain ⟨es1, x, es2, h1, h2, h3, h4, h5⟩ := barrier_aux hn h0 hb h hon
  obtain ⟨a, e, b, k1, k2, k3⟩ := h4.section hn h3 ht hrun hon.reg (.inr hz) h5
  exact ⟨a, e, b ++ es1, by rw [h1, ← List.append_assoc, k1]; simp, k2, k3⟩

/-! ### The pointer switch -/

/-- **C62, pointer switch.** In state `sb` the manager has made `*ptr` point to `B`, nobody changes `*ptr`
afterwards, and the barrier for CPU `c` has returned in state `se`.  Every byte that a
`rseq_load_add_load_load_add_store__ptr` on `ptr` for CPU `c` modifies from then on is in the word whose
address was in `B + off` at some moment after `sb`: nothing reached through the old pointer is
modified. -/
theorem barrier_pointer_switch (hn : 4 ≤ n) {sb se s s' : State n} {es es' : List (Ev n)} {t : Nat}
    {f : Frame n} {ptr off inc B : W n} (h0 : AnyReach T m0 sb)
    (hb : BarrierFor T f.fld f.cpu sb es se) (h : Run T se es' s)
    (hB : ∀ e ∈ es' ++ es, ldw (T f.pid).be e.s.mem ptr = B) (ht : (s.th t).top = some f)
    (hop : f.op = .addLoadLoadAddStore ptr off inc) (hs : Step T s t .exec s') {a : W n}
    (ha : s'.mem a ≠ s.mem a) :
    ∃ e ∈ es' ++ es, InWord (ldw (T f.pid).be e.s.mem (B + off)) a := by
  have hR : AnyReach T m0 s := by
    have : ∃ es1 x es2, Run T sb es1 x ∧ Run T x es2 se := by
      cases hf : f.fld <;> rw [hf] at hb
      · obtain ⟨es1, x, es2, -, h1, h2, -⟩ := hb; exact ⟨es1, x, es2, h1, h2⟩
      · obtain ⟨es1, x, es2, -, h1, h2, -⟩ := hb 0#32; exact ⟨es1, x, es2, h1, h2⟩
    obtain ⟨es1, x, es2, h1, h2⟩ := this
    exact ((h1.trans h2).trans h).reach h0
  obtain ⟨g, i, hg, hp, hz, hon, -⟩ := race_store_confined hn hR hs ha
  rw [ht] at hg
  injection hg with hg
  subst hg
  obtain ⟨es1, x, es2, h1, h2, h3, h4, h5⟩ := barrier_aux hn h0 hb h hon
  have hsub : ∀ e ∈ es' ++ es2, e ∈ es' ++ es := by
    intro e he
    rw [h1]
    simp only [List.mem_append] at he ⊢
    rcases he with he | he
    · exact .inl he
    · exact .inr (.inl he)
  have hL := deref_loaded hn h3 h4 (P := (· = B)) (fun e he => hB e (hsub e he)) rfl hop ht hon.run hon.reg
    (.inr (by rw [hp]; exact hz)) h5
  obtain ⟨hp6, hst⟩ := deref_store hn hR ht hop hs ha
  obtain ⟨e, k1, B', hB', k2⟩ := hL.2.2 hp6
  subst hB'
  rw [k2] at hst
  exact ⟨e, hsub e k1, hst⟩

/-! ### The two lists of the test -/

/-- The data of `test_membarrier`: `args->percpu_list_ptr` at `ptr`, the two lists (`base`), the offset
`RSEQ_MEMPOOL_STRIDE * cpu + offsetof(struct percpu_list, head)`, and the address of the node that
`rseq_percpu_ptr(list, cpu)->head` points to, whose first member is `data`. -/
structure TwoLists (n : Nat) where
  ptr : W n
  base : Bool → W n
  off : BitVec 32 → W n
  node : Bool → BitVec 32 → W n
  cpus : BitVec 32 → Prop

/-- The pointer, the heads and the nodes are different objects. -/
structure TwoLists.OK (L : TwoLists n) : Prop where
  ptr_node : ∀ b c x, L.cpus c → InWord L.ptr x → ¬ InWord (L.node b c) x
  head_node : ∀ b c b' c' x, L.cpus c → L.cpus c' → InWord (L.base b + L.off c) x →
    ¬ InWord (L.node b' c') x
  node_node : ∀ b c b' c' x, L.cpus c → L.cpus c' → ¬ (b = b' ∧ c = c') → InWord (L.node b c) x →
    ¬ InWord (L.node b' c') x

/-- The heads point to the nodes, and one of the lists is active. -/
structure TwoLists.Holds (L : TwoLists n) (be : Bool) (m : Mem n) : Prop where
  heads : ∀ b c, L.cpus c → ldw be m (L.base b + L.off c) = L.node b c
  active : ∃ b, ldw be m L.ptr = L.base b

/-- A worker's call (param_test.c:1435-1440). -/
def TwoLists.Worker (L : TwoLists n) (T : Nat → Site n) (be : Bool) (fl : Fld) (f : Frame n) : Prop :=
  (∃ inc, f.op = .addLoadLoadAddStore L.ptr (L.off f.cpu) inc) ∧ L.cpus f.cpu ∧ (T f.pid).be = be ∧
    f.fld = fl

/-- What threads do: call helpers as the workers do; other code changes neither heads nor nodes, and
stores nothing but the lists' addresses into the pointer. -/
structure TwoLists.Nice (L : TwoLists n) (T : Nat → Site n) (be : Bool) (fl : Fld) (e : Ev n) : Prop where
  call : ∀ f, e.lab = .invoke f → L.Worker T be fl f
  heads : e.lab = .user → ∀ b c a, L.cpus c → InWord (L.base b + L.off c) a → e.s'.mem a = e.s.mem a
  nodes : e.lab = .user → ∀ b c a, L.cpus c → InWord (L.node b c) a → e.s'.mem a = e.s.mem a
  ptr : e.lab = .user → ∃ b, ldw be e.s'.mem L.ptr = L.base b

/-- The state in which the threads start. -/
abbrev init (m0 : Mem n) : State n := { mem := m0, th := fun _ => thread0 }

theorem Step.mem_same {s s' : State n} {t : Nat} {lab : Lab n} (h : Step T s t lab s') (h1 : lab ≠ .exec)
    (h2 : lab ≠ .user) : s'.mem = s.mem := by
  cases h <;> first | rfl | exact absurd rfl h1 | exact absurd rfl h2

variable {L : TwoLists n} {be : Bool} {fl : Fld}

/-- Where a worker's call stores. -/
theorem worker_store (hn : 4 ≤ n) {s s' : State n} {es : List (Ev n)} (h : Run T (init m0) es s)
    (hH : ∀ e ∈ es, L.Holds be e.s.mem) {t : Nat} {f : Frame n} (ht : (s.th t).top = some f)
    (hw : L.Worker T be fl f) (hs : Step T s t .exec s') {a : W n} (ha : s'.mem a ≠ s.mem a) :
    ∃ b, InWord (L.node b f.cpu) a := by
  obtain ⟨⟨inc, hop⟩, hcpu, rfl, -⟩ := hw
  have h0 : AnyReach T m0 (init m0) := .init
  have hR := h.reach h0
  obtain ⟨g, i, hg, hp, hz, hon, -⟩ := race_store_confined hn hR hs ha
  rw [ht] at hg
  injection hg with hg
  subst hg
  obtain ⟨hp6, hst⟩ := deref_store hn hR ht hop hs ha
  have hev : ((init m0 : State n).th t).ev < (s.th t).ev := by
    obtain ⟨q1, q2⟩ := h.steady t
    apply Decidable.byContradiction
    intro hlt
    have := (q2 (by omega)).1 hon.run
    simp [init, thread0] at this
  obtain ⟨e, k1, B, ⟨b, rfl⟩, k2⟩ := (deref_loaded hn h0 h (P := fun B => ∃ b, B = L.base b)
    (fun e he => (hH e he).active) rfl hop ht hon.run hon.reg (.inr (by rw [hp]; exact hz)) hev).2.2 hp6
  rw [k2, (hH e k1).heads b _ hcpu] at hst
  exact ⟨b, hst⟩

theorem lists_hold (hn : 4 ≤ n) (hL : L.OK) (hm : L.Holds be m0) {s : State n} {es : List (Ev n)}
    (h : Run T (init m0) es s) (hN : ∀ e ∈ es, L.Nice T be fl e) :
    L.Holds be s.mem ∧ (∀ e ∈ es, L.Holds be e.s.mem) ∧ AllFrames (fun _ f => L.Worker T be fl f) s := by
  have hP : ArgsOnly (fun _ (f : Frame n) => L.Worker T be fl f) := by
    intro t f g h1 h2 h3 h4 ⟨a, b, c, d⟩
    exact ⟨by rw [← h3, ← h4]; exact a, by rw [← h3]; exact b, by rw [← h1]; exact c, by rw [← h2]; exact d⟩
  induction h with
  | nil => exact ⟨hm, by simp, AllFrames.init _⟩
  | @cons es s s' u lab h hs ih =>
    obtain ⟨i1, i2, i3⟩ := ih fun e he => hN e (List.mem_cons_of_mem _ he)
    have hne := hN _ (List.mem_cons_self ..)
    refine ⟨?_, ?_, i3.step hP hs fun f hf => hne.call f hf⟩
    · by_cases h1 : lab = .exec
      · subst h1
        have key : ∀ v, (∀ b c x, L.cpus c → InWord v x → ¬ InWord (L.node b c) x) →
            ldw be s'.mem v = ldw be s.mem v := by
          intro v hv
          refine ldw_agree fun x hx => ?_
          apply Decidable.byContradiction
          intro hc
          obtain ⟨f, i, hf, -⟩ := race_store_confined hn (h.reach .init) hs hc
          have hw := (i3 u).1 f hf
          obtain ⟨b, hb⟩ := worker_store hn h i2 hf hw hs hc
          exact hv b _ x hw.2.1 hx hb
        refine ⟨fun b c hc => ?_, ?_⟩
        · rw [key _ fun b' c' x hc' hx => hL.head_node b c b' c' x hc hc' hx]
          exact i1.heads b c hc
        · rw [key _ hL.ptr_node]
          exact i1.active
      · by_cases h2 : lab = .user
        · refine ⟨fun b c hc => ?_, hne.ptr h2⟩
          rw [ldw_agree fun x hx => hne.heads h2 b c x hc hx]
          exact i1.heads b c hc
        · rw [hs.mem_same h1 h2]; exact i1
    · intro e he
      rcases List.mem_cons.1 he with rfl | he
      · exact i1
      · exact i2 e he

theorem BarrierFor.run {c : BitVec 32} {sb se : State n} {es : List (Ev n)}
    (h : BarrierFor T fl c sb es se) : Run T sb es se := by
  cases fl
  · obtain ⟨es1, x, es2, rfl, h1, h2, -⟩ := h; exact h1.trans h2
  · obtain ⟨es1, x, es2, rfl, h1, h2, -⟩ := h 0#32; exact h1.trans h2

/-- **C62, the test's assertion** ("Cpu A should now only modify list_b, so the values in list_a should be
stable"). From the initial state the threads act as in the test; in state `sb` list `b` is active and
remains so; the barrier for CPU `c` returns in `se`.  In every later state the other list's counter of CPU
`c` is what it was in `se`. -/
theorem inactive_list_stable (hn : 4 ≤ n) (hL : L.OK) (hm : L.Holds be m0) {sb se s : State n}
    {es0 es es' : List (Ev n)} (h0 : Run T (init m0) es0 sb) {c : BitVec 32} (hcpu : L.cpus c)
    (hb : BarrierFor T fl c sb es se) (h : Run T se es' s)
    (hN : ∀ e ∈ es' ++ (es ++ es0), L.Nice T be fl e) {b : Bool}
    (hB : ∀ e ∈ es' ++ es, ldw be e.s.mem L.ptr = L.base b) :
    ldw be s.mem (L.node (!b) c) = ldw be se.mem (L.node (!b) c) := by
  refine ldw_agree fun a ha => ?_
  induction h with
  | nil => rfl
  | @cons es' s s' u lab h hs ih =>
    have hN' : ∀ e ∈ es' ++ (es ++ es0), L.Nice T be fl e := fun e he => hN e (List.mem_cons_of_mem _ he)
    have hB' : ∀ e ∈ es' ++ es, ldw be e.s.mem L.ptr = L.base b := fun e he => hB e (List.mem_cons_of_mem _ he)
    rw [← ih hN' hB']
    have hne := hN _ (List.mem_cons_self ..)
    by_cases h1 : lab = .exec
    · subst h1
      apply Decidable.byContradiction
      intro hc
      have hrun := (h0.trans hb.run).trans h
      have hR0 : AnyReach T m0 sb := h0.reach .init
      obtain ⟨-, i2, i3⟩ := lists_hold hn hL hm hrun hN'
      obtain ⟨f, i, hf, -⟩ := race_store_confined hn (hrun.reach .init) hs hc
      have hw := (i3 u).1 f hf
      by_cases hfc : f.cpu = c
      · obtain ⟨⟨inc, hop⟩, w2, rfl, rfl⟩ := hw
        obtain ⟨e, k1, k2⟩ := barrier_pointer_switch hn hR0 (by rw [hfc]; exact hb) h hB' hf hop hs hc
        have k1' : e ∈ es' ++ (es ++ es0) := by
          simp only [List.mem_append] at k1 ⊢
          rcases k1 with k1 | k1
          · exact .inl k1
          · exact .inr (.inl k1)
        rw [(i2 e k1').heads b _ w2] at k2
        refine hL.node_node _ _ _ _ a hcpu w2 (fun h => ?_) ha k2
        cases b <;> simp at h
      · obtain ⟨b', hb'⟩ := worker_store hn hrun i2 hf hw hs hc
        exact hL.node_node _ _ _ _ a hcpu hw.2.1 (fun h => hfc h.2.symm) ha hb'
    · by_cases h2 : lab = .user
      · exact hne.nodes h2 _ c a hcpu ha
      · rw [hs.mem_same h1 h2]

end Verif.Rseq
