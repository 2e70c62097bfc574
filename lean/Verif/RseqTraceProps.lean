import Verif.RseqTraceCall
/-
C87: what a helper does when other threads race with it on its data.

C35 says that an undisturbed helper computes the pseudo-code's function of the memory.  Here the other
threads may change any memory at any moment.  Then the helper is no function of one memory any more, but it
still executes the pseudo-code: `Op.tree` (`RseqTree.lean`), access by access, each on the memory of its
moment, all of them on the requested CPU.
-/

namespace Verif.Rseq

variable {n : Nat} {T : Nat → Site n} {m0 : Mem n} {t d : Nat} {f0 : Frame n} {sb s0 s1 : State n}
  {es : List (Ev n)} {r : Int}

/-- **C87.** The accesses of a complete call, in an execution with arbitrary steps of all threads, are the
accesses of a path through the pseudo-code, in its order (`memcpy` in some order of the bytes).  If the call
returns 0 or 1, the path ends where the pseudo-code returns this value; if it returns -1, the path does not
reach the end of a success. -/
theorem race_trace (hn : 4 ≤ n) (h : RaceCall T m0 t d f0 sb s0 es s1 r) :
    ∃ ord as rest, IsOrder f0.op ord ∧ Trace (T f0.pid).prog.be t d f0.fld f0.cpu es as ∧
      Runs (f0.op.tree (rereads (T f0.pid).arch) ord) as rest ∧
      (r = 0 ∨ r = 1 → rest = .ret r) ∧ (r = -1 → rest ≠ .ret 0) := by
  obtain ⟨h1, h2, h3, -, -⟩ := invoke_frame h.begin_
  obtain ⟨hR1, f, hf, hcf⟩ := RCall.tf hn (h.reach.step h.begin_)
    (by rw [frameAt_top (by rw [h2]; exact h.depth.symm)]; exact h1) h3 h.mid
  rw [frameAt_top h.top.symm] at hf
  obtain ⟨g, hg, hr⟩ := h.ret
  rw [hf] at hg
  injection hg with hg
  subst hg
  obtain ⟨as, rest, g1, g2, g3⟩ := hcf.at_
  refine ⟨_, as, rest, order_ok _ _, g1, g2, ?_⟩
  rcases g3 with ⟨q, σ, env, hq, hG, hR, rfl⟩ | ⟨hz, hne⟩
  · have := good_ret (by omega) hG (by rw [← hR.pc]; exact hr) env
    exact ⟨fun h01 => this.2 (by rcases h01 with rfl | rfl <;> decide), this.1⟩
  · rw [hr] at hz
    have : r = -1 := by rcases hz with hz | hz <;> simpa [zone] using hz
    exact ⟨fun h01 => by subst this; simp at h01, fun _ => hne⟩

/-- Except for the pop helper of aarch64, riscv and ppc, the tree is the pseudo-code as it stands. -/
theorem tree_once (hre : rereads (T f0.pid).arch = true → f0.op.kind ≠ .cbeqStoreAddLoadStore)
    (ord : List (W n)) : f0.op.tree (rereads (T f0.pid).arch) ord = f0.op.tree false ord := by
  cases hr : rereads (T f0.pid).arch with
  | false => rfl
  | true =>
    have := hre hr
    cases hop : f0.op <;> rw [hop] at this <;> first | rfl | exact absurd rfl this

/-- **C87** for the pseudo-code as it stands. -/
theorem race_trace_pseudocode (hn : 4 ≤ n) (h : RaceCall T m0 t d f0 sb s0 es s1 r)
    (hre : rereads (T f0.pid).arch = true → f0.op.kind ≠ .cbeqStoreAddLoadStore) :
    ∃ ord as rest, IsOrder f0.op ord ∧ Trace (T f0.pid).prog.be t d f0.fld f0.cpu es as ∧
      Runs (f0.op.tree false ord) as rest ∧
      (r = 0 ∨ r = 1 → rest = .ret r) ∧ (r = -1 → rest ≠ .ret 0) := by
  obtain ⟨ord, as, rest, h1, h2, h3, h4⟩ := race_trace hn h
  rw [tree_once hre] at h3
  exact ⟨ord, as, rest, h1, h2, h3, h4⟩

/-! ### Consequences -/

/-- The event of an access. -/
theorem Trace.event {be : Bool} {fld : Fld} {cpu : BitVec 32} {as : List (Acc n)}
    (h : Trace be t d fld cpu es as) {a : Acc n} (ha : a ∈ as) :
    ∃ e ∈ es, Own t d e ∧ On t fld cpu e.s ∧ ∃ as1, a ∈ as1 ∧ Does be e.s.mem as1 e.s'.mem := by
  induction h with
  | nil => cases ha
  | skip he h ih =>
    obtain ⟨e, h1, h2⟩ := ih ha
    exact ⟨e, List.mem_cons_of_mem _ h1, h2⟩
  | @own e es as as1 he hd ho h ih =>
    rcases List.mem_append.1 ha with ha | ha
    · obtain ⟨e, h1, h2⟩ := ih ha
      exact ⟨e, List.mem_cons_of_mem _ h1, h2⟩
    · refine ⟨e, List.mem_cons_self, he, ho ?_, as1, ha, hd⟩
      intro h0; rw [h0] at ha; cases ha

theorem Does.load {be : Bool} {m m' : Mem n} {as : List (Acc n)} (h : Does be m as m') {a x : W n}
    (ha : .ldw a x ∈ as) : ldw be m a = x := by
  cases h with
  | none => cases ha
  | one h => cases List.mem_singleton.1 ha; exact h.1
  | rmw h h' =>
    rcases List.mem_cons.1 ha with ha | ha
    · cases ha; exact h.1
    · cases List.mem_singleton.1 ha

theorem Does.store {be : Bool} {m m' : Mem n} {as : List (Acc n)} (h : Does be m as m') {a x : W n}
    (ha : .stw a x ∈ as) : m' = stw be m a x := by
  cases h with
  | none => cases ha
  | one h => cases List.mem_singleton.1 ha; exact h
  | rmw h h' =>
    rcases List.mem_cons.1 ha with ha | ha
    · cases ha
    · cases List.mem_singleton.1 ha; exact h'

theorem Does.loadB {be : Bool} {m m' : Mem n} {as : List (Acc n)} (h : Does be m as m') {a : W n} {b : Byte}
    (ha : .ldb a b ∈ as) : m a = b := by
  cases h with
  | none => cases ha
  | one h => cases List.mem_singleton.1 ha; exact h.1
  | rmw h h' =>
    rcases List.mem_cons.1 ha with ha | ha
    · cases ha
    · cases List.mem_singleton.1 ha

theorem Does.storeB {be : Bool} {m m' : Mem n} {as : List (Acc n)} (h : Does be m as m') {a : W n} {b : Byte}
    (ha : .stb a b ∈ as) : m' = stb1 m a b := by
  cases h with
  | none => cases ha
  | one h => cases List.mem_singleton.1 ha; exact h
  | rmw h h' =>
    rcases List.mem_cons.1 ha with ha | ha
    · cases ha
    · cases List.mem_singleton.1 ha

theorem Trace.load {be : Bool} {fld : Fld} {cpu : BitVec 32} {as : List (Acc n)}
    (h : Trace be t d fld cpu es as) {a x : W n} (ha : .ldw a x ∈ as) :
    ∃ e ∈ es, Own t d e ∧ On t fld cpu e.s ∧ ldw be e.s.mem a = x := by
  obtain ⟨e, h1, h2, h3, as1, h4, h5⟩ := h.event ha
  exact ⟨e, h1, h2, h3, h5.load h4⟩

theorem Trace.store {be : Bool} {fld : Fld} {cpu : BitVec 32} {as : List (Acc n)}
    (h : Trace be t d fld cpu es as) {a x : W n} (ha : .stw a x ∈ as) :
    ∃ e ∈ es, Own t d e ∧ On t fld cpu e.s ∧ e.s'.mem = stw be e.s.mem a x := by
  obtain ⟨e, h1, h2, h3, as1, h4, h5⟩ := h.event ha
  exact ⟨e, h1, h2, h3, h5.store h4⟩

theorem Trace.loadB {be : Bool} {fld : Fld} {cpu : BitVec 32} {as : List (Acc n)}
    (h : Trace be t d fld cpu es as) {a : W n} {b : Byte} (ha : .ldb a b ∈ as) :
    ∃ e ∈ es, Own t d e ∧ On t fld cpu e.s ∧ e.s.mem a = b := by
  obtain ⟨e, h1, h2, h3, as1, h4, h5⟩ := h.event ha
  exact ⟨e, h1, h2, h3, h5.loadB h4⟩

theorem Trace.storeB {be : Bool} {fld : Fld} {cpu : BitVec 32} {as : List (Acc n)}
    (h : Trace be t d fld cpu es as) {a : W n} {b : Byte} (ha : .stb a b ∈ as) :
    ∃ e ∈ es, Own t d e ∧ On t fld cpu e.s ∧ e.s'.mem = stb1 e.s.mem a b := by
  obtain ⟨e, h1, h2, h3, as1, h4, h5⟩ := h.event ha
  exact ⟨e, h1, h2, h3, h5.storeB h4⟩

theorem runs_ret {r r' : Int} {as : List (Acc n)} (h : Runs (.ret r) as (.ret r')) : as = [] ∧ r = r' := by
  cases h; exact ⟨rfl, rfl⟩

theorem runs_ldw {a : W n} {k : W n → Tree n} {as : List (Acc n)} {r : Int}
    (h : Runs (.ldw a k) as (.ret r)) : ∃ x as', as = .ldw a x :: as' ∧ Runs (k x) as' (.ret r) := by
  cases h with
  | ldw h => exact ⟨_, _, rfl, h⟩

theorem runs_stw {a x : W n} {k : Tree n} {as : List (Acc n)} {r : Int}
    (h : Runs (.stw a x k) as (.ret r)) : ∃ as', as = .stw a x :: as' ∧ Runs k as' (.ret r) := by
  cases h with
  | stw h => exact ⟨_, rfl, h⟩

theorem runs_copy {dst src : W n} {k : Tree n} {r : Int} : ∀ {ord : List (W n)} {as : List (Acc n)},
    Runs (copyTree dst src k ord) as (.ret r) →
      (∀ o ∈ ord, ∃ b, .ldb (src + o) b ∈ as ∧ .stb (dst + o) b ∈ as) ∧
      ∃ as1 as2, as = as1 ++ as2 ∧ Runs k as2 (.ret r) := by
  intro ord
  induction ord with
  | nil => intro as h; exact ⟨by simp, [], as, rfl, h⟩
  | cons o ord ih =>
    intro as h
    cases h with
    | ldb h =>
      cases h with
      | stb h =>
        obtain ⟨h1, as1, as2, rfl, h3⟩ := ih h
        rename_i b
        refine ⟨?_, .ldb (src + o) b :: .stb (dst + o) b :: as1, as2, rfl, h3⟩
        intro o' ho'
        rcases List.mem_cons.1 ho' with rfl | ho'
        · exact ⟨b, by simp, by simp⟩
        · obtain ⟨b', h4, h5⟩ := h1 o' ho'
          exact ⟨b', by simp [h4], by simp [h5]⟩

/-- **C87.** A call that returns 1 has found its comparison failed: at one of its instructions, on the
requested CPU, the pseudo-code applied to the memory of that moment returns 1. -/
theorem race_one_observed (hn : 4 ≤ n) (h : RaceCall T m0 t d f0 sb s0 es s1 1) :
    ∃ e ∈ es, Own t d e ∧ On t f0.fld f0.cpu e.s ∧
      pseudo (T f0.pid).prog.be f0.op e.s.mem = (1, e.s.mem) := by
  obtain ⟨ord, as, rest, -, h2, h3, h4, -⟩ := race_trace hn h
  rw [h4 (.inr rfl)] at h3
  cases hop : f0.op with
  | cbneStore v e w =>
    rw [hop] at h3
    simp only [Op.tree] at h3
    replace h3 := runs_ldw h3
    obtain ⟨x, as', rfl, h3⟩ := h3
    split at h3
    · rename_i hx
      obtain ⟨ev, g1, g2, g3, g4⟩ := h2.load List.mem_cons_self
      exact ⟨ev, g1, g2, g3, by simp only [pseudo]; rw [g4, if_pos hx]⟩
    · replace h3 := runs_stw h3
      obtain ⟨_, -, h3⟩ := h3
      exact absurd (runs_ret h3).2 (by decide)
  | cbeqStoreAddLoadStore v e o l =>
    rw [hop] at h3
    simp only [Op.tree] at h3
    replace h3 := runs_ldw h3
    obtain ⟨x, as', rfl, h3⟩ := h3
    split at h3
    · rename_i hx
      obtain ⟨ev, g1, g2, g3, g4⟩ := h2.load List.mem_cons_self
      exact ⟨ev, g1, g2, g3, by simp only [pseudo]; rw [g4, if_pos hx]⟩
    · have key : ∀ x as, ¬ Runs (popTree v o l x) as (.ret 1) := by
        intro x as h3
        replace h3 := runs_stw h3
        obtain ⟨_, -, h3⟩ := h3
        replace h3 := runs_ldw h3
        obtain ⟨_, _, -, h3⟩ := h3
        replace h3 := runs_stw h3
        obtain ⟨_, -, h3⟩ := h3
        exact absurd (runs_ret h3).2 (by decide)
      split at h3
      · replace h3 := runs_ldw h3
        obtain ⟨_, _, -, h3⟩ := h3
        exact absurd h3 (key _ _)
      · exact absurd h3 (key _ _)
  | addStore v c =>
    rw [hop] at h3
    simp only [Op.tree] at h3
    replace h3 := runs_ldw h3
    obtain ⟨x, as', rfl, h3⟩ := h3
    replace h3 := runs_stw h3
    obtain ⟨_, -, h3⟩ := h3
    exact absurd (runs_ret h3).2 (by decide)
  | addLoadLoadAddStore p o i =>
    rw [hop] at h3
    simp only [Op.tree] at h3
    replace h3 := runs_ldw h3
    obtain ⟨x, as', rfl, h3⟩ := h3
    replace h3 := runs_ldw h3
    obtain ⟨_, _, -, h3⟩ := h3
    replace h3 := runs_ldw h3
    obtain ⟨_, _, -, h3⟩ := h3
    replace h3 := runs_stw h3
    obtain ⟨_, -, h3⟩ := h3
    exact absurd (runs_ret h3).2 (by decide)
  | cbneCbneStore v e v2 e2 w =>
    rw [hop] at h3
    simp only [Op.tree] at h3
    replace h3 := runs_ldw h3
    obtain ⟨x, as', rfl, h3⟩ := h3
    split at h3
    · rename_i hx
      obtain ⟨ev, g1, g2, g3, g4⟩ := h2.load List.mem_cons_self
      exact ⟨ev, g1, g2, g3, by simp only [pseudo]; rw [g4, if_pos hx]⟩
    · replace h3 := runs_ldw h3
      obtain ⟨y, as2, rfl, h3⟩ := h3
      split at h3
      · rename_i hy
        obtain ⟨ev, g1, g2, g3, g4⟩ := h2.load (List.mem_cons_of_mem _ List.mem_cons_self)
        refine ⟨ev, g1, g2, g3, ?_⟩
        simp only [pseudo]
        rw [g4, if_pos hy]
        split <;> rfl
      · replace h3 := runs_stw h3
        obtain ⟨_, -, h3⟩ := h3
        exact absurd (runs_ret h3).2 (by decide)
  | cbneStoreStore v e v2 w2 w =>
    rw [hop] at h3
    simp only [Op.tree] at h3
    replace h3 := runs_ldw h3
    obtain ⟨x, as', rfl, h3⟩ := h3
    split at h3
    · rename_i hx
      obtain ⟨ev, g1, g2, g3, g4⟩ := h2.load List.mem_cons_self
      exact ⟨ev, g1, g2, g3, by simp only [pseudo]; rw [g4, if_pos hx]⟩
    · replace h3 := runs_stw h3
      obtain ⟨_, -, h3⟩ := h3
      replace h3 := runs_stw h3
      obtain ⟨_, -, h3⟩ := h3
      exact absurd (runs_ret h3).2 (by decide)
  | cbneMemcpyStore v e dst src len w =>
    rw [hop] at h3
    simp only [Op.tree] at h3
    replace h3 := runs_ldw h3
    obtain ⟨x, as', rfl, h3⟩ := h3
    split at h3
    · rename_i hx
      obtain ⟨ev, g1, g2, g3, g4⟩ := h2.load List.mem_cons_self
      exact ⟨ev, g1, g2, g3, by simp only [pseudo]; rw [g4, if_pos hx]⟩
    · replace h3 := runs_copy h3
      obtain ⟨-, _, _, -, h3⟩ := h3
      replace h3 := runs_stw h3
      obtain ⟨_, -, h3⟩ := h3
      exact absurd (runs_ret h3).2 (by decide)

/-- **C87.** The comparisons of a call that returns 0 have been found true, at instructions of the call on
the requested CPU. -/
theorem race_zero_compared (hn : 4 ≤ n) (h : RaceCall T m0 t d f0 sb s0 es s1 0) :
    (∀ v x, f0.op.val .v = some v → f0.op.val .expect = some x →
      ∃ e ∈ es, Own t d e ∧ On t f0.fld f0.cpu e.s ∧ ldw (T f0.pid).prog.be e.s.mem v = x) ∧
    (∀ v x, f0.op.val .v2 = some v → f0.op.val .expect2 = some x →
      ∃ e ∈ es, Own t d e ∧ On t f0.fld f0.cpu e.s ∧ ldw (T f0.pid).prog.be e.s.mem v = x) ∧
    (∀ v x, f0.op.val .v = some v → f0.op.val .expectnot = some x →
      ∃ e ∈ es, Own t d e ∧ On t f0.fld f0.cpu e.s ∧ ldw (T f0.pid).prog.be e.s.mem v ≠ x) := by
  obtain ⟨ord, as, rest, -, h2, h3, h4, -⟩ := race_trace hn h
  rw [h4 (.inl rfl)] at h3
  have no : ∀ {as : List (Acc n)}, ¬ Runs (.ret 1) as (.ret 0) := fun h => absurd (runs_ret h).2 (by decide)
  have one : ∀ {v x : W n} {k : Tree n} {as : List (Acc n)},
      Trace (T f0.pid).prog.be t d f0.fld f0.cpu es as →
      Runs (.ldw v fun r1 => if r1 ≠ x then .ret 1 else k) as (.ret 0) →
      ∃ e ∈ es, Own t d e ∧ On t f0.fld f0.cpu e.s ∧ ldw (T f0.pid).prog.be e.s.mem v = x := by
    intro v x k as h2 h3
    replace h3 := runs_ldw h3
    obtain ⟨y, as', rfl, h3⟩ := h3
    split at h3
    · exact absurd h3 no
    · rename_i hx
      rw [← Decidable.not_not.1 hx]
      exact h2.load List.mem_cons_self
  cases hop : f0.op with
  | cbneCbneStore v e v2 e2 w =>
    rw [hop] at h3
    refine ⟨?_, ?_, ?_⟩ <;> intro v0 x0 hv hx <;> cases hv <;> cases hx
    · exact one h2 h3
    · simp only [Op.tree] at h3
      replace h3 := runs_ldw h3
      obtain ⟨y, as', rfl, h3⟩ := h3
      split at h3
      · exact absurd h3 no
      · replace h3 := runs_ldw h3
        obtain ⟨y, as2, rfl, h3⟩ := h3
        split at h3
        · exact absurd h3 no
        · rename_i hy
          rw [← Decidable.not_not.1 hy]
          exact h2.load (List.mem_cons_of_mem _ List.mem_cons_self)
  | cbeqStoreAddLoadStore v e o l =>
    rw [hop] at h3
    refine ⟨?_, ?_, ?_⟩ <;> intro v0 x0 hv hx <;> cases hv <;> cases hx
    simp only [Op.tree] at h3
    replace h3 := runs_ldw h3
    obtain ⟨y, as', rfl, h3⟩ := h3
    by_cases hx : y = e
    · rw [if_pos hx] at h3; exact absurd h3 no
    · obtain ⟨ev, g1, g2, g3, g4⟩ := h2.load List.mem_cons_self
      exact ⟨ev, g1, g2, g3, by rw [g4]; exact hx⟩
  | _ =>
    rw [hop] at h3
    refine ⟨?_, ?_, ?_⟩ <;> intro v0 x0 hv hx <;> cases hv <;> cases hx <;> exact one h2 h3

/-- **C87.** A successful add stores the value it has loaded plus `count`. -/
theorem race_add (hn : 4 ≤ n) (h : RaceCall T m0 t d f0 sb s0 es s1 0) {v c : W n}
    (hop : f0.op = .addStore v c) :
    ∃ e ∈ es, Own t d e ∧ On t f0.fld f0.cpu e.s ∧ ∃ e' ∈ es, Own t d e' ∧ On t f0.fld f0.cpu e'.s ∧
      e'.s'.mem = stw (T f0.pid).prog.be e'.s.mem v (ldw (T f0.pid).prog.be e.s.mem v + c) := by
  obtain ⟨ord, as, rest, -, h2, h3, h4, -⟩ := race_trace hn h
  rw [h4 (.inl rfl), hop] at h3
  replace h3 := runs_ldw h3
  obtain ⟨x, as', rfl, h3⟩ := h3
  replace h3 := runs_stw h3
  obtain ⟨as2, rfl, h3⟩ := h3
  obtain ⟨e, g1, g2, g3, g4⟩ := h2.load List.mem_cons_self
  obtain ⟨e', k1, k2, k3, k4⟩ := h2.store (List.mem_cons_of_mem _ List.mem_cons_self)
  exact ⟨e, g1, g2, g3, e', k1, k2, k3, by rw [g4]; exact k4⟩

/-- **C87.** A successful increment through a pointer stores at an address it has loaded. -/
theorem race_deref (hn : 4 ≤ n) (h : RaceCall T m0 t d f0 sb s0 es s1 0) {p o i : W n}
    (hop : f0.op = .addLoadLoadAddStore p o i) :
    ∃ a b c, (∃ e ∈ es, Own t d e ∧ On t f0.fld f0.cpu e.s ∧ ldw (T f0.pid).prog.be e.s.mem p = a) ∧
      (∃ e ∈ es, Own t d e ∧ On t f0.fld f0.cpu e.s ∧ ldw (T f0.pid).prog.be e.s.mem (a + o) = b) ∧
      (∃ e ∈ es, Own t d e ∧ On t f0.fld f0.cpu e.s ∧ ldw (T f0.pid).prog.be e.s.mem b = c) ∧
      ∃ e ∈ es, Own t d e ∧ On t f0.fld f0.cpu e.s ∧
        e.s'.mem = stw (T f0.pid).prog.be e.s.mem b (c + i) := by
  obtain ⟨ord, as, rest, -, h2, h3, h4, -⟩ := race_trace hn h
  rw [h4 (.inl rfl), hop] at h3
  replace h3 := runs_ldw h3
  obtain ⟨a, as', rfl, h3⟩ := h3
  replace h3 := runs_ldw h3
  obtain ⟨b, as', rfl, h3⟩ := h3
  replace h3 := runs_ldw h3
  obtain ⟨c, as', rfl, h3⟩ := h3
  replace h3 := runs_stw h3
  obtain ⟨as2, rfl, h3⟩ := h3
  exact ⟨a, b, c, h2.load (by simp), h2.load (by simp), h2.load (by simp), h2.store (by simp)⟩

/-- **C87.** A successful copy stores, for every offset below `len`, a byte it has loaded from the source. -/
theorem race_copy (hn : 4 ≤ n) (h : RaceCall T m0 t d f0 sb s0 es s1 0) {v x dst src len w : W n}
    (hop : f0.op = .cbneMemcpyStore v x dst src len w) (i : Nat) (hi : i < len.toNat) :
    ∃ e ∈ es, Own t d e ∧ On t f0.fld f0.cpu e.s ∧ ∃ e' ∈ es, Own t d e' ∧ On t f0.fld f0.cpu e'.s ∧
      e'.s'.mem = fun a => if a = dst + BitVec.ofNat (8 * n) i then e.s.mem (src + BitVec.ofNat (8 * n) i)
        else e'.s.mem a := by
  obtain ⟨ord, as, rest, h1, h2, h3, h4, -⟩ := race_trace hn h
  rw [h4 (.inl rfl), hop] at h3
  rw [hop] at h1
  simp only [Op.tree] at h3
  replace h3 := runs_ldw h3
  obtain ⟨y, as', rfl, h3⟩ := h3
  split at h3
  · exact absurd (runs_ret h3).2 (by decide)
  · have hin : BitVec.ofNat (8 * n) i ∈ ord :=
      (List.Perm.mem_iff h1).2 (List.mem_map.2 ⟨i, List.mem_range.2 hi, rfl⟩)
    obtain ⟨b, g1, g2⟩ := (runs_copy h3).1 _ hin
    obtain ⟨e, k1, k2, k3, k4⟩ := h2.loadB (List.mem_cons_of_mem _ g1)
    obtain ⟨e', l1, l2, l3, l4⟩ := h2.storeB (List.mem_cons_of_mem _ g2)
    exact ⟨e, k1, k2, k3, e', l1, l2, l3, by rw [l4, k4]; rfl⟩

/-- **C88**, for the architectures that load the head once: a successful pop hands out a value other than
`expectnot` that it has loaded from the head, and stores into the head the word it has loaded from that
element.  Missing: aarch64, riscv and ppc, where it is false (`pop_race_excluded`). -/
theorem race_pop_partial (hn : 4 ≤ n) (h : RaceCall T m0 t d f0 sb s0 es s1 0) {v x o l : W n}
    (hop : f0.op = .cbeqStoreAddLoadStore v x o l) (hre : rereads (T f0.pid).arch = false) :
    ∃ a b, a ≠ x ∧
      (∃ e ∈ es, Own t d e ∧ On t f0.fld f0.cpu e.s ∧ ldw (T f0.pid).prog.be e.s.mem v = a) ∧
      (∃ e ∈ es, Own t d e ∧ On t f0.fld f0.cpu e.s ∧ e.s'.mem = stw (T f0.pid).prog.be e.s.mem l a) ∧
      (∃ e ∈ es, Own t d e ∧ On t f0.fld f0.cpu e.s ∧ ldw (T f0.pid).prog.be e.s.mem (a + o) = b) ∧
      ∃ e ∈ es, Own t d e ∧ On t f0.fld f0.cpu e.s ∧ e.s'.mem = stw (T f0.pid).prog.be e.s.mem v b := by
  obtain ⟨ord, as, rest, -, h2, h3, h4, -⟩ := race_trace hn h
  rw [h4 (.inl rfl), hop, hre] at h3
  simp only [Op.tree, Bool.false_eq_true, if_false] at h3
  replace h3 := runs_ldw h3
  obtain ⟨a, as', rfl, h3⟩ := h3
  split at h3
  · exact absurd (runs_ret h3).2 (by decide)
  · rename_i hx
    replace h3 := runs_stw h3
    obtain ⟨as', rfl, h3⟩ := h3
    replace h3 := runs_ldw h3
    obtain ⟨b, as', rfl, h3⟩ := h3
    replace h3 := runs_stw h3
    obtain ⟨as', rfl, h3⟩ := h3
    exact ⟨a, b, hx, h2.load (by simp), h2.store (by simp), h2.load (by simp), h2.store (by simp)⟩

/-- The pop helper of the other architectures: the value handed out comes from a second load, which is not
compared with `expectnot`. -/
theorem race_pop_reread (hn : 4 ≤ n) (h : RaceCall T m0 t d f0 sb s0 es s1 0) {v x o l : W n}
    (hop : f0.op = .cbeqStoreAddLoadStore v x o l) (hre : rereads (T f0.pid).arch = true) :
    ∃ a0 a b, a0 ≠ x ∧
      (∃ e ∈ es, Own t d e ∧ On t f0.fld f0.cpu e.s ∧ ldw (T f0.pid).prog.be e.s.mem v = a0) ∧
      (∃ e ∈ es, Own t d e ∧ On t f0.fld f0.cpu e.s ∧ ldw (T f0.pid).prog.be e.s.mem v = a) ∧
      (∃ e ∈ es, Own t d e ∧ On t f0.fld f0.cpu e.s ∧ e.s'.mem = stw (T f0.pid).prog.be e.s.mem l a) ∧
      (∃ e ∈ es, Own t d e ∧ On t f0.fld f0.cpu e.s ∧ ldw (T f0.pid).prog.be e.s.mem (a + o) = b) ∧
      ∃ e ∈ es, Own t d e ∧ On t f0.fld f0.cpu e.s ∧ e.s'.mem = stw (T f0.pid).prog.be e.s.mem v b := by
  obtain ⟨ord, as, rest, -, h2, h3, h4, -⟩ := race_trace hn h
  rw [h4 (.inl rfl), hop, hre] at h3
  simp only [Op.tree, if_true] at h3
  replace h3 := runs_ldw h3
  obtain ⟨a0, as', rfl, h3⟩ := h3
  split at h3
  · exact absurd (runs_ret h3).2 (by decide)
  · rename_i hx
    replace h3 := runs_ldw h3
    obtain ⟨a, as', rfl, h3⟩ := h3
    replace h3 := runs_stw h3
    obtain ⟨as', rfl, h3⟩ := h3
    replace h3 := runs_ldw h3
    obtain ⟨b, as', rfl, h3⟩ := h3
    replace h3 := runs_stw h3
    obtain ⟨as', rfl, h3⟩ := h3
    exact ⟨a0, a, b, hx, h2.load (by simp), h2.load (by simp), h2.store (by simp), h2.load (by simp),
      h2.store (by simp)⟩

end Verif.Rseq
