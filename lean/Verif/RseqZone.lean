import Verif.RseqExec
/-
The six zones of a helper program, a static check of its control flow, and what follows from the check
together with `Implements`.
-/

namespace Verif.Rseq

variable {n : Nat}

/-- Zones of a helper: set-up, CPU check, body (up to and including the final store), after the commit,
abort handler, comparison-failed exit; or left with a value. -/
inductive Z
  | pre | chk | body | post | abt | neq | done (r : Int) | out
  deriving DecidableEq

/-- Zone of a position. -/
def zone (p : Prog n) : Pc → Z
  | .ret r => .done r
  | .at i =>
    if i < p.start then .pre else if i < p.chk then .chk else if i < p.commit then .body
    else if i < p.abort then .post else if i < p.ne then .abt
    else if i < p.code.length then .neq else .out

def isCs : Instr → Bool
  | .cs _ => true
  | _ => false

def isStore : Instr → Bool
  | .st .. | .stl .. | .addM .. => true
  | _ => false

/-- Static check of the instruction at index `i`. -/
def instrOK (p : Prog n) (i : Nat) (ins : Instr) : Bool :=
  if i < p.start then
    memFree ins && (cpuFree ins && (decide (succs i ins = [.at (i + 1)]) && (isCs ins == (i + 1 == p.start))))
  else if i < p.chk then
    memFree ins && (!isCs ins && (succs i ins).all fun t => zone p t == .abt || t == .at (i + 1))
  else if i < p.commit then
    cpuFree ins && (!isCs ins && (if i + 1 = p.commit then isStore ins
      else !isRmw ins && (succs i ins).all fun t => zone p t == .body || zone p t == .neq || t == .ret 1))
  else if i < p.abort then
    memFree ins && (cpuFree ins && (!isCs ins && (succs i ins).all fun t => zone p t == .post || t == .ret 0))
  else if i < p.ne then
    memFree ins && (cpuFree ins && (!isCs ins && (succs i ins).all fun t => zone p t == .abt || t == .ret (-1)))
  else
    memFree ins && (cpuFree ins && (!isCs ins && (succs i ins).all fun t => zone p t == .neq || t == .ret 1))

/-- `instrOK` from index `i` on. -/
def allOK (p : Prog n) : Nat → List Instr → Bool
  | _, [] => true
  | i, ins :: r => instrOK p i ins && allOK p (i + 1) r

/-- Static check of a program. -/
def zoneOK (p : Prog n) : Bool :=
  (Nat.ble 1 p.start && (Nat.ble (p.start + 1) p.chk && (Nat.ble (p.chk + 1) p.commit &&
    (Nat.ble (p.commit + 1) p.abort && (Nat.ble (p.abort + 1) p.ne && (Nat.ble p.ne p.code.length &&
    allOK p 0 p.code))))))

set_option maxRecDepth 4000 in
/-- Every helper program passes the check. -/
theorem program_zoneOK (al : Opnd → Nat) (be : Bool) (csa : W n) (arch : Arch) (k : Kind) (rel : Bool)
    (p : Prog n) (hp : program al be csa arch k rel = some p) : zoneOK p = true := by
  cases arch <;> cases k <;> cases rel <;>
    first
      | (simp only [program, reduceCtorEq] at hp; done)
      | (simp only [program, Option.some.injEq] at hp; subst hp; rfl)

theorem allOK_get (p : Prog n) : ∀ (c : List Instr) (j i : Nat) (ins : Instr), allOK p j c = true →
    c[i]? = some ins → instrOK p (j + i) ins = true := by
  intro c
  induction c with
  | nil => intro j i ins _ h; simp at h
  | cons a r ih =>
    intro j i ins h hi
    simp only [allOK, Bool.and_eq_true] at h
    cases i with
    | zero => simp at hi; subst hi; exact h.1
    | succ i =>
      have := ih (j + 1) i ins h.2 (by simpa using hi)
      rwa [show j + 1 + i = j + (i + 1) by omega] at this

/-- What the check says, in words. -/
structure ZoneFacts (p : Prog n) : Prop where
  start1 : 1 ≤ p.start
  sc : p.start < p.chk
  cc : p.chk < p.commit
  ca : p.commit < p.abort
  an : p.abort < p.ne
  nl : p.ne ≤ p.code.length
  get : ∀ i ins, p.code[i]? = some ins → instrOK p i ins = true

theorem zoneOK_facts {p : Prog n} (h : zoneOK p = true) : ZoneFacts p := by
  simp only [zoneOK, Bool.and_eq_true] at h
  obtain ⟨a, b, c, d, e, f, g⟩ := h
  refine ⟨Nat.le_of_ble_eq_true a, Nat.le_of_ble_eq_true b, Nat.le_of_ble_eq_true c,
    Nat.le_of_ble_eq_true d, Nat.le_of_ble_eq_true e, Nat.le_of_ble_eq_true f, ?_⟩
  intro i ins hi
  have := allOK_get p p.code 0 i ins g hi
  simpa using this

section zones
variable {p : Prog n} {i : Nat} {ins : Instr}

theorem zone_pre_iff : zone p (.at i) = .pre ↔ i < p.start := by
  unfold zone; repeat' split
  all_goals simp_all

theorem zone_at_cases (Z : ZoneFacts p) :
    (zone p (.at i) = .pre ∧ i < p.start) ∨
    (zone p (.at i) = .chk ∧ p.start ≤ i ∧ i < p.chk) ∨
    (zone p (.at i) = .body ∧ p.chk ≤ i ∧ i < p.commit) ∨
    (zone p (.at i) = .post ∧ p.commit ≤ i ∧ i < p.abort) ∨
    (zone p (.at i) = .abt ∧ p.abort ≤ i ∧ i < p.ne) ∨
    (zone p (.at i) = .neq ∧ p.ne ≤ i ∧ i < p.code.length) ∨
    (zone p (.at i) = .out ∧ p.code.length ≤ i) := by
  obtain ⟨h1, h2, h3, h4, h5, h6, -⟩ := Z
  unfold zone
  by_cases a1 : i < p.start
  · simp [a1]
  by_cases a2 : i < p.chk
  · simp [a1, a2]; omega
  by_cases a3 : i < p.commit
  · simp [a1, a2, a3]; omega
  by_cases a4 : i < p.abort
  · simp [a1, a2, a3, a4]; omega
  by_cases a5 : i < p.ne
  · simp [a1, a2, a3, a4, a5]; omega
  by_cases a6 : i < p.code.length
  · simp [a1, a2, a3, a4, a5, a6]; omega
  · simp [a1, a2, a3, a4, a5, a6]; omega

variable {fv : BitVec 32} {l : LSt n} {m : Mem n}

theorem pre_step (Z : ZoneFacts p) (hc : p.code[i]? = some ins) (hz : zone p (.at i) = .pre) :
    memFree ins = true ∧ cpuFree ins = true ∧ (isCs ins = true ↔ i + 1 = p.start) ∧
    (exec p fv i ins l m).1.pc = .at (i + 1) ∧
    zone p (.at (i + 1)) = (if i + 1 = p.start then .chk else .pre) := by
  have h := Z.get i ins hc
  have hi : i < p.start := by rcases zone_at_cases Z (i := i) with h|h|h|h|h|h|h <;> simp_all
  simp only [instrOK, hi, if_true, Bool.and_eq_true, decide_eq_true_eq, beq_iff_eq] at h
  obtain ⟨h1, h2, h3, h4⟩ := h
  refine ⟨h1, h2, ?_, ?_, ?_⟩
  · rw [h4]; simp
  · have := exec_succs p fv i ins l m
    rw [h3] at this; simpa using this
  · split
    · rename_i hs
      rcases zone_at_cases Z (i := i + 1) with h|h|h|h|h|h|h <;> have := Z.sc <;> have := Z.cc <;>
        have := Z.ca <;> have := Z.an <;> have := Z.nl <;> first | exact h.1 | omega
    · rw [zone_pre_iff]; omega

theorem chk_step (Z : ZoneFacts p) (hc : p.code[i]? = some ins) (hz : zone p (.at i) = .chk) :
    memFree ins = true ∧ isCs ins = false ∧
    (zone p (exec p fv i ins l m).1.pc = .abt ∨
     zone p (exec p fv i ins l m).1.pc = .chk ∨ zone p (exec p fv i ins l m).1.pc = .body) := by
  have h := Z.get i ins hc
  have hi : p.start ≤ i ∧ i < p.chk := by
    rcases zone_at_cases Z (i := i) with h|h|h|h|h|h|h <;> simp_all
  simp only [instrOK, show ¬ i < p.start by omega, hi.2, if_true, if_false, Bool.and_eq_true,
    Bool.not_eq_true', List.all_eq_true, Bool.or_eq_true, beq_iff_eq] at h
  obtain ⟨h1, h2, h3⟩ := h
  refine ⟨h1, h2, ?_⟩
  rcases h3 _ (exec_succs p fv i ins l m) with h | h
  · exact .inl h
  · rw [h]
    rcases zone_at_cases Z (i := i + 1) with h|h|h|h|h|h|h <;> have := Z.sc <;> have := Z.cc <;>
      have := Z.ca <;> have := Z.an <;> have := Z.nl <;>
      first | exact .inr (.inl h.1) | exact .inr (.inr h.1) | omega

theorem body_step (Z : ZoneFacts p) (hc : p.code[i]? = some ins) (hz : zone p (.at i) = .body) :
    cpuFree ins = true ∧ isCs ins = false ∧
    (i + 1 = p.commit → isStore ins = true ∧ zone p (exec p fv i ins l m).1.pc = .post) ∧
    (i + 1 ≠ p.commit → isRmw ins = false ∧
      (zone p (exec p fv i ins l m).1.pc = .body ∨ zone p (exec p fv i ins l m).1.pc = .neq ∨
       zone p (exec p fv i ins l m).1.pc = .done 1)) := by
  have h := Z.get i ins hc
  have hi : p.chk ≤ i ∧ i < p.commit := by
    rcases zone_at_cases Z (i := i) with h|h|h|h|h|h|h <;> simp_all
  have := Z.sc
  simp only [instrOK, show ¬ i < p.start by omega, show ¬ i < p.chk by omega, hi.2, if_true, if_false,
    Bool.and_eq_true, Bool.not_eq_true'] at h
  obtain ⟨h1, h2, h3⟩ := h
  refine ⟨h1, h2, ?_, ?_⟩
  · intro he
    rw [if_pos he] at h3
    refine ⟨h3, ?_⟩
    have hs := exec_succs p fv i ins l m
    have : (exec p fv i ins l m).1.pc = .at (i + 1) := by
      cases ins <;> simp_all [isStore, succs]
    rw [this, he]
    rcases zone_at_cases Z (i := p.commit) with h|h|h|h|h|h|h <;> have := Z.cc <;>
      have := Z.ca <;> have := Z.an <;> have := Z.nl <;> first | exact h.1 | omega
  · intro he
    rw [if_neg he] at h3
    simp only [Bool.and_eq_true, Bool.not_eq_true', List.all_eq_true, Bool.or_eq_true, beq_iff_eq] at h3
    refine ⟨h3.1, ?_⟩
    rcases h3.2 _ (exec_succs p fv i ins l m) with (h | h) | h
    · exact .inl h
    · exact .inr (.inl h)
    · exact .inr (.inr (by rw [h]; rfl))

theorem post_step (Z : ZoneFacts p) (hc : p.code[i]? = some ins) (hz : zone p (.at i) = .post) :
    memFree ins = true ∧ isCs ins = false ∧ (zone p (exec p fv i ins l m).1.pc = .post ∨
      zone p (exec p fv i ins l m).1.pc = .done 0) := by
  have h := Z.get i ins hc
  have hi : p.commit ≤ i ∧ i < p.abort := by
    rcases zone_at_cases Z (i := i) with h|h|h|h|h|h|h <;> simp_all
  have := Z.sc; have := Z.cc
  simp only [instrOK, show ¬ i < p.start by omega, show ¬ i < p.chk by omega,
    show ¬ i < p.commit by omega, hi.2, if_true, if_false,
    Bool.and_eq_true, Bool.not_eq_true', List.all_eq_true, Bool.or_eq_true, beq_iff_eq] at h
  refine ⟨h.1, h.2.2.1, ?_⟩
  rcases h.2.2.2 _ (exec_succs p fv i ins l m) with h | h
  · exact .inl h
  · exact .inr (by rw [h]; rfl)

theorem abt_step (Z : ZoneFacts p) (hc : p.code[i]? = some ins) (hz : zone p (.at i) = .abt) :
    memFree ins = true ∧ isCs ins = false ∧ (zone p (exec p fv i ins l m).1.pc = .abt ∨
      zone p (exec p fv i ins l m).1.pc = .done (-1)) := by
  have h := Z.get i ins hc
  have hi : p.abort ≤ i ∧ i < p.ne := by
    rcases zone_at_cases Z (i := i) with h|h|h|h|h|h|h <;> simp_all
  have := Z.sc; have := Z.cc; have := Z.ca
  simp only [instrOK, show ¬ i < p.start by omega, show ¬ i < p.chk by omega,
    show ¬ i < p.commit by omega, show ¬ i < p.abort by omega, hi.2, if_true, if_false,
    Bool.and_eq_true, Bool.not_eq_true', List.all_eq_true, Bool.or_eq_true, beq_iff_eq] at h
  refine ⟨h.1, h.2.2.1, ?_⟩
  rcases h.2.2.2 _ (exec_succs p fv i ins l m) with h | h
  · exact .inl h
  · exact .inr (by rw [h]; rfl)

theorem neq_step (Z : ZoneFacts p) (hc : p.code[i]? = some ins) (hz : zone p (.at i) = .neq) :
    memFree ins = true ∧ isCs ins = false ∧ (zone p (exec p fv i ins l m).1.pc = .neq ∨
      zone p (exec p fv i ins l m).1.pc = .done 1) := by
  have h := Z.get i ins hc
  have hi : p.ne ≤ i := by
    rcases zone_at_cases Z (i := i) with h|h|h|h|h|h|h <;> simp_all
  have := Z.sc; have := Z.cc; have := Z.ca; have := Z.an
  simp only [instrOK, show ¬ i < p.start by omega, show ¬ i < p.chk by omega,
    show ¬ i < p.commit by omega, show ¬ i < p.abort by omega, show ¬ i < p.ne by omega, if_false,
    Bool.and_eq_true, Bool.not_eq_true', List.all_eq_true, Bool.or_eq_true, beq_iff_eq] at h
  refine ⟨h.1, h.2.2.1, ?_⟩
  rcases h.2.2.2 _ (exec_succs p fv i ins l m) with h | h
  · exact .inl h
  · exact .inr (by rw [h]; rfl)

theorem zone_abort (Z : ZoneFacts p) : zone p (.at p.abort) = .abt := by
  rcases zone_at_cases Z (i := p.abort) with h|h|h|h|h|h|h <;> have := Z.cc <;> have := Z.sc <;>
      have := Z.ca <;> have := Z.an <;> have := Z.nl <;> first | exact h.1 | omega

/-- A position in any zone but `out` and `done` has an instruction. -/
theorem zone_code (Z : ZoneFacts p) (h : zone p (.at i) ≠ .out) : ∃ ins, p.code[i]? = some ins := by
  have hi : i < p.code.length := by
    rcases zone_at_cases Z (i := i) with h|h|h|h|h|h|h <;> have := Z.cc <;> have := Z.sc <;>
      have := Z.ca <;> have := Z.an <;> have := Z.nl <;> first | omega | simp_all
  exact ⟨_, List.getElem?_eq_getElem hi⟩

end zones

/-! ### Consequences for replays -/

/-- One uninterrupted step from the zones after the CPU check stays in them. -/
theorem after_check_step {p : Prog n} (Z : ZoneFacts p) (fv : BitVec 32) (s : LSt n × Mem n)
    (h : zone p s.1.pc = .body ∨ zone p s.1.pc = .post ∨ zone p s.1.pc = .neq ∨
      zone p s.1.pc = .done 0 ∨ zone p s.1.pc = .done 1) :
    zone p (step p fv s).1.pc = .body ∨ zone p (step p fv s).1.pc = .post ∨
      zone p (step p fv s).1.pc = .neq ∨
      zone p (step p fv s).1.pc = .done 0 ∨ zone p (step p fv s).1.pc = .done 1 := by
  obtain ⟨l, m⟩ := s
  cases hpc : l.pc with
  | ret r => simp only [step, hpc] at h ⊢; exact h
  | «at» i =>
    rw [hpc] at h
    have hno : zone p (.at i) ≠ .out := by rcases h with h|h|h|h|h <;> rw [h] <;> simp
    obtain ⟨ins, hc⟩ := zone_code Z hno
    simp only [step, hpc, hc]
    rcases h with h|h|h|h|h
    · have hb := body_step Z hc h (fv := fv) (l := l) (m := m)
      by_cases he : i + 1 = p.commit
      · exact .inr (.inl (hb.2.2.1 he).2)
      · rcases (hb.2.2.2 he).2 with h|h|h <;> simp [h]
    · rcases (post_step Z hc h (fv := fv) (l := l) (m := m)).2.2 with h|h <;> simp [h]
    · rcases (neq_step Z hc h (fv := fv) (l := l) (m := m)).2.2 with h|h <;> simp [h]
    · rcases zone_at_cases Z (i := i) with h'|h'|h'|h'|h'|h'|h' <;> simp [h] at h'
    · rcases zone_at_cases Z (i := i) with h'|h'|h'|h'|h'|h'|h' <;> simp [h] at h'

theorem after_check_run {p : Prog n} (Z : ZoneFacts p) (fv : BitVec 32) (k : Nat) (s : LSt n × Mem n)
    (h : zone p s.1.pc = .body ∨ zone p s.1.pc = .post ∨ zone p s.1.pc = .neq ∨
      zone p s.1.pc = .done 0 ∨ zone p s.1.pc = .done 1) :
    zone p (run p fv k s).1.pc = .body ∨ zone p (run p fv k s).1.pc = .post ∨
      zone p (run p fv k s).1.pc = .neq ∨
      zone p (run p fv k s).1.pc = .done 0 ∨ zone p (run p fv k s).1.pc = .done 1 := by
  induction k generalizing s with
  | zero => exact h
  | succ k ih => simp only [run]; exact ih _ (after_check_step Z fv s h)

/-- After the commit: memory stays, the value is 0. -/
theorem post_run {p : Prog n} (Z : ZoneFacts p) (fv : BitVec 32) (k : Nat) (s : LSt n × Mem n)
    (h : zone p s.1.pc = .post ∨ zone p s.1.pc = .done 0) :
    (run p fv k s).2 = s.2 ∧ (zone p (run p fv k s).1.pc = .post ∨
      zone p (run p fv k s).1.pc = .done 0) := by
  induction k generalizing s with
  | zero => exact ⟨rfl, h⟩
  | succ k ih =>
    simp only [run]
    have hs : (step p fv s).2 = s.2 ∧ (zone p (step p fv s).1.pc = .post ∨
        zone p (step p fv s).1.pc = .done 0) := by
      obtain ⟨l, m⟩ := s
      cases hpc : l.pc with
      | ret r => simp only [step, hpc] at h ⊢; exact ⟨trivial, h⟩
      | «at» i =>
        rw [hpc] at h
        have hz : zone p (.at i) = .post := by
          rcases h with h | h
          · exact h
          · rcases zone_at_cases Z (i := i) with h'|h'|h'|h'|h'|h'|h' <;> simp [h] at h'
        obtain ⟨ins, hc⟩ := zone_code Z (i := i) (by rw [hz]; simp)
        simp only [step, hpc, hc]
        have hb := post_step Z hc hz (fv := fv) (l := l) (m := m)
        exact ⟨(exec_memFree hb.1 p fv i l m m).1, hb.2.2⟩
    obtain ⟨h1, h2⟩ := ih _ hs.2
    exact ⟨h1.trans hs.1, h2⟩

/-- On the comparison-failed exit: memory stays, the value is 1. -/
theorem neq_run {p : Prog n} (Z : ZoneFacts p) (fv : BitVec 32) (k : Nat) (s : LSt n × Mem n)
    (h : zone p s.1.pc = .neq ∨ zone p s.1.pc = .done 1) :
    (run p fv k s).2 = s.2 ∧ (zone p (run p fv k s).1.pc = .neq ∨
      zone p (run p fv k s).1.pc = .done 1) := by
  induction k generalizing s with
  | zero => exact ⟨rfl, h⟩
  | succ k ih =>
    simp only [run]
    have hs : (step p fv s).2 = s.2 ∧ (zone p (step p fv s).1.pc = .neq ∨
        zone p (step p fv s).1.pc = .done 1) := by
      obtain ⟨l, m⟩ := s
      cases hpc : l.pc with
      | ret r => simp only [step, hpc] at h ⊢; exact ⟨trivial, h⟩
      | «at» i =>
        rw [hpc] at h
        have hz : zone p (.at i) = .neq := by
          rcases h with h | h
          · exact h
          · rcases zone_at_cases Z (i := i) with h'|h'|h'|h'|h'|h'|h' <;> simp [h] at h'
        obtain ⟨ins, hc⟩ := zone_code Z (i := i) (by rw [hz]; simp)
        simp only [step, hpc, hc]
        have hb := neq_step Z hc hz (fv := fv) (l := l) (m := m)
        exact ⟨(exec_memFree hb.1 p fv i l m m).1, hb.2.2⟩
    obtain ⟨h1, h2⟩ := ih _ hs.2
    exact ⟨h1.trans hs.1, h2⟩

/-- If the run from `s0` passes through `s` and also returns, then the run from `s` returns the same. -/
theorem returns_through {p : Prog n} {fv : BitVec 32} {s0 s : LSt n × Mem n} {k k' : Nat} {r : Int}
    (h1 : run p fv k s0 = s) (h2 : (run p fv k' s0).1.pc = .ret r) :
    ∃ j, run p fv j s = run p fv k' s0 := by
  by_cases hk : k ≤ k'
  · exact ⟨k' - k, by rw [← h1, ← run_add]; congr 1; omega⟩
  · refine ⟨0, ?_⟩
    have : k = k' + (k - k') := by omega
    rw [← h1, this, run_add, run_ret p fv _ _ r h2]
    rfl

/-- A replay that has passed the CPU check proves that the CPU field equals the argument. -/
theorem Rep.cpu_eq {p : Prog n} {clob : List Nat} {sx : Bool} {al : Opnd → Nat} {op : Op n}
    (Z : ZoneFacts p) (hi : Implements p clob sx al op) {cpu fv : BitVec 32} {m : Mem n}
    {l0 l : LSt n} {F : W n → Prop} (hs : Setup clob sx al op cpu l0) (h : Rep p fv m l0 l F)
    (hz : zone p l.pc = .body ∨ zone p l.pc = .neq ∨ zone p l.pc = .done 1) : fv = cpu := by
  apply Decidable.byContradiction
  intro hne
  obtain ⟨k, hk⟩ := h.run
  obtain ⟨k', a, -, -⟩ := (hi cpu fv l0 m hs).2 hne
  obtain ⟨j, hj⟩ := returns_through hk a
  have := after_check_run Z fv j (l, m) (by rcases hz with h|h|h <;> simp [h])
  rw [hj, a] at this
  simp [zone] at this

/-- The commit step of a replay has exactly the effect of the pseudo-code on the current memory. -/
theorem Rep.commit {p : Prog n} {clob : List Nat} {sx : Bool} {al : Opnd → Nat} {op : Op n}
    (Z : ZoneFacts p) (hi : Implements p clob sx al op) {cpu fv : BitVec 32} {m m' : Mem n}
    {l0 l l' : LSt n} {F : W n → Prop} (hs : Setup clob sx al op cpu l0) (h : Rep p fv m l0 l F)
    {i : Nat} {ins : Instr} (hp : l.pc = .at i) (hcm : i + 1 = p.commit)
    (hc : p.code[i]? = some ins) (he : exec p fv i ins l m = (l', m')) :
    pseudo p.be op m = (0, m') := by
  have hz : zone p (.at i) = .body := by
    rcases zone_at_cases Z (i := i) with h|h|h|h|h|h|h <;> have := Z.sc <;> have := Z.cc <;>
      have := Z.ca <;> have := Z.an <;> have := Z.nl <;> first | exact h.1 | omega
  have hfv := Rep.cpu_eq Z hi hs h (by rw [hp]; exact .inl hz)
  obtain ⟨k, hk⟩ := h.run
  obtain ⟨k', a, b, -⟩ := (hi cpu fv l0 m hs).1 hfv
  have hk1 : Rseq.run p fv (k + 1) (l0, m) = (l', m') := by
    rw [run_add, hk]; simp only [Rseq.run, Rseq.step, hp, hc, he]
  obtain ⟨j, hj⟩ := returns_through hk1 a
  have hpz : zone p l'.pc = .post := by
    have := ((body_step Z hc hz (fv := fv) (l := l) (m := m)).2.2.1 hcm).2
    rwa [he] at this
  have hr := post_run Z fv j (l', m') (.inl hpz)
  rw [hj] at hr
  rw [a, b] at hr
  obtain ⟨h1, h2⟩ := hr
  refine Prod.ext ?_ h1
  rcases h2 with h2 | h2 <;> simp [zone] at h2
  exact h2

/-- A replay that has left by the comparison-failed exit: the pseudo-code, too, returns 1 on that
memory. -/
theorem Rep.fails {p : Prog n} {clob : List Nat} {sx : Bool} {al : Opnd → Nat} {op : Op n}
    (Z : ZoneFacts p) (hi : Implements p clob sx al op) {cpu fv : BitVec 32} {m : Mem n}
    {l0 l : LSt n} {F : W n → Prop} (hs : Setup clob sx al op cpu l0) (h : Rep p fv m l0 l F)
    (hz : zone p l.pc = .neq ∨ zone p l.pc = .done 1) : pseudo p.be op m = (1, m) := by
  have hfv := Rep.cpu_eq Z hi hs h (.inr hz)
  obtain ⟨k, hk⟩ := h.run
  obtain ⟨k', a, b, -⟩ := (hi cpu fv l0 m hs).1 hfv
  obtain ⟨j, hj⟩ := returns_through hk a
  have hr := neq_run Z fv j (l, m) hz
  rw [hj, a, b] at hr
  obtain ⟨h1, h2⟩ := hr
  refine Prod.ext ?_ h1
  rcases h2 with h2 | h2 <;> simp [zone] at h2
  exact h2

end Verif.Rseq
