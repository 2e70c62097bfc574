import Verif.RseqInjectCode
/-
One instruction of an injected program and the corresponding instruction of the program without the loops.
-/

namespace Verif.Rseq

variable {n : Nat}

/-- Registers an instruction reads. -/
def reads : Instr → List Nat
  | .cmpCpu r | .tst r | .cbnz r _ | .cbz r _ | .cbnz32 r _ | .stS r _ => [r]
  | .cmp32 a b | .cmp a b | .cmpM a b | .bne a b _ | .beq a b _ | .addf2 a b => [a, b]
  | .mov _ a | .addi _ a _ | .addf _ a _ | .ld _ a | .ldb _ a | .lbzu _ a => [a]
  | .add _ a b | .sub _ a b | .sub32 _ a b | .ldx _ a b | .ldbx _ a b => [a, b]
  | .st a b | .stl a b | .addM a b | .stb a b | .stbu a b => [a, b]
  | .stbx r a b => [r, a, b]
  | _ => []

/-- It reads the condition codes. -/
def readsF : Instr → Bool
  | .jne _ | .je _ => true
  | _ => false

/-- It sets the condition codes. -/
def setsF : Instr → Bool
  | .cmpCpu _ | .cmp32 .. | .cmp .. | .tst _ | .cmpM .. | .addf .. | .addf2 .. | .addM .. => true
  | _ => false

theorem br_move {l l' : LSt n} {i i' : Nat} {f : Nat → Nat} {c c' : Bool} {t : Pc} (hc : c' = c)
    (hf : i' + 1 = f (i + 1)) : (l'.br i' c' (t.move f)).pc = (l.br i c t).pc.move f := by
  subst hc
  unfold LSt.br
  cases c'
  · simp only [Bool.false_eq_true, if_false]; rw [hf]; rfl
  · rfl

/-- The same instruction in two states that agree on what it reads. -/
theorem exec_move (P Q : Prog n) (hbe : Q.be = P.be) (hcs : Q.csAddr = P.csAddr) (fv : BitVec 32)
    (i i' : Nat) (f : Nat → Nat) (hf : i' + 1 = f (i + 1)) (ins : Instr) (l l' : LSt n) (m : Mem n)
    (hs : l'.slots = l.slots) (hr : ∀ x ∈ reads ins, l'.regs x = l.regs x)
    (hz : readsF ins = true → l'.zf = l.zf) :
    (exec Q fv i' (ins.move f) l' m).2 = (exec P fv i ins l m).2 ∧
    (exec Q fv i' (ins.move f) l' m).1.slots = (exec P fv i ins l m).1.slots ∧
    (∀ x, x ∈ writes ins ∨ l'.regs x = l.regs x →
      (exec Q fv i' (ins.move f) l' m).1.regs x = (exec P fv i ins l m).1.regs x) ∧
    (setsF ins = true ∨ l'.zf = l.zf →
      (exec Q fv i' (ins.move f) l' m).1.zf = (exec P fv i ins l m).1.zf) ∧
    (exec Q fv i' (ins.move f) l' m).1.pc = (exec P fv i ins l m).1.pc.move f ∧
    (∀ x, touched (ins.move f) l' x ↔ touched ins l x) := by
  have N : Pc.at (i' + 1) = (Pc.at (i + 1)).move f := by rw [hf]; rfl
  cases ins <;> simp only [reads, List.mem_cons, List.not_mem_nil, or_false, forall_eq_or_imp, forall_eq,
      false_imp_iff, implies_true] at hr <;>
    simp only [readsF, forall_const] at hz <;>
    simp only [exec, Instr.move, writes, setsF, touched, LSt.setR, LSt.setF, LSt.nx, upd, hr, hs, hbe, hcs, N,
      List.mem_cons, List.not_mem_nil, or_false, false_or, Bool.false_eq_true, true_or, true_imp_iff,
      imp_self, true_and, and_true, implies_true, iff_true, iff_self] <;>
    first
      | done
      | (intro x hx; split <;> first | rfl | (split <;> first | rfl | (simp_all; done)) | (simp_all; done))
      | exact ⟨rfl, rfl⟩
      | (refine ⟨fun x hx => ?_, fun _ => trivial⟩; split <;> simp_all)
      | exact ⟨hs, fun x hx => hx, fun hx => hx, br_move (by simp [hr, hz]) hf⟩
      | exact ⟨hs, fun x hx => hx, fun hx => hx, br_move (by simp [hr]) hf⟩

/-! ### Dead registers -/

/-- Annotation of a program: where the loops' scratch register and the condition codes are dead. -/
structure InjDead (J : Inj) (ps : List (Nat × Nat)) (P : Prog n) where
  r : Nat → Bool
  f : Nat → Bool
  pts : ∀ i, i < P.code.length → 0 < J.w ps i → r i = true ∧ (J.flags = true → f i = true)
  abort : r P.abort = true ∧ f P.abort = true
  reg : ∀ i ins, P.code[i]? = some ins → r i = true → J.reg ∉ reads ins ∧
    (J.reg ∈ writes ins ∨ ∀ j, .at j ∈ succs i ins → r j = true)
  flag : ∀ i ins, P.code[i]? = some ins → f i = true → readsF ins = false ∧
    (setsF ins = true ∨ ∀ j, .at j ∈ succs i ins → f j = true)

/-- `l` in the program without loops corresponds to `l'` in the injected one. -/
structure LRel {J : Inj} {ps : List (Nat × Nat)} {P : Prog n} (D : InjDead J ps P) (l l' : LSt n) : Prop where
  slots : l'.slots = l.slots
  regs : ∀ x, x ≠ J.reg → l'.regs x = l.regs x
  reg : ∀ i, l.pc = .at i → D.r i = false → l'.regs J.reg = l.regs J.reg
  zf : ∀ i, l.pc = .at i → D.f i = false → l'.zf = l.zf
  ret : ∀ r, l.pc = .ret r ↔ l'.pc = .ret r
  pos : ∀ i, l.pc = .at i → ∃ k, k ≤ J.w ps i ∧ l'.pc = .at (newAt (J.w ps) i + k)

section
variable {J : Inj} {ps : List (Nat × Nat)} {P : Prog n} {D : InjDead J ps P} {l l' : LSt n}

/-- On entry. -/
theorem LRel.start (D : InjDead J ps P) {l : LSt n} (h : l.pc = .at 0) : LRel D l l :=
  ⟨rfl, fun _ _ => rfl, fun _ _ _ => rfl, fun _ _ _ => rfl, fun _ => Iff.rfl, fun i hi => by
    rw [h] at hi; injection hi with hi; subst hi; exact ⟨0, Nat.zero_le _, h⟩⟩

/-- Where the injected program is. -/
theorem LRel.at (h : LRel D l l') {j : Nat} (hp : l'.pc = .at j) :
    ∃ i k, l.pc = .at i ∧ k ≤ J.w ps i ∧ j = newAt (J.w ps) i + k := by
  cases hl : l.pc with
  | ret r => rw [(h.ret r).1 hl] at hp; cases hp
  | «at» i =>
    obtain ⟨k, hk, e⟩ := h.pos i hl
    rw [hp] at e; injection e with e
    exact ⟨i, k, rfl, hk, e⟩

theorem LRel.zone (h : LRel D l l') : zone (J.prog ps P) l'.pc = zone P l.pc := by
  cases hl : l.pc with
  | ret r => rw [(h.ret r).1 hl]; rfl
  | «at» i =>
    obtain ⟨k, hk, e⟩ := h.pos i hl
    rw [e]; exact J.zone_at ps P hk

/-- The kernel's jump to the abort handler. -/
theorem LRel.toAbort (h : LRel D l l') : LRel D { l with pc := .at P.abort }
    { l' with pc := .at (J.prog ps P).abort } := by
  refine ⟨h.slots, h.regs, fun i hi hd => ?_, fun i hi hd => ?_, fun r => ?_, fun i hi => ?_⟩
  · injection hi with hi; subst hi; rw [D.abort.1] at hd; cases hd
  · injection hi with hi; subst hi; rw [D.abort.2] at hd; cases hd
  · constructor <;> (intro h; cases h)
  · injection hi with hi; subst hi; exact ⟨0, Nat.zero_le _, rfl⟩

/-- An instruction of the program without loops, in the injected program. -/
theorem LRel.old (h : LRel D l l') {i j : Nat} {ins : Instr} (hl : l.pc = .at i)
    (hj : j = newAt (J.w ps) i + J.w ps i) (hci : P.code[i]? = some ins) (fv : BitVec 32) (m : Mem n) :
    (j + 1 = (J.prog ps P).commit ↔ i + 1 = P.commit) ∧
    (exec (J.prog ps P) fv j (ins.move (newAt (J.w ps))) l' m).2 = (Rseq.exec P fv i ins l m).2 ∧
    (∀ x, touched (ins.move (newAt (J.w ps))) l' x ↔ touched ins l x) ∧
    LRel D (Rseq.exec P fv i ins l m).1 (Rseq.exec (J.prog ps P) fv j (ins.move (newAt (J.w ps))) l' m).1 ∧
    (Rseq.exec (J.prog ps P) fv j (ins.move (newAt (J.w ps))) l' m).1.pc =
      (Rseq.exec P fv i ins l m).1.pc.move (newAt (J.w ps)) := by
  have hfall : j + 1 = newAt (J.w ps) (i + 1) := by rw [newAt_succ, ← hj]
  have hr : ∀ x ∈ reads ins, l'.regs x = l.regs x := by
    intro x hx
    by_cases e : x = J.reg
    · subst e
      cases hd : D.r i with
      | true => exact absurd hx (D.reg i ins hci hd).1
      | false => exact h.reg i hl hd
    · exact h.regs x e
  have hz : readsF ins = true → l'.zf = l.zf := by
    intro hx
    cases hd : D.f i with
    | true => rw [(D.flag i ins hci hd).1] at hx; cases hx
    | false => exact h.zf i hl hd
  obtain ⟨e1, e2, e3, e4, e5, e6⟩ := exec_move P (J.prog ps P) rfl rfl fv i j (newAt (J.w ps)) hfall ins l l' m
    h.slots hr hz
  have hsu := exec_succs P fv i ins l m
  refine ⟨?_, e1, e6, ⟨e2, fun x hx => e3 x (.inr (h.regs x hx)), fun i1 hi1 hd => ?_, fun i1 hi1 hd => ?_,
    fun r => ?_, fun i1 hi1 => ?_⟩, e5⟩
  · show j + 1 = newAt (J.w ps) P.commit ↔ _
    rw [hfall]
    constructor
    · intro e
      exact (newAt_inj (J.w ps) (Nat.zero_le _) (Nat.zero_le _) (k := 0) (k' := 0) (by simpa using e)).1
    · intro e; rw [e]
  · apply e3
    cases hdi : D.r i with
    | false => exact .inr (h.reg i hl hdi)
    | true =>
      rcases (D.reg i ins hci hdi).2 with hw | hw
      · exact .inl hw
      · rw [hi1] at hsu
        rw [hw i1 hsu] at hd; cases hd
  · apply e4
    cases hdi : D.f i with
    | false => exact .inr (h.zf i hl hdi)
    | true =>
      rcases (D.flag i ins hci hdi).2 with hw | hw
      · exact .inl hw
      · rw [hi1] at hsu
        rw [hw i1 hsu] at hd; cases hd
  · rw [e5]
    cases (Rseq.exec P fv i ins l m).1.pc <;> simp [Pc.move]
  · rw [e5, hi1]; exact ⟨0, Nat.zero_le _, rfl⟩

/-- An instruction of the injected program: of a loop, or the corresponding one. -/
theorem LRel.exec (h : LRel D l l') {j : Nat} {ins' : Instr} (hp : l'.pc = .at j)
    (hc : (J.prog ps P).code[j]? = some ins') (fv : BitVec 32) (m : Mem n) :
    (memFree ins' = true ∧ cpuFree ins' = true ∧ isCs ins' = false ∧ j + 1 ≠ (J.prog ps P).commit ∧
      (exec (J.prog ps P) fv j ins' l' m).2 = m ∧ LRel D l (exec (J.prog ps P) fv j ins' l' m).1) ∨
    ∃ i ins, l.pc = .at i ∧ P.code[i]? = some ins ∧ ins' = ins.move (newAt (J.w ps)) ∧
      (j + 1 = (J.prog ps P).commit ↔ i + 1 = P.commit) ∧
      (exec (J.prog ps P) fv j ins' l' m).2 = (Rseq.exec P fv i ins l m).2 ∧
      (∀ x, touched ins' l' x ↔ touched ins l x) ∧
      LRel D (Rseq.exec P fv i ins l m).1 (Rseq.exec (J.prog ps P) fv j ins' l' m).1 := by
  obtain ⟨i, k, hl, hk, hj⟩ := h.at hp
  have hi : i < P.code.length := by
    have h1 := (List.getElem?_eq_some_iff.1 hc).1
    rw [J.prog_length, hj] at h1
    exact (newAt_lt_iff _ hk).1 h1
  rcases Nat.lt_or_ge k (J.w ps i) with hlt | hge
  · left
    obtain ⟨ins0, h1, h2⟩ := J.prog_loop ps P hi hlt
    rw [← hj, hc] at h1
    injection h1 with h1
    subst h1
    rw [← hj] at h2
    obtain ⟨e1, e2, e3, e4, j', e5, e6, e7⟩ := h2.exec (J.prog ps P) fv l' m
    obtain ⟨d1, d2⟩ := D.pts i hi (by omega)
    refine ⟨h2.mem, h2.cpu, h2.cs, ?_, e1, ?_⟩
    · intro e
      have e' : newAt (J.w ps) i + (k + 1) = newAt (J.w ps) P.commit + 0 := by
        rw [Nat.add_zero, ← Nat.add_assoc, ← hj]; exact e
      have := (newAt_inj (J.w ps) (by omega) (Nat.zero_le _) e').2
      omega
    · refine ⟨by rw [e2]; exact h.slots, fun x hx => by rw [e3 x hx]; exact h.regs x hx, fun i0 hi0 hd => ?_,
        fun i0 hi0 hd => ?_, fun r => ?_, fun i0 hi0 => ?_⟩
      · rw [hl] at hi0; injection hi0 with hi0; subst hi0; rw [d1] at hd; cases hd
      · rw [hl] at hi0; injection hi0 with hi0; subst hi0
        cases hf : J.flags with
        | true => rw [d2 hf] at hd; cases hd
        | false => rw [e4 hf]; exact h.zf i hl hd
      · rw [hl, e7]; constructor <;> (intro h; cases h)
      · rw [hl] at hi0; injection hi0 with hi0; subst hi0
        exact ⟨j' - newAt (J.w ps) i, by omega, by rw [e7]; congr 1; omega⟩
  · right
    have hk' : k = J.w ps i := Nat.le_antisymm hk hge
    subst hk'
    have hci := List.getElem?_eq_getElem hi
    refine ⟨i, P.code[i], hl, hci, ?_⟩
    generalize P.code[i] = ins at hci
    have h1 := J.prog_old ps P hci
    rw [← hj, hc] at h1
    injection h1 with h1
    subst h1
    obtain ⟨b1, b2, b3, b4, -⟩ := h.old hl hj hci fv m
    exact ⟨rfl, b1, b2, b3, b4⟩

theorem memFree_move (ins : Instr) (f : Nat → Nat) : memFree (ins.move f) = memFree ins := by cases ins <;> rfl
theorem cpuFree_move (ins : Instr) (f : Nat → Nat) : cpuFree (ins.move f) = cpuFree ins := by cases ins <;> rfl
theorem isCs_move (ins : Instr) (f : Nat → Nat) : isCs (ins.move f) = isCs ins := by cases ins <;> rfl

/-- A helper bound to return 1 is so without the loops. -/
theorem LRel.quiet (hq : Quiet (J.prog ps P) l') : ∀ {l : LSt n}, LRel D l l' → Quiet P l := by
  induction hq with
  | done hd => intro l h; exact .done ((h.ret 1).2 hd)
  | @step l' l1' j ins' hp hc hm hf he _ ih =>
    intro l h
    rcases h.exec hp hc (0#32) (fun _ => 0#8) with ⟨-, -, -, -, -, h1⟩ | ⟨i, ins, h1, h2, h3, -, -, -, h4⟩
    · rw [he] at h1; exact ih h1
    · rw [he] at h4
      subst h3
      rw [memFree_move] at hm
      rw [cpuFree_move] at hf
      refine .step h1 h2 hm hf (fun fv m => ?_) (ih h4)
      rw [exec_cpuFree hf P fv (0#32) i l m]
      exact (exec_memFree hm P (0#32) i l m (fun _ => 0#8)).2

end

end Verif.Rseq
