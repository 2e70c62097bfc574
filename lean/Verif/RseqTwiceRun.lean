import Verif.RseqTwiceBlock
/-
The block for every site, and how an instruction of the old program and its copy in the new one
correspond.
-/

namespace Verif.Rseq

variable {n : Nat}

theorem program_block (hn : 4 ≤ n) (a : Arch) (rel be : Bool) (al : Opnd → Nat) (csa : W n) (op : Op n)
    (P : Prog n) (hp : program al be csa a op.kind rel = some P) :
    BlockOK P (twiceOf al a op.kind P) (twiceAt a op.kind)
      (twiceBlk al (twiceExit P.code.length a op.kind).1 (twiceExit P.code.length a op.kind).2 (.ret 4) a
        op.kind).length (clobbers a op.kind) (signExt a) al op := by
  cases a <;> cases op <;> simp only [Op.kind] at hp ⊢ <;> cases rel <;>
    first
      | (simp only [program, reduceCtorEq] at hp; done)
      | (simp only [program, Option.some.injEq] at hp
         subst hp
         first
           | exact x86_64_cbneStore_blk hn al be csa _ _ _
           | exact x86_64_cbeqStoreAddLoadStore_blk hn al be csa _ _ _ _
           | exact x86_64_addStore_blk hn al be csa _ _
           | exact x86_64_addLoadLoadAddStore_blk hn al be csa _ _ _
           | exact x86_64_cbneCbneStore_blk hn al be csa _ _ _ _ _
           | exact x86_64_cbneStoreStore_blk hn al be csa _ _ _ _ _
           | exact x86_64_cbneMemcpyStore_blk hn al be csa _ _ _ _ _ _
           | exact i386_cbneStore_blk hn al be csa _ _ _
           | exact i386_cbeqStoreAddLoadStore_blk hn al be csa _ _ _ _
           | exact i386_addStore_blk hn al be csa _ _
           | exact i386_cbneCbneStore_blk hn al be csa _ _ _ _ _
           | exact i386_cbneStoreStore_blk hn al be csa _ _ _ _ _
           | exact i386_cbneStoreStore_rel_blk hn al be csa _ _ _ _ _
           | exact i386_cbneMemcpyStore_blk hn al be csa _ _ _ _ _ _
           | exact i386_cbneMemcpyStore_rel_blk hn al be csa _ _ _ _ _ _
           | exact aarch64_cbneStore_blk hn al be csa _ _ _
           | exact aarch64_cbeqStoreAddLoadStore_blk hn al be csa _ _ _ _
           | exact aarch64_addStore_blk hn al be csa _ _
           | exact aarch64_cbneCbneStore_blk hn al be csa _ _ _ _ _
           | exact aarch64_cbneStoreStore_blk hn al be csa _ _ _ _ _
           | exact aarch64_cbneStoreStore_rel_blk hn al be csa _ _ _ _ _
           | exact aarch64_cbneMemcpyStore_blk hn al be csa _ _ _ _ _ _
           | exact aarch64_cbneMemcpyStore_rel_blk hn al be csa _ _ _ _ _ _
           | exact riscv_cbneStore_blk hn al be csa _ _ _
           | exact riscv_cbeqStoreAddLoadStore_blk hn al be csa _ _ _ _
           | exact riscv_addStore_blk hn al be csa _ _
           | exact riscv_cbneCbneStore_blk hn al be csa _ _ _ _ _
           | exact riscv_cbneStoreStore_blk hn al be csa _ _ _ _ _
           | exact riscv_cbneStoreStore_rel_blk hn al be csa _ _ _ _ _
           | exact riscv_cbneMemcpyStore_blk hn al be csa _ _ _ _ _ _
           | exact riscv_cbneMemcpyStore_rel_blk hn al be csa _ _ _ _ _ _
           | exact ppc_cbneStore_blk hn al be csa _ _ _
           | exact ppc_cbeqStoreAddLoadStore_blk hn al be csa _ _ _ _
           | exact ppc_addStore_blk hn al be csa _ _
           | exact ppc_cbneCbneStore_blk hn al be csa _ _ _ _ _
           | exact ppc_cbneStoreStore_blk hn al be csa _ _ _ _ _
           | exact ppc_cbneStoreStore_rel_blk hn al be csa _ _ _ _ _
           | exact ppc_cbneMemcpyStore_blk hn al be csa _ _ _ _ _ _
           | exact ppc_cbneMemcpyStore_rel_blk hn al be csa _ _ _ _ _ _
           | exact s390_cbneStore_blk hn al be csa _ _ _
           | exact s390_cbeqStoreAddLoadStore_blk hn al be csa _ _ _ _
           | exact s390_addStore_blk hn al be csa _ _
           | exact s390_cbneCbneStore_blk hn al be csa _ _ _ _ _
           | exact s390_cbneStoreStore_blk hn al be csa _ _ _ _ _
           | exact s390_cbneMemcpyStore_blk hn al be csa _ _ _ _ _ _
           | exact mips_cbneStore_blk hn al be csa _ _ _
           | exact mips_cbeqStoreAddLoadStore_blk hn al be csa _ _ _ _
           | exact mips_addStore_blk hn al be csa _ _
           | exact mips_cbneCbneStore_blk hn al be csa _ _ _ _ _
           | exact mips_cbneStoreStore_blk hn al be csa _ _ _ _ _
           | exact mips_cbneStoreStore_rel_blk hn al be csa _ _ _ _ _
           | exact mips_cbneMemcpyStore_blk hn al be csa _ _ _ _ _ _
           | exact mips_cbneMemcpyStore_rel_blk hn al be csa _ _ _ _ _ _
           | exact loongarch_cbneStore_blk hn al be csa _ _ _
           | exact loongarch_cbeqStoreAddLoadStore_blk hn al be csa _ _ _ _
           | exact loongarch_addStore_blk hn al be csa _ _
           | exact loongarch_cbneCbneStore_blk hn al be csa _ _ _ _ _
           | exact loongarch_cbneStoreStore_blk hn al be csa _ _ _ _ _
           | exact loongarch_cbneStoreStore_rel_blk hn al be csa _ _ _ _ _
           | exact loongarch_cbneMemcpyStore_blk hn al be csa _ _ _ _ _ _
           | exact loongarch_cbneMemcpyStore_rel_blk hn al be csa _ _ _ _ _ _
           | exact arm_cbneStore_blk hn al be csa _ _ _
           | exact arm_cbeqStoreAddLoadStore_blk hn al be csa _ _ _ _
           | exact arm_addStore_blk hn al be csa _ _
           | exact arm_cbneCbneStore_blk hn al be csa _ _ _ _ _
           | exact arm_cbneStoreStore_blk hn al be csa _ _ _ _ _
           | exact arm_cbneStoreStore_rel_blk hn al be csa _ _ _ _ _
           | exact arm_cbneMemcpyStore_blk hn al be csa _ _ _ _ _ _
           | exact arm_cbneMemcpyStore_rel_blk hn al be csa _ _ _ _ _ _)

theorem Site.block (hn : 4 ≤ n) (S : Site n) (op : Op n) (hk : S.kind = op.kind) :
    BlockOK S.prog S.twice S.tp S.tk (clobbers S.arch op.kind) (signExt S.arch) S.al op := by
  have h := program_block hn S.arch S.rel S.be S.al S.csa op S.prog (by rw [← hk]; exact S.ok)
  have e1 : S.twice = twiceOf S.al S.arch op.kind S.prog := by rw [← hk]; rfl
  have e2 : S.tp = twiceAt S.arch op.kind := by rw [← hk]; rfl
  have e3 : S.tk = (twiceBlk S.al (twiceExit S.prog.code.length S.arch op.kind).1
      (twiceExit S.prog.code.length S.arch op.kind).2 (.ret 4) S.arch op.kind).length := by
    rw [← hk]; rfl
  rw [e1, e2, e3]
  exact h

/-! ### More static facts -/

/-- The block begins with a read of the CPU field. -/
theorem Site.blk_first (S : Site n) : ∃ ins, S.blk[0]? = some ins ∧ cpuFree ins = false := by
  unfold Site.blk
  generalize (twiceExit S.prog.code.length S.arch S.kind).1 = e1
  generalize (twiceExit S.prog.code.length S.arch S.kind).2 = e2
  cases S.arch <;> cases S.kind <;> exact ⟨_, rfl, rfl⟩

/-- The tear-down code leaves through `rseq_bug` only. -/
theorem Site.tail_tgts (S : Site n) (e : Nat) (ins : Instr) (h : ins ∈ S.tail) :
    ∀ t ∈ tgts ins, bugExit e t = true := by
  unfold Site.tail at h
  split at h
  · simp only [tearDown, List.mem_cons, List.not_mem_nil, or_false] at h
    rcases h with rfl | rfl | rfl | rfl | rfl | rfl | rfl | rfl <;> simp [tgts, bugExit]
  · simp at h

def noWr : Nat → List Instr → Bool
  | 0, _ => true
  | _, [] => true
  | k + 1, ins :: r => !wr ins && noWr k r

theorem noWr_get : ∀ (k : Nat) (c : List Instr), noWr k c = true → ∀ (i : Nat) (ins : Instr), i < k →
    c[i]? = some ins → wr ins = false := by
  intro k
  induction k with
  | zero => intro c _ i ins h; omega
  | succ k ih =>
    intro c h i ins hi hc
    cases c with
    | nil => simp at hc
    | cons a r =>
      simp only [noWr, Bool.and_eq_true, Bool.not_eq_true'] at h
      cases i with
      | zero => simp at hc; subst hc; exact h.1
      | succ i => exact ih r h.2 i ins (by omega) (by simpa using hc)

set_option maxRecDepth 4000 in
theorem program_noWr (al : Opnd → Nat) (be : Bool) (csa : W n) (a : Arch) (k : Kind) (rel : Bool)
    (P : Prog n) (hp : program al be csa a k rel = some P) : noWr (twiceAt a k) P.code = true := by
  cases a <;> cases k <;> cases rel <;>
    first
      | (simp only [program, reduceCtorEq] at hp; done)
      | (simp only [program, Option.some.injEq] at hp; subst hp; rfl)

/-- Nothing is written before the block. -/
theorem Site.noWr (S : Site n) (i : Nat) (ins : Instr) (hi : i < S.tp) (hc : S.prog.code[i]? = some ins) :
    wr ins = false :=
  noWr_get _ _ (program_noWr S.al S.be S.csa S.arch S.kind S.rel S.prog S.ok) i ins hi hc

theorem Site.cutOK (S : Site n) : cutOK S.prog = true :=
  program_cutOK S.al S.be S.csa S.arch S.kind S.rel S.prog S.ok

theorem Site.tp_lt (S : Site n) : S.tp < S.prog.code.length := by
  have := S.tfacts.commit; have := S.facts.ca; have := S.facts.an; have := S.facts.nl; omega

/-! ### Successors -/

theorem succs_tgts {i : Nat} {ins : Instr} {q : Pc} (h : q ∈ succs i ins) :
    q = .at (i + 1) ∨ q ∈ tgts ins := by
  cases ins <;> simp only [succs, List.mem_cons, List.not_mem_nil, or_false] at h <;>
    simp only [tgts, List.mem_cons, List.not_mem_nil, or_false] <;>
    first | exact .inl h | exact .inr h | exact h | exact Or.symm h

theorem beyond_at {p j : Nat} (h : beyond p (.at j) = true) : p + 1 ≤ j := Nat.le_of_ble_eq_true h

theorem bugExit_at {e j : Nat} (h : bugExit e (.at j) = true) : e ≤ j := Nat.le_of_ble_eq_true h

theorem isCs_shift (ins : Instr) (p k : Nat) : isCs (ins.shift p k) = isCs ins := by cases ins <;> rfl
theorem memFree_shift (ins : Instr) (p k : Nat) : memFree (ins.shift p k) = memFree ins := by
  cases ins <;> rfl
theorem cpuFree_shift (ins : Instr) (p k : Nat) : cpuFree (ins.shift p k) = cpuFree ins := by
  cases ins <;> rfl
theorem touched_shift (ins : Instr) (p k : Nat) (l : LSt n) (q : Pc) (x : W n) :
    touched (ins.shift p k) { l with pc := q } x = touched ins l x := by
  cases ins <;> rfl

/-- Position of index `i` in the new program. -/
def sh (p k i : Nat) : Nat := if i < p then i else i + k

/-- Position after an instruction at `i` of the old program that leads to `q`: the block if it falls
through to index `p`, otherwise the copy of `q`. -/
def nextPc (p k i : Nat) (q : Pc) : Pc := if i + 1 = p ∧ q = .at p then .at p else q.shift p k

theorem nextPc_fall (p k i : Nat) (hp : 0 < p) : nextPc p k i (.at (i + 1)) = .at (sh p k i + 1) := by
  unfold nextPc sh
  by_cases h : i + 1 = p
  · rw [if_pos ⟨h, by rw [h]⟩, if_pos (by omega), h]
  · rw [if_neg (fun h' => h h'.1)]
    simp only [Pc.shift]
    by_cases h1 : i + 1 < p
    · rw [if_pos h1, if_pos (by omega)]
    · rw [if_neg h1, if_neg (by omega)]; congr 1; omega

theorem nextPc_tgt (p k i : Nat) (t : Pc) (h : beyond p t = true) : nextPc p k i t = t.shift p k := by
  unfold nextPc
  rw [if_neg]
  rintro ⟨-, rfl⟩
  have := beyond_at h
  omega

/-- An instruction and its copy do the same. -/
theorem exec_shift (P P' : Prog n) (hbe : P'.be = P.be) (hcs : P'.csAddr = P.csAddr) (fv : BitVec 32)
    (p k i : Nat) (ins : Instr) (l : LSt n) (q : Pc) (m : Mem n) (hp : 0 < p)
    (ht : ∀ t ∈ tgts ins, beyond p t = true) :
    exec P' fv (sh p k i) (ins.shift p k) { l with pc := q } m =
      ({ (exec P fv i ins l m).1 with pc := nextPc p k i (exec P fv i ins l m).1.pc },
        (exec P fv i ins l m).2) := by
  have hf := nextPc_fall p k i hp
  cases ins <;> simp only [tgts, List.mem_cons, List.not_mem_nil, or_false, forall_eq] at ht <;>
    simp only [exec, Instr.shift, LSt.setR, LSt.setF, LSt.nx, hbe, hcs, hf]
  all_goals first
    | done
    | (rw [nextPc_tgt _ _ _ _ ht]; done)
    | (simp only [LSt.br]
       split
       · rw [nextPc_tgt _ _ _ _ ht]
       · rw [hf])

end Verif.Rseq
