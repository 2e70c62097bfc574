import Verif.RseqTwiceStatic
/-
The block that `RSEQ_COMPARE_TWICE` inserts, executed right after the comparisons it repeats on the same
memory: it falls through and leaves registers, flag and slots as they were (one lemma per program).
-/

set_option linter.unusedVariables false
set_option linter.unusedSimpArgs false

namespace Verif.Rseq

variable {n : Nat}

theorem upd_upd {β : Type} (f : Nat → β) (k : Nat) (a b : β) : upd (upd f k a) k b = upd f k b := by
  funext x; simp only [upd]; split <;> rfl

/-- On the memory on which the helper `P` has just passed its comparisons, the block (of `k` instructions,
at index `p` of `P'`) falls through and changes nothing but the position. -/
def BlockOK (P P' : Prog n) (p k : Nat) (clob : List Nat) (sx : Bool) (al : Opnd → Nat) (op : Op n) :
    Prop :=
  ∀ (cpu : BitVec 32) (l : LSt n) (m : Mem n), Setup clob sx al op cpu l →
    (run P cpu p (l, m)).1.pc = .at p →
    run P' cpu k ((run P cpu p (l, m)).1, m) = ({ (run P cpu p (l, m)).1 with pc := .at (p + k) }, m)

theorem x86_64_cbneStore_blk (hn : 4 ≤ n) (al : Opnd → Nat) (be : Bool) (csa v expect newv : W n) :
    BlockOK (x86_64_cbneStore al be csa) (twiceOf al .x86_64 .cbneStore (x86_64_cbneStore al be csa)) 5 4 [rax]
      false al (.cbneStore v expect newv) := by
  intro cpu l m h
  have h_v := h.reg .v _ rfl
  have f_v := h.free .v _ rfl
  have h_expect := h.reg .expect _ rfl
  have f_expect := h.free .expect _ rfl
  have f0 := h.freeCpu
  have hp := h.pc
  have hc := h.cpuV
  simp [rregs] at f0 f_v f_expect
  by_cases he : ldw be m v = expect
  · skip
    intro _
    simp [rrun, x86_64_cbneStore, hp, hc, f0, h_v, f_v, h_expect, f_expect, setWidth32_setWidth hn, sub_eq_zero_iff, upd_upd, he, twiceOf, insertBlock, twiceBlk, cpuChk, neChk, eqChk, twiceExit, hasTear, twiceAt, tearDown, Instr.shift, Pc.shift]
    try (funext x; simp only [upd]; repeat' split)
    all_goals simp_all
  · have hn1 := Ne.symm he
    simp [rrun, x86_64_cbneStore, hp, hc, f0, h_v, f_v, h_expect, f_expect, setWidth32_setWidth hn, sub_eq_zero_iff, upd_upd, he, hn1]

theorem x86_64_cbeqStoreAddLoadStore_blk (hn : 4 ≤ n) (al : Opnd → Nat) (be : Bool) (csa v expectnot voffp load : W n) :
    BlockOK (x86_64_cbeqStoreAddLoadStore al be csa) (twiceOf al .x86_64 .cbeqStoreAddLoadStore (x86_64_cbeqStoreAddLoadStore al be csa)) 6 5 [rax, rbx]
      false al (.cbeqStoreAddLoadStore v expectnot voffp load) := by
  intro cpu l m h
  have h_v := h.reg .v _ rfl
  have f_v := h.free .v _ rfl
  have h_expectnot := h.reg .expectnot _ rfl
  have f_expectnot := h.free .expectnot _ rfl
  have f0 := h.freeCpu
  have hp := h.pc
  have hc := h.cpuV
  simp [rregs] at f0 f_v f_expectnot
  by_cases he : ldw be m v = expectnot
  · simp [rrun, x86_64_cbeqStoreAddLoadStore, hp, hc, f0, h_v, f_v, h_expectnot, f_expectnot, setWidth32_setWidth hn, sub_eq_zero_iff, upd_upd, he]
  · have hn1 := Ne.symm he
    intro _
    simp [rrun, x86_64_cbeqStoreAddLoadStore, hp, hc, f0, h_v, f_v, h_expectnot, f_expectnot, setWidth32_setWidth hn, sub_eq_zero_iff, upd_upd, he, hn1, twiceOf, insertBlock, twiceBlk, cpuChk, neChk, eqChk, twiceExit, hasTear, twiceAt, tearDown, Instr.shift, Pc.shift]
    try (funext x; simp only [upd]; repeat' split)
    all_goals simp_all

theorem x86_64_addStore_blk (hn : 4 ≤ n) (al : Opnd → Nat) (be : Bool) (csa v count : W n) :
    BlockOK (x86_64_addStore al be csa) (twiceOf al .x86_64 .addStore (x86_64_addStore al be csa)) 3 2 [rax]
      false al (.addStore v count) := by
  intro cpu l m h
  have f0 := h.freeCpu
  have hp := h.pc
  have hc := h.cpuV
  simp [rregs] at f0 
  intro _
  simp [rrun, x86_64_addStore, hp, hc, f0, setWidth32_setWidth hn, sub_eq_zero_iff, upd_upd, twiceOf, insertBlock, twiceBlk, cpuChk, neChk, eqChk, twiceExit, hasTear, twiceAt, tearDown, Instr.shift, Pc.shift]
  try (funext x; simp only [upd]; repeat' split)
  all_goals simp_all

theorem x86_64_addLoadLoadAddStore_blk (hn : 4 ≤ n) (al : Opnd → Nat) (be : Bool) (csa ptr off inc : W n) :
    BlockOK (x86_64_addLoadLoadAddStore al be csa) (twiceOf al .x86_64 .addLoadLoadAddStore (x86_64_addLoadLoadAddStore al be csa)) 3 2 [rax, rbx, rcx]
      false al (.addLoadLoadAddStore ptr off inc) := by
  intro cpu l m h
  have f0 := h.freeCpu
  have hp := h.pc
  have hc := h.cpuV
  simp [rregs] at f0 
  intro _
  simp [rrun, x86_64_addLoadLoadAddStore, hp, hc, f0, setWidth32_setWidth hn, sub_eq_zero_iff, upd_upd, twiceOf, insertBlock, twiceBlk, cpuChk, neChk, eqChk, twiceExit, hasTear, twiceAt, tearDown, Instr.shift, Pc.shift]
  try (funext x; simp only [upd]; repeat' split)
  all_goals simp_all

theorem x86_64_cbneCbneStore_blk (hn : 4 ≤ n) (al : Opnd → Nat) (be : Bool) (csa v expect v2 expect2 newv : W n) :
    BlockOK (x86_64_cbneCbneStore al be csa) (twiceOf al .x86_64 .cbneCbneStore (x86_64_cbneCbneStore al be csa)) 7 6 [rax]
      false al (.cbneCbneStore v expect v2 expect2 newv) := by
  intro cpu l m h
  have h_v := h.reg .v _ rfl
  have f_v := h.free .v _ rfl
  have h_expect := h.reg .expect _ rfl
  have f_expect := h.free .expect _ rfl
  have h_v2 := h.reg .v2 _ rfl
  have f_v2 := h.free .v2 _ rfl
  have h_expect2 := h.reg .expect2 _ rfl
  have f_expect2 := h.free .expect2 _ rfl
  have f0 := h.freeCpu
  have hp := h.pc
  have hc := h.cpuV
  simp [rregs] at f0 f_v f_expect f_v2 f_expect2
  by_cases he : ldw be m v = expect
  · by_cases he2 : ldw be m v2 = expect2
    · skip
      intro _
      simp [rrun, x86_64_cbneCbneStore, hp, hc, f0, h_v, f_v, h_expect, f_expect, h_v2, f_v2, h_expect2, f_expect2, setWidth32_setWidth hn, sub_eq_zero_iff, upd_upd, he, he2, twiceOf, insertBlock, twiceBlk, cpuChk, neChk, eqChk, twiceExit, hasTear, twiceAt, tearDown, Instr.shift, Pc.shift]
      try (funext x; simp only [upd]; repeat' split)
      all_goals simp_all
    · have hn2 := Ne.symm he2
      simp [rrun, x86_64_cbneCbneStore, hp, hc, f0, h_v, f_v, h_expect, f_expect, h_v2, f_v2, h_expect2, f_expect2, setWidth32_setWidth hn, sub_eq_zero_iff, upd_upd, he, he2, hn2]
  · have hn1 := Ne.symm he
    simp [rrun, x86_64_cbneCbneStore, hp, hc, f0, h_v, f_v, h_expect, f_expect, h_v2, f_v2, h_expect2, f_expect2, setWidth32_setWidth hn, sub_eq_zero_iff, upd_upd, he, hn1]

theorem x86_64_cbneStoreStore_blk (hn : 4 ≤ n) (al : Opnd → Nat) (be : Bool) (csa v expect v2 newv2 newv : W n) :
    BlockOK (x86_64_cbneStoreStore al be csa) (twiceOf al .x86_64 .cbneStoreStore (x86_64_cbneStoreStore al be csa)) 5 4 [rax]
      false al (.cbneStoreStore v expect v2 newv2 newv) := by
  intro cpu l m h
  have h_v := h.reg .v _ rfl
  have f_v := h.free .v _ rfl
  have h_expect := h.reg .expect _ rfl
  have f_expect := h.free .expect _ rfl
  have f0 := h.freeCpu
  have hp := h.pc
  have hc := h.cpuV
  simp [rregs] at f0 f_v f_expect
  by_cases he : ldw be m v = expect
  · skip
    intro _
    simp [rrun, x86_64_cbneStoreStore, hp, hc, f0, h_v, f_v, h_expect, f_expect, setWidth32_setWidth hn, sub_eq_zero_iff, upd_upd, he, twiceOf, insertBlock, twiceBlk, cpuChk, neChk, eqChk, twiceExit, hasTear, twiceAt, tearDown, Instr.shift, Pc.shift]
    try (funext x; simp only [upd]; repeat' split)
    all_goals simp_all
  · have hn1 := Ne.symm he
    simp [rrun, x86_64_cbneStoreStore, hp, hc, f0, h_v, f_v, h_expect, f_expect, setWidth32_setWidth hn, sub_eq_zero_iff, upd_upd, he, hn1]

theorem x86_64_cbneMemcpyStore_blk (hn : 4 ≤ n) (al : Opnd → Nat) (be : Bool) (csa v expect dst src len newv : W n) :
    BlockOK (x86_64_cbneMemcpyStore al be csa) (twiceOf al .x86_64 .cbneMemcpyStore (x86_64_cbneMemcpyStore al be csa)) 8 4 [rax]
      false al (.cbneMemcpyStore v expect dst src len newv) := by
  intro cpu l m h
  have h_v := h.reg .v _ rfl
  have f_v := h.free .v _ rfl
  have h_expect := h.reg .expect _ rfl
  have f_expect := h.free .expect _ rfl
  have f0 := h.freeCpu
  have hp := h.pc
  have hc := h.cpuV
  simp [rregs] at f0 f_v f_expect
  by_cases he : ldw be m v = expect
  · skip
    intro _
    simp [rrun, x86_64_cbneMemcpyStore, hp, hc, f0, h_v, f_v, h_expect, f_expect, setWidth32_setWidth hn, sub_eq_zero_iff, upd_upd, he, twiceOf, insertBlock, twiceBlk, cpuChk, neChk, eqChk, twiceExit, hasTear, twiceAt, tearDown, Instr.shift, Pc.shift]
    try (funext x; simp only [upd]; repeat' split)
    all_goals simp_all
  · have hn1 := Ne.symm he
    simp [rrun, x86_64_cbneMemcpyStore, hp, hc, f0, h_v, f_v, h_expect, f_expect, setWidth32_setWidth hn, sub_eq_zero_iff, upd_upd, he, hn1]

theorem i386_cbneStore_blk (hn : 4 ≤ n) (al : Opnd → Nat) (be : Bool) (csa v expect newv : W n) :
    BlockOK (i386_cbneStore al be csa) (twiceOf al .i386 .cbneStore (i386_cbneStore al be csa)) 5 4 [rax]
      false al (.cbneStore v expect newv) := by
  intro cpu l m h
  have h_v := h.reg .v _ rfl
  have f_v := h.free .v _ rfl
  have h_expect := h.reg .expect _ rfl
  have f_expect := h.free .expect _ rfl
  have f0 := h.freeCpu
  have hp := h.pc
  have hc := h.cpuV
  simp [rregs] at f0 f_v f_expect
  by_cases he : ldw be m v = expect
  · skip
    intro _
    simp [rrun, i386_cbneStore, hp, hc, f0, h_v, f_v, h_expect, f_expect, setWidth32_setWidth hn, sub_eq_zero_iff, upd_upd, he, twiceOf, insertBlock, twiceBlk, cpuChk, neChk, eqChk, twiceExit, hasTear, twiceAt, tearDown, Instr.shift, Pc.shift]
    try (funext x; simp only [upd]; repeat' split)
    all_goals simp_all
  · have hn1 := Ne.symm he
    simp [rrun, i386_cbneStore, hp, hc, f0, h_v, f_v, h_expect, f_expect, setWidth32_setWidth hn, sub_eq_zero_iff, upd_upd, he, hn1]

theorem i386_cbeqStoreAddLoadStore_blk (hn : 4 ≤ n) (al : Opnd → Nat) (be : Bool) (csa v expectnot voffp load : W n) :
    BlockOK (i386_cbeqStoreAddLoadStore al be csa) (twiceOf al .i386 .cbeqStoreAddLoadStore (i386_cbeqStoreAddLoadStore al be csa)) 6 5 [rax, rbx]
      false al (.cbeqStoreAddLoadStore v expectnot voffp load) := by
  intro cpu l m h
  have h_v := h.reg .v _ rfl
  have f_v := h.free .v _ rfl
  have h_expectnot := h.reg .expectnot _ rfl
  have f_expectnot := h.free .expectnot _ rfl
  have f0 := h.freeCpu
  have hp := h.pc
  have hc := h.cpuV
  simp [rregs] at f0 f_v f_expectnot
  by_cases he : ldw be m v = expectnot
  · simp [rrun, i386_cbeqStoreAddLoadStore, hp, hc, f0, h_v, f_v, h_expectnot, f_expectnot, setWidth32_setWidth hn, sub_eq_zero_iff, upd_upd, he]
  · have hn1 := Ne.symm he
    intro _
    simp [rrun, i386_cbeqStoreAddLoadStore, hp, hc, f0, h_v, f_v, h_expectnot, f_expectnot, setWidth32_setWidth hn, sub_eq_zero_iff, upd_upd, he, hn1, twiceOf, insertBlock, twiceBlk, cpuChk, neChk, eqChk, twiceExit, hasTear, twiceAt, tearDown, Instr.shift, Pc.shift]
    try (funext x; simp only [upd]; repeat' split)
    all_goals simp_all

theorem i386_addStore_blk (hn : 4 ≤ n) (al : Opnd → Nat) (be : Bool) (csa v count : W n) :
    BlockOK (i386_addStore al be csa) (twiceOf al .i386 .addStore (i386_addStore al be csa)) 3 2 [rax]
      false al (.addStore v count) := by
  intro cpu l m h
  have f0 := h.freeCpu
  have hp := h.pc
  have hc := h.cpuV
  simp [rregs] at f0 
  intro _
  simp [rrun, i386_addStore, hp, hc, f0, setWidth32_setWidth hn, sub_eq_zero_iff, upd_upd, twiceOf, insertBlock, twiceBlk, cpuChk, neChk, eqChk, twiceExit, hasTear, twiceAt, tearDown, Instr.shift, Pc.shift]
  try (funext x; simp only [upd]; repeat' split)
  all_goals simp_all

theorem i386_cbneCbneStore_blk (hn : 4 ≤ n) (al : Opnd → Nat) (be : Bool) (csa v expect v2 expect2 newv : W n) :
    BlockOK (i386_cbneCbneStore al be csa) (twiceOf al .i386 .cbneCbneStore (i386_cbneCbneStore al be csa)) 7 6 [rax]
      false al (.cbneCbneStore v expect v2 expect2 newv) := by
  intro cpu l m h
  have h_v := h.reg .v _ rfl
  have f_v := h.free .v _ rfl
  have h_expect := h.reg .expect _ rfl
  have f_expect := h.free .expect _ rfl
  have h_v2 := h.reg .v2 _ rfl
  have f_v2 := h.free .v2 _ rfl
  have h_expect2 := h.reg .expect2 _ rfl
  have f_expect2 := h.free .expect2 _ rfl
  have f0 := h.freeCpu
  have hp := h.pc
  have hc := h.cpuV
  simp [rregs] at f0 f_v f_expect f_v2 f_expect2
  by_cases he : ldw be m v = expect
  · by_cases he2 : ldw be m v2 = expect2
    · skip
      intro _
      simp [rrun, i386_cbneCbneStore, hp, hc, f0, h_v, f_v, h_expect, f_expect, h_v2, f_v2, h_expect2, f_expect2, setWidth32_setWidth hn, sub_eq_zero_iff, upd_upd, he, he2, twiceOf, insertBlock, twiceBlk, cpuChk, neChk, eqChk, twiceExit, hasTear, twiceAt, tearDown, Instr.shift, Pc.shift]
      try (funext x; simp only [upd]; repeat' split)
      all_goals simp_all
    · have hn2 := Ne.symm he2
      simp [rrun, i386_cbneCbneStore, hp, hc, f0, h_v, f_v, h_expect, f_expect, h_v2, f_v2, h_expect2, f_expect2, setWidth32_setWidth hn, sub_eq_zero_iff, upd_upd, he, he2, hn2]
  · have hn1 := Ne.symm he
    simp [rrun, i386_cbneCbneStore, hp, hc, f0, h_v, f_v, h_expect, f_expect, h_v2, f_v2, h_expect2, f_expect2, setWidth32_setWidth hn, sub_eq_zero_iff, upd_upd, he, hn1]

theorem i386_cbneStoreStore_blk (hn : 4 ≤ n) (al : Opnd → Nat) (be : Bool) (csa v expect v2 newv2 newv : W n) :
    BlockOK (i386_cbneStoreStore al be csa) (twiceOf al .i386 .cbneStoreStore (i386_cbneStoreStore al be csa)) 6 5 [rax]
      false al (.cbneStoreStore v expect v2 newv2 newv) := by
  intro cpu l m h
  have h_v := h.reg .v _ rfl
  have f_v := h.free .v _ rfl
  have h_expect := h.reg .expect _ rfl
  have f_expect := h.free .expect _ rfl
  have s_expect := h.slot .expect _ rfl (by decide)
  simp [slotOf] at s_expect
  have f0 := h.freeCpu
  have hp := h.pc
  have hc := h.cpuV
  simp [rregs] at f0 f_v f_expect
  by_cases he : ldw be m v = expect
  · skip
    intro _
    simp [rrun, i386_cbneStoreStore, hp, hc, f0, h_v, f_v, h_expect, f_expect, s_expect, slotOf, setWidth32_setWidth hn, sub_eq_zero_iff, upd_upd, he, twiceOf, insertBlock, twiceBlk, cpuChk, neChk, eqChk, twiceExit, hasTear, twiceAt, tearDown, Instr.shift, Pc.shift]
    try (funext x; simp only [upd]; repeat' split)
    all_goals simp_all
  · have hn1 := Ne.symm he
    simp [rrun, i386_cbneStoreStore, hp, hc, f0, h_v, f_v, h_expect, f_expect, s_expect, slotOf, setWidth32_setWidth hn, sub_eq_zero_iff, upd_upd, he, hn1]

theorem i386_cbneStoreStore_rel_blk (hn : 4 ≤ n) (al : Opnd → Nat) (be : Bool) (csa v expect v2 newv2 newv : W n) :
    BlockOK (i386_cbneStoreStore_rel al be csa) (twiceOf al .i386 .cbneStoreStore (i386_cbneStoreStore_rel al be csa)) 6 5 [rax]
      false al (.cbneStoreStore v expect v2 newv2 newv) := by
  intro cpu l m h
  have h_v := h.reg .v _ rfl
  have f_v := h.free .v _ rfl
  have h_expect := h.reg .expect _ rfl
  have f_expect := h.free .expect _ rfl
  have s_expect := h.slot .expect _ rfl (by decide)
  simp [slotOf] at s_expect
  have f0 := h.freeCpu
  have hp := h.pc
  have hc := h.cpuV
  simp [rregs] at f0 f_v f_expect
  by_cases he : ldw be m v = expect
  · skip
    intro _
    simp [rrun, i386_cbneStoreStore_rel, hp, hc, f0, h_v, f_v, h_expect, f_expect, s_expect, slotOf, setWidth32_setWidth hn, sub_eq_zero_iff, upd_upd, he, twiceOf, insertBlock, twiceBlk, cpuChk, neChk, eqChk, twiceExit, hasTear, twiceAt, tearDown, Instr.shift, Pc.shift]
    try (funext x; simp only [upd]; repeat' split)
    all_goals simp_all
  · have hn1 := Ne.symm he
    simp [rrun, i386_cbneStoreStore_rel, hp, hc, f0, h_v, f_v, h_expect, f_expect, s_expect, slotOf, setWidth32_setWidth hn, sub_eq_zero_iff, upd_upd, he, hn1]

theorem i386_cbneMemcpyStore_blk (hn : 4 ≤ n) (al : Opnd → Nat) (be : Bool) (csa v expect dst src len newv : W n) :
    BlockOK (i386_cbneMemcpyStore al be csa) (twiceOf al .i386 .cbneMemcpyStore (i386_cbneMemcpyStore al be csa)) 6 4 [rax, rbx, rcx, rdx]
      false al (.cbneMemcpyStore v expect dst src len newv) := by
  intro cpu l m h
  have h_v := h.reg .v _ rfl
  have f_v := h.free .v _ rfl
  have h_expect := h.reg .expect _ rfl
  have f_expect := h.free .expect _ rfl
  have s_expect := h.slot .expect _ rfl (by decide)
  simp [slotOf] at s_expect
  have f0 := h.freeCpu
  have hp := h.pc
  have hc := h.cpuV
  simp [rregs] at f0 f_v f_expect
  by_cases he : ldw be m v = expect
  · skip
    intro _
    simp [rrun, i386_cbneMemcpyStore, hp, hc, f0, h_v, f_v, h_expect, f_expect, s_expect, slotOf, setWidth32_setWidth hn, sub_eq_zero_iff, upd_upd, he, twiceOf, insertBlock, twiceBlk, cpuChk, neChk, eqChk, twiceExit, hasTear, twiceAt, tearDown, Instr.shift, Pc.shift]
    try (funext x; simp only [upd]; repeat' split)
    all_goals simp_all
  · have hn1 := Ne.symm he
    simp [rrun, i386_cbneMemcpyStore, hp, hc, f0, h_v, f_v, h_expect, f_expect, s_expect, slotOf, setWidth32_setWidth hn, sub_eq_zero_iff, upd_upd, he, hn1]

theorem i386_cbneMemcpyStore_rel_blk (hn : 4 ≤ n) (al : Opnd → Nat) (be : Bool) (csa v expect dst src len newv : W n) :
    BlockOK (i386_cbneMemcpyStore_rel al be csa) (twiceOf al .i386 .cbneMemcpyStore (i386_cbneMemcpyStore_rel al be csa)) 6 4 [rax, rbx, rcx, rdx]
      false al (.cbneMemcpyStore v expect dst src len newv) := by
  intro cpu l m h
  have h_v := h.reg .v _ rfl
  have f_v := h.free .v _ rfl
  have h_expect := h.reg .expect _ rfl
  have f_expect := h.free .expect _ rfl
  have s_expect := h.slot .expect _ rfl (by decide)
  simp [slotOf] at s_expect
  have f0 := h.freeCpu
  have hp := h.pc
  have hc := h.cpuV
  simp [rregs] at f0 f_v f_expect
  by_cases he : ldw be m v = expect
  · skip
    intro _
    simp [rrun, i386_cbneMemcpyStore_rel, hp, hc, f0, h_v, f_v, h_expect, f_expect, s_expect, slotOf, setWidth32_setWidth hn, sub_eq_zero_iff, upd_upd, he, twiceOf, insertBlock, twiceBlk, cpuChk, neChk, eqChk, twiceExit, hasTear, twiceAt, tearDown, Instr.shift, Pc.shift]
    try (funext x; simp only [upd]; repeat' split)
    all_goals simp_all
  · have hn1 := Ne.symm he
    simp [rrun, i386_cbneMemcpyStore_rel, hp, hc, f0, h_v, f_v, h_expect, f_expect, s_expect, slotOf, setWidth32_setWidth hn, sub_eq_zero_iff, upd_upd, he, hn1]

theorem aarch64_cbneStore_blk (hn : 4 ≤ n) (al : Opnd → Nat) (be : Bool) (csa v expect newv : W n) :
    BlockOK (aarch64_cbneStore al be csa) (twiceOf al .aarch64 .cbneStore (aarch64_cbneStore al be csa)) 7 6 [x15]
      false al (.cbneStore v expect newv) := by
  intro cpu l m h
  have h_v := h.reg .v _ rfl
  have f_v := h.free .v _ rfl
  have h_expect := h.reg .expect _ rfl
  have f_expect := h.free .expect _ rfl
  have f0 := h.freeCpu
  have hp := h.pc
  have hc := h.cpuV
  simp [rregs] at f0 f_v f_expect
  by_cases he : ldw be m v = expect
  · skip
    intro _
    simp [rrun, aarch64_cbneStore, hp, hc, f0, h_v, f_v, h_expect, f_expect, setWidth32_setWidth hn, sub_eq_zero_iff, upd_upd, he, twiceOf, insertBlock, twiceBlk, cpuChk, neChk, eqChk, twiceExit, hasTear, twiceAt, tearDown, Instr.shift, Pc.shift]
    try (funext x; simp only [upd]; repeat' split)
    all_goals simp_all
  · have hn1 := Ne.symm he
    simp [rrun, aarch64_cbneStore, hp, hc, f0, h_v, f_v, h_expect, f_expect, setWidth32_setWidth hn, sub_eq_zero_iff, upd_upd, he, hn1]

theorem aarch64_cbeqStoreAddLoadStore_blk (hn : 4 ≤ n) (al : Opnd → Nat) (be : Bool) (csa v expectnot voffp load : W n) :
    BlockOK (aarch64_cbeqStoreAddLoadStore al be csa) (twiceOf al .aarch64 .cbeqStoreAddLoadStore (aarch64_cbeqStoreAddLoadStore al be csa)) 7 6 [x15]
      false al (.cbeqStoreAddLoadStore v expectnot voffp load) := by
  intro cpu l m h
  have h_v := h.reg .v _ rfl
  have f_v := h.free .v _ rfl
  have h_expectnot := h.reg .expectnot _ rfl
  have f_expectnot := h.free .expectnot _ rfl
  have f0 := h.freeCpu
  have hp := h.pc
  have hc := h.cpuV
  simp [rregs] at f0 f_v f_expectnot
  by_cases he : ldw be m v = expectnot
  · simp [rrun, aarch64_cbeqStoreAddLoadStore, hp, hc, f0, h_v, f_v, h_expectnot, f_expectnot, setWidth32_setWidth hn, sub_eq_zero_iff, upd_upd, he]
  · have hn1 := Ne.symm he
    intro _
    simp [rrun, aarch64_cbeqStoreAddLoadStore, hp, hc, f0, h_v, f_v, h_expectnot, f_expectnot, setWidth32_setWidth hn, sub_eq_zero_iff, upd_upd, he, hn1, twiceOf, insertBlock, twiceBlk, cpuChk, neChk, eqChk, twiceExit, hasTear, twiceAt, tearDown, Instr.shift, Pc.shift]
    try (funext x; simp only [upd]; repeat' split)
    all_goals simp_all

theorem aarch64_addStore_blk (hn : 4 ≤ n) (al : Opnd → Nat) (be : Bool) (csa v count : W n) :
    BlockOK (aarch64_addStore al be csa) (twiceOf al .aarch64 .addStore (aarch64_addStore al be csa)) 4 3 [x15]
      false al (.addStore v count) := by
  intro cpu l m h
  have f0 := h.freeCpu
  have hp := h.pc
  have hc := h.cpuV
  simp [rregs] at f0 
  intro _
  simp [rrun, aarch64_addStore, hp, hc, f0, setWidth32_setWidth hn, sub_eq_zero_iff, upd_upd, twiceOf, insertBlock, twiceBlk, cpuChk, neChk, eqChk, twiceExit, hasTear, twiceAt, tearDown, Instr.shift, Pc.shift]
  try (funext x; simp only [upd]; repeat' split)
  all_goals simp_all

theorem aarch64_cbneCbneStore_blk (hn : 4 ≤ n) (al : Opnd → Nat) (be : Bool) (csa v expect v2 expect2 newv : W n) :
    BlockOK (aarch64_cbneCbneStore al be csa) (twiceOf al .aarch64 .cbneCbneStore (aarch64_cbneCbneStore al be csa)) 10 9 [x15]
      false al (.cbneCbneStore v expect v2 expect2 newv) := by
  intro cpu l m h
  have h_v := h.reg .v _ rfl
  have f_v := h.free .v _ rfl
  have h_expect := h.reg .expect _ rfl
  have f_expect := h.free .expect _ rfl
  have h_v2 := h.reg .v2 _ rfl
  have f_v2 := h.free .v2 _ rfl
  have h_expect2 := h.reg .expect2 _ rfl
  have f_expect2 := h.free .expect2 _ rfl
  have f0 := h.freeCpu
  have hp := h.pc
  have hc := h.cpuV
  simp [rregs] at f0 f_v f_expect f_v2 f_expect2
  by_cases he : ldw be m v = expect
  · by_cases he2 : ldw be m v2 = expect2
    · skip
      intro _
      simp [rrun, aarch64_cbneCbneStore, hp, hc, f0, h_v, f_v, h_expect, f_expect, h_v2, f_v2, h_expect2, f_expect2, setWidth32_setWidth hn, sub_eq_zero_iff, upd_upd, he, he2, twiceOf, insertBlock, twiceBlk, cpuChk, neChk, eqChk, twiceExit, hasTear, twiceAt, tearDown, Instr.shift, Pc.shift]
      try (funext x; simp only [upd]; repeat' split)
      all_goals simp_all
    · have hn2 := Ne.symm he2
      simp [rrun, aarch64_cbneCbneStore, hp, hc, f0, h_v, f_v, h_expect, f_expect, h_v2, f_v2, h_expect2, f_expect2, setWidth32_setWidth hn, sub_eq_zero_iff, upd_upd, he, he2, hn2]
  · have hn1 := Ne.symm he
    simp [rrun, aarch64_cbneCbneStore, hp, hc, f0, h_v, f_v, h_expect, f_expect, h_v2, f_v2, h_expect2, f_expect2, setWidth32_setWidth hn, sub_eq_zero_iff, upd_upd, he, hn1]

theorem aarch64_cbneStoreStore_blk (hn : 4 ≤ n) (al : Opnd → Nat) (be : Bool) (csa v expect v2 newv2 newv : W n) :
    BlockOK (aarch64_cbneStoreStore al be csa) (twiceOf al .aarch64 .cbneStoreStore (aarch64_cbneStoreStore al be csa)) 7 6 [x15]
      false al (.cbneStoreStore v expect v2 newv2 newv) := by
  intro cpu l m h
  have h_v := h.reg .v _ rfl
  have f_v := h.free .v _ rfl
  have h_expect := h.reg .expect _ rfl
  have f_expect := h.free .expect _ rfl
  have f0 := h.freeCpu
  have hp := h.pc
  have hc := h.cpuV
  simp [rregs] at f0 f_v f_expect
  by_cases he : ldw be m v = expect
  · skip
    intro _
    simp [rrun, aarch64_cbneStoreStore, hp, hc, f0, h_v, f_v, h_expect, f_expect, setWidth32_setWidth hn, sub_eq_zero_iff, upd_upd, he, twiceOf, insertBlock, twiceBlk, cpuChk, neChk, eqChk, twiceExit, hasTear, twiceAt, tearDown, Instr.shift, Pc.shift]
    try (funext x; simp only [upd]; repeat' split)
    all_goals simp_all
  · have hn1 := Ne.symm he
    simp [rrun, aarch64_cbneStoreStore, hp, hc, f0, h_v, f_v, h_expect, f_expect, setWidth32_setWidth hn, sub_eq_zero_iff, upd_upd, he, hn1]

theorem aarch64_cbneStoreStore_rel_blk (hn : 4 ≤ n) (al : Opnd → Nat) (be : Bool) (csa v expect v2 newv2 newv : W n) :
    BlockOK (aarch64_cbneStoreStore_rel al be csa) (twiceOf al .aarch64 .cbneStoreStore (aarch64_cbneStoreStore_rel al be csa)) 7 6 [x15]
      false al (.cbneStoreStore v expect v2 newv2 newv) := by
  intro cpu l m h
  have h_v := h.reg .v _ rfl
  have f_v := h.free .v _ rfl
  have h_expect := h.reg .expect _ rfl
  have f_expect := h.free .expect _ rfl
  have f0 := h.freeCpu
  have hp := h.pc
  have hc := h.cpuV
  simp [rregs] at f0 f_v f_expect
  by_cases he : ldw be m v = expect
  · skip
    intro _
    simp [rrun, aarch64_cbneStoreStore_rel, hp, hc, f0, h_v, f_v, h_expect, f_expect, setWidth32_setWidth hn, sub_eq_zero_iff, upd_upd, he, twiceOf, insertBlock, twiceBlk, cpuChk, neChk, eqChk, twiceExit, hasTear, twiceAt, tearDown, Instr.shift, Pc.shift]
    try (funext x; simp only [upd]; repeat' split)
    all_goals simp_all
  · have hn1 := Ne.symm he
    simp [rrun, aarch64_cbneStoreStore_rel, hp, hc, f0, h_v, f_v, h_expect, f_expect, setWidth32_setWidth hn, sub_eq_zero_iff, upd_upd, he, hn1]

theorem aarch64_cbneMemcpyStore_blk (hn : 4 ≤ n) (al : Opnd → Nat) (be : Bool) (csa v expect dst src len newv : W n) :
    BlockOK (aarch64_cbneMemcpyStore al be csa) (twiceOf al .aarch64 .cbneMemcpyStore (aarch64_cbneMemcpyStore al be csa)) 7 6 [x15, x14]
      false al (.cbneMemcpyStore v expect dst src len newv) := by
  intro cpu l m h
  have h_v := h.reg .v _ rfl
  have f_v := h.free .v _ rfl
  have h_expect := h.reg .expect _ rfl
  have f_expect := h.free .expect _ rfl
  have f0 := h.freeCpu
  have hp := h.pc
  have hc := h.cpuV
  simp [rregs] at f0 f_v f_expect
  by_cases he : ldw be m v = expect
  · skip
    intro _
    simp [rrun, aarch64_cbneMemcpyStore, hp, hc, f0, h_v, f_v, h_expect, f_expect, setWidth32_setWidth hn, sub_eq_zero_iff, upd_upd, he, twiceOf, insertBlock, twiceBlk, cpuChk, neChk, eqChk, twiceExit, hasTear, twiceAt, tearDown, Instr.shift, Pc.shift]
    try (funext x; simp only [upd]; repeat' split)
    all_goals simp_all
  · have hn1 := Ne.symm he
    simp [rrun, aarch64_cbneMemcpyStore, hp, hc, f0, h_v, f_v, h_expect, f_expect, setWidth32_setWidth hn, sub_eq_zero_iff, upd_upd, he, hn1]

theorem aarch64_cbneMemcpyStore_rel_blk (hn : 4 ≤ n) (al : Opnd → Nat) (be : Bool) (csa v expect dst src len newv : W n) :
    BlockOK (aarch64_cbneMemcpyStore_rel al be csa) (twiceOf al .aarch64 .cbneMemcpyStore (aarch64_cbneMemcpyStore_rel al be csa)) 7 6 [x15, x14]
      false al (.cbneMemcpyStore v expect dst src len newv) := by
  intro cpu l m h
  have h_v := h.reg .v _ rfl
  have f_v := h.free .v _ rfl
  have h_expect := h.reg .expect _ rfl
  have f_expect := h.free .expect _ rfl
  have f0 := h.freeCpu
  have hp := h.pc
  have hc := h.cpuV
  simp [rregs] at f0 f_v f_expect
  by_cases he : ldw be m v = expect
  · skip
    intro _
    simp [rrun, aarch64_cbneMemcpyStore_rel, hp, hc, f0, h_v, f_v, h_expect, f_expect, setWidth32_setWidth hn, sub_eq_zero_iff, upd_upd, he, twiceOf, insertBlock, twiceBlk, cpuChk, neChk, eqChk, twiceExit, hasTear, twiceAt, tearDown, Instr.shift, Pc.shift]
    try (funext x; simp only [upd]; repeat' split)
    all_goals simp_all
  · have hn1 := Ne.symm he
    simp [rrun, aarch64_cbneMemcpyStore_rel, hp, hc, f0, h_v, f_v, h_expect, f_expect, setWidth32_setWidth hn, sub_eq_zero_iff, upd_upd, he, hn1]

theorem riscv_cbneStore_blk (hn : 4 ≤ n) (al : Opnd → Nat) (be : Bool) (csa v expect newv : W n) :
    BlockOK (riscv_cbneStore al be csa) (twiceOf al .riscv .cbneStore (riscv_cbneStore al be csa)) 5 4 [t6]
      true al (.cbneStore v expect newv) := by
  intro cpu l m h
  have h_v := h.reg .v _ rfl
  have f_v := h.free .v _ rfl
  have h_expect := h.reg .expect _ rfl
  have f_expect := h.free .expect _ rfl
  have f0 := h.freeCpu
  have hp := h.pc
  have hc := h.cpuV
  have hs := h.cpuS rfl
  simp [rregs] at f0 f_v f_expect
  by_cases he : ldw be m v = expect
  · skip
    intro _
    simp [rrun, riscv_cbneStore, hp, hc, f0, h_v, f_v, h_expect, f_expect, hs, setWidth32_setWidth hn, sub_eq_zero_iff, upd_upd, he, twiceOf, insertBlock, twiceBlk, cpuChk, neChk, eqChk, twiceExit, hasTear, twiceAt, tearDown, Instr.shift, Pc.shift]
    try (funext x; simp only [upd]; repeat' split)
    all_goals simp_all
  · have hn1 := Ne.symm he
    simp [rrun, riscv_cbneStore, hp, hc, f0, h_v, f_v, h_expect, f_expect, hs, setWidth32_setWidth hn, sub_eq_zero_iff, upd_upd, he, hn1]

theorem riscv_cbeqStoreAddLoadStore_blk (hn : 4 ≤ n) (al : Opnd → Nat) (be : Bool) (csa v expectnot voffp load : W n) :
    BlockOK (riscv_cbeqStoreAddLoadStore al be csa) (twiceOf al .riscv .cbeqStoreAddLoadStore (riscv_cbeqStoreAddLoadStore al be csa)) 5 4 [t6]
      true al (.cbeqStoreAddLoadStore v expectnot voffp load) := by
  intro cpu l m h
  have h_v := h.reg .v _ rfl
  have f_v := h.free .v _ rfl
  have h_expectnot := h.reg .expectnot _ rfl
  have f_expectnot := h.free .expectnot _ rfl
  have f0 := h.freeCpu
  have hp := h.pc
  have hc := h.cpuV
  have hs := h.cpuS rfl
  simp [rregs] at f0 f_v f_expectnot
  by_cases he : ldw be m v = expectnot
  · simp [rrun, riscv_cbeqStoreAddLoadStore, hp, hc, f0, h_v, f_v, h_expectnot, f_expectnot, hs, setWidth32_setWidth hn, sub_eq_zero_iff, upd_upd, he]
  · have hn1 := Ne.symm he
    intro _
    simp [rrun, riscv_cbeqStoreAddLoadStore, hp, hc, f0, h_v, f_v, h_expectnot, f_expectnot, hs, setWidth32_setWidth hn, sub_eq_zero_iff, upd_upd, he, hn1, twiceOf, insertBlock, twiceBlk, cpuChk, neChk, eqChk, twiceExit, hasTear, twiceAt, tearDown, Instr.shift, Pc.shift]
    try (funext x; simp only [upd]; repeat' split)
    all_goals simp_all

theorem riscv_addStore_blk (hn : 4 ≤ n) (al : Opnd → Nat) (be : Bool) (csa v count : W n) :
    BlockOK (riscv_addStore al be csa) (twiceOf al .riscv .addStore (riscv_addStore al be csa)) 3 2 [t6]
      true al (.addStore v count) := by
  intro cpu l m h
  have f0 := h.freeCpu
  have hp := h.pc
  have hc := h.cpuV
  have hs := h.cpuS rfl
  simp [rregs] at f0 
  intro _
  simp [rrun, riscv_addStore, hp, hc, f0, hs, setWidth32_setWidth hn, sub_eq_zero_iff, upd_upd, twiceOf, insertBlock, twiceBlk, cpuChk, neChk, eqChk, twiceExit, hasTear, twiceAt, tearDown, Instr.shift, Pc.shift]
  try (funext x; simp only [upd]; repeat' split)
  all_goals simp_all

theorem riscv_cbneCbneStore_blk (hn : 4 ≤ n) (al : Opnd → Nat) (be : Bool) (csa v expect v2 expect2 newv : W n) :
    BlockOK (riscv_cbneCbneStore al be csa) (twiceOf al .riscv .cbneCbneStore (riscv_cbneCbneStore al be csa)) 7 6 [t6]
      true al (.cbneCbneStore v expect v2 expect2 newv) := by
  intro cpu l m h
  have h_v := h.reg .v _ rfl
  have f_v := h.free .v _ rfl
  have h_expect := h.reg .expect _ rfl
  have f_expect := h.free .expect _ rfl
  have h_v2 := h.reg .v2 _ rfl
  have f_v2 := h.free .v2 _ rfl
  have h_expect2 := h.reg .expect2 _ rfl
  have f_expect2 := h.free .expect2 _ rfl
  have f0 := h.freeCpu
  have hp := h.pc
  have hc := h.cpuV
  have hs := h.cpuS rfl
  simp [rregs] at f0 f_v f_expect f_v2 f_expect2
  by_cases he : ldw be m v = expect
  · by_cases he2 : ldw be m v2 = expect2
    · skip
      intro _
      simp [rrun, riscv_cbneCbneStore, hp, hc, f0, h_v, f_v, h_expect, f_expect, h_v2, f_v2, h_expect2, f_expect2, hs, setWidth32_setWidth hn, sub_eq_zero_iff, upd_upd, he, he2, twiceOf, insertBlock, twiceBlk, cpuChk, neChk, eqChk, twiceExit, hasTear, twiceAt, tearDown, Instr.shift, Pc.shift]
      try (funext x; simp only [upd]; repeat' split)
      all_goals simp_all
    · have hn2 := Ne.symm he2
      simp [rrun, riscv_cbneCbneStore, hp, hc, f0, h_v, f_v, h_expect, f_expect, h_v2, f_v2, h_expect2, f_expect2, hs, setWidth32_setWidth hn, sub_eq_zero_iff, upd_upd, he, he2, hn2]
  · have hn1 := Ne.symm he
    simp [rrun, riscv_cbneCbneStore, hp, hc, f0, h_v, f_v, h_expect, f_expect, h_v2, f_v2, h_expect2, f_expect2, hs, setWidth32_setWidth hn, sub_eq_zero_iff, upd_upd, he, hn1]

theorem riscv_cbneStoreStore_blk (hn : 4 ≤ n) (al : Opnd → Nat) (be : Bool) (csa v expect v2 newv2 newv : W n) :
    BlockOK (riscv_cbneStoreStore al be csa) (twiceOf al .riscv .cbneStoreStore (riscv_cbneStoreStore al be csa)) 5 4 [t6]
      true al (.cbneStoreStore v expect v2 newv2 newv) := by
  intro cpu l m h
  have h_v := h.reg .v _ rfl
  have f_v := h.free .v _ rfl
  have h_expect := h.reg .expect _ rfl
  have f_expect := h.free .expect _ rfl
  have f0 := h.freeCpu
  have hp := h.pc
  have hc := h.cpuV
  have hs := h.cpuS rfl
  simp [rregs] at f0 f_v f_expect
  by_cases he : ldw be m v = expect
  · skip
    intro _
    simp [rrun, riscv_cbneStoreStore, hp, hc, f0, h_v, f_v, h_expect, f_expect, hs, setWidth32_setWidth hn, sub_eq_zero_iff, upd_upd, he, twiceOf, insertBlock, twiceBlk, cpuChk, neChk, eqChk, twiceExit, hasTear, twiceAt, tearDown, Instr.shift, Pc.shift]
    try (funext x; simp only [upd]; repeat' split)
    all_goals simp_all
  · have hn1 := Ne.symm he
    simp [rrun, riscv_cbneStoreStore, hp, hc, f0, h_v, f_v, h_expect, f_expect, hs, setWidth32_setWidth hn, sub_eq_zero_iff, upd_upd, he, hn1]

theorem riscv_cbneStoreStore_rel_blk (hn : 4 ≤ n) (al : Opnd → Nat) (be : Bool) (csa v expect v2 newv2 newv : W n) :
    BlockOK (riscv_cbneStoreStore_rel al be csa) (twiceOf al .riscv .cbneStoreStore (riscv_cbneStoreStore_rel al be csa)) 5 4 [t6]
      true al (.cbneStoreStore v expect v2 newv2 newv) := by
  intro cpu l m h
  have h_v := h.reg .v _ rfl
  have f_v := h.free .v _ rfl
  have h_expect := h.reg .expect _ rfl
  have f_expect := h.free .expect _ rfl
  have f0 := h.freeCpu
  have hp := h.pc
  have hc := h.cpuV
  have hs := h.cpuS rfl
  simp [rregs] at f0 f_v f_expect
  by_cases he : ldw be m v = expect
  · skip
    intro _
    simp [rrun, riscv_cbneStoreStore_rel, hp, hc, f0, h_v, f_v, h_expect, f_expect, hs, setWidth32_setWidth hn, sub_eq_zero_iff, upd_upd, he, twiceOf, insertBlock, twiceBlk, cpuChk, neChk, eqChk, twiceExit, hasTear, twiceAt, tearDown, Instr.shift, Pc.shift]
    try (funext x; simp only [upd]; repeat' split)
    all_goals simp_all
  · have hn1 := Ne.symm he
    simp [rrun, riscv_cbneStoreStore_rel, hp, hc, f0, h_v, f_v, h_expect, f_expect, hs, setWidth32_setWidth hn, sub_eq_zero_iff, upd_upd, he, hn1]

theorem riscv_cbneMemcpyStore_blk (hn : 4 ≤ n) (al : Opnd → Nat) (be : Bool) (csa v expect dst src len newv : W n) :
    BlockOK (riscv_cbneMemcpyStore al be csa) (twiceOf al .riscv .cbneMemcpyStore (riscv_cbneMemcpyStore al be csa)) 5 4 [t6, t5, t4, t3]
      true al (.cbneMemcpyStore v expect dst src len newv) := by
  intro cpu l m h
  have h_v := h.reg .v _ rfl
  have f_v := h.free .v _ rfl
  have h_expect := h.reg .expect _ rfl
  have f_expect := h.free .expect _ rfl
  have f0 := h.freeCpu
  have hp := h.pc
  have hc := h.cpuV
  have hs := h.cpuS rfl
  simp [rregs] at f0 f_v f_expect
  by_cases he : ldw be m v = expect
  · skip
    intro _
    simp [rrun, riscv_cbneMemcpyStore, hp, hc, f0, h_v, f_v, h_expect, f_expect, hs, setWidth32_setWidth hn, sub_eq_zero_iff, upd_upd, he, twiceOf, insertBlock, twiceBlk, cpuChk, neChk, eqChk, twiceExit, hasTear, twiceAt, tearDown, Instr.shift, Pc.shift]
    try (funext x; simp only [upd]; repeat' split)
    all_goals simp_all
  · have hn1 := Ne.symm he
    simp [rrun, riscv_cbneMemcpyStore, hp, hc, f0, h_v, f_v, h_expect, f_expect, hs, setWidth32_setWidth hn, sub_eq_zero_iff, upd_upd, he, hn1]

theorem riscv_cbneMemcpyStore_rel_blk (hn : 4 ≤ n) (al : Opnd → Nat) (be : Bool) (csa v expect dst src len newv : W n) :
    BlockOK (riscv_cbneMemcpyStore_rel al be csa) (twiceOf al .riscv .cbneMemcpyStore (riscv_cbneMemcpyStore_rel al be csa)) 5 4 [t6, t5, t4, t3]
      true al (.cbneMemcpyStore v expect dst src len newv) := by
  intro cpu l m h
  have h_v := h.reg .v _ rfl
  have f_v := h.free .v _ rfl
  have h_expect := h.reg .expect _ rfl
  have f_expect := h.free .expect _ rfl
  have f0 := h.freeCpu
  have hp := h.pc
  have hc := h.cpuV
  have hs := h.cpuS rfl
  simp [rregs] at f0 f_v f_expect
  by_cases he : ldw be m v = expect
  · skip
    intro _
    simp [rrun, riscv_cbneMemcpyStore_rel, hp, hc, f0, h_v, f_v, h_expect, f_expect, hs, setWidth32_setWidth hn, sub_eq_zero_iff, upd_upd, he, twiceOf, insertBlock, twiceBlk, cpuChk, neChk, eqChk, twiceExit, hasTear, twiceAt, tearDown, Instr.shift, Pc.shift]
    try (funext x; simp only [upd]; repeat' split)
    all_goals simp_all
  · have hn1 := Ne.symm he
    simp [rrun, riscv_cbneMemcpyStore_rel, hp, hc, f0, h_v, f_v, h_expect, f_expect, hs, setWidth32_setWidth hn, sub_eq_zero_iff, upd_upd, he, hn1]

theorem ppc_cbneStore_blk (hn : 4 ≤ n) (al : Opnd → Nat) (be : Bool) (csa v expect newv : W n) :
    BlockOK (ppc_cbneStore al be csa) (twiceOf al .ppc .cbneStore (ppc_cbneStore al be csa)) 7 6 [r17]
      false al (.cbneStore v expect newv) := by
  intro cpu l m h
  have h_v := h.reg .v _ rfl
  have f_v := h.free .v _ rfl
  have h_expect := h.reg .expect _ rfl
  have f_expect := h.free .expect _ rfl
  have f0 := h.freeCpu
  have hp := h.pc
  have hc := h.cpuV
  simp [rregs] at f0 f_v f_expect
  by_cases he : ldw be m v = expect
  · skip
    intro _
    simp [rrun, ppc_cbneStore, hp, hc, f0, h_v, f_v, h_expect, f_expect, setWidth32_setWidth hn, sub_eq_zero_iff, upd_upd, he, twiceOf, insertBlock, twiceBlk, cpuChk, neChk, eqChk, twiceExit, hasTear, twiceAt, tearDown, Instr.shift, Pc.shift]
    try (funext x; simp only [upd]; repeat' split)
    all_goals simp_all
  · have hn1 := Ne.symm he
    simp [rrun, ppc_cbneStore, hp, hc, f0, h_v, f_v, h_expect, f_expect, setWidth32_setWidth hn, sub_eq_zero_iff, upd_upd, he, hn1]

theorem ppc_cbeqStoreAddLoadStore_blk (hn : 4 ≤ n) (al : Opnd → Nat) (be : Bool) (csa v expectnot voffp load : W n) :
    BlockOK (ppc_cbeqStoreAddLoadStore al be csa) (twiceOf al .ppc .cbeqStoreAddLoadStore (ppc_cbeqStoreAddLoadStore al be csa)) 7 6 [r17]
      false al (.cbeqStoreAddLoadStore v expectnot voffp load) := by
  intro cpu l m h
  have h_v := h.reg .v _ rfl
  have f_v := h.free .v _ rfl
  have h_expectnot := h.reg .expectnot _ rfl
  have f_expectnot := h.free .expectnot _ rfl
  have f0 := h.freeCpu
  have hp := h.pc
  have hc := h.cpuV
  simp [rregs] at f0 f_v f_expectnot
  by_cases he : ldw be m v = expectnot
  · simp [rrun, ppc_cbeqStoreAddLoadStore, hp, hc, f0, h_v, f_v, h_expectnot, f_expectnot, setWidth32_setWidth hn, sub_eq_zero_iff, upd_upd, he]
  · have hn1 := Ne.symm he
    intro _
    simp [rrun, ppc_cbeqStoreAddLoadStore, hp, hc, f0, h_v, f_v, h_expectnot, f_expectnot, setWidth32_setWidth hn, sub_eq_zero_iff, upd_upd, he, hn1, twiceOf, insertBlock, twiceBlk, cpuChk, neChk, eqChk, twiceExit, hasTear, twiceAt, tearDown, Instr.shift, Pc.shift]
    try (funext x; simp only [upd]; repeat' split)
    all_goals simp_all

theorem ppc_addStore_blk (hn : 4 ≤ n) (al : Opnd → Nat) (be : Bool) (csa v count : W n) :
    BlockOK (ppc_addStore al be csa) (twiceOf al .ppc .addStore (ppc_addStore al be csa)) 4 3 [r17]
      false al (.addStore v count) := by
  intro cpu l m h
  have f0 := h.freeCpu
  have hp := h.pc
  have hc := h.cpuV
  simp [rregs] at f0 
  intro _
  simp [rrun, ppc_addStore, hp, hc, f0, setWidth32_setWidth hn, sub_eq_zero_iff, upd_upd, twiceOf, insertBlock, twiceBlk, cpuChk, neChk, eqChk, twiceExit, hasTear, twiceAt, tearDown, Instr.shift, Pc.shift]
  try (funext x; simp only [upd]; repeat' split)
  all_goals simp_all

theorem ppc_cbneCbneStore_blk (hn : 4 ≤ n) (al : Opnd → Nat) (be : Bool) (csa v expect v2 expect2 newv : W n) :
    BlockOK (ppc_cbneCbneStore al be csa) (twiceOf al .ppc .cbneCbneStore (ppc_cbneCbneStore al be csa)) 10 9 [r17]
      false al (.cbneCbneStore v expect v2 expect2 newv) := by
  intro cpu l m h
  have h_v := h.reg .v _ rfl
  have f_v := h.free .v _ rfl
  have h_expect := h.reg .expect _ rfl
  have f_expect := h.free .expect _ rfl
  have h_v2 := h.reg .v2 _ rfl
  have f_v2 := h.free .v2 _ rfl
  have h_expect2 := h.reg .expect2 _ rfl
  have f_expect2 := h.free .expect2 _ rfl
  have f0 := h.freeCpu
  have hp := h.pc
  have hc := h.cpuV
  simp [rregs] at f0 f_v f_expect f_v2 f_expect2
  by_cases he : ldw be m v = expect
  · by_cases he2 : ldw be m v2 = expect2
    · skip
      intro _
      simp [rrun, ppc_cbneCbneStore, hp, hc, f0, h_v, f_v, h_expect, f_expect, h_v2, f_v2, h_expect2, f_expect2, setWidth32_setWidth hn, sub_eq_zero_iff, upd_upd, he, he2, twiceOf, insertBlock, twiceBlk, cpuChk, neChk, eqChk, twiceExit, hasTear, twiceAt, tearDown, Instr.shift, Pc.shift]
      try (funext x; simp only [upd]; repeat' split)
      all_goals simp_all
    · have hn2 := Ne.symm he2
      simp [rrun, ppc_cbneCbneStore, hp, hc, f0, h_v, f_v, h_expect, f_expect, h_v2, f_v2, h_expect2, f_expect2, setWidth32_setWidth hn, sub_eq_zero_iff, upd_upd, he, he2, hn2]
  · have hn1 := Ne.symm he
    simp [rrun, ppc_cbneCbneStore, hp, hc, f0, h_v, f_v, h_expect, f_expect, h_v2, f_v2, h_expect2, f_expect2, setWidth32_setWidth hn, sub_eq_zero_iff, upd_upd, he, hn1]

theorem ppc_cbneStoreStore_blk (hn : 4 ≤ n) (al : Opnd → Nat) (be : Bool) (csa v expect v2 newv2 newv : W n) :
    BlockOK (ppc_cbneStoreStore al be csa) (twiceOf al .ppc .cbneStoreStore (ppc_cbneStoreStore al be csa)) 7 6 [r17]
      false al (.cbneStoreStore v expect v2 newv2 newv) := by
  intro cpu l m h
  have h_v := h.reg .v _ rfl
  have f_v := h.free .v _ rfl
  have h_expect := h.reg .expect _ rfl
  have f_expect := h.free .expect _ rfl
  have f0 := h.freeCpu
  have hp := h.pc
  have hc := h.cpuV
  simp [rregs] at f0 f_v f_expect
  by_cases he : ldw be m v = expect
  · skip
    intro _
    simp [rrun, ppc_cbneStoreStore, hp, hc, f0, h_v, f_v, h_expect, f_expect, setWidth32_setWidth hn, sub_eq_zero_iff, upd_upd, he, twiceOf, insertBlock, twiceBlk, cpuChk, neChk, eqChk, twiceExit, hasTear, twiceAt, tearDown, Instr.shift, Pc.shift]
    try (funext x; simp only [upd]; repeat' split)
    all_goals simp_all
  · have hn1 := Ne.symm he
    simp [rrun, ppc_cbneStoreStore, hp, hc, f0, h_v, f_v, h_expect, f_expect, setWidth32_setWidth hn, sub_eq_zero_iff, upd_upd, he, hn1]

theorem ppc_cbneStoreStore_rel_blk (hn : 4 ≤ n) (al : Opnd → Nat) (be : Bool) (csa v expect v2 newv2 newv : W n) :
    BlockOK (ppc_cbneStoreStore_rel al be csa) (twiceOf al .ppc .cbneStoreStore (ppc_cbneStoreStore_rel al be csa)) 7 6 [r17]
      false al (.cbneStoreStore v expect v2 newv2 newv) := by
  intro cpu l m h
  have h_v := h.reg .v _ rfl
  have f_v := h.free .v _ rfl
  have h_expect := h.reg .expect _ rfl
  have f_expect := h.free .expect _ rfl
  have f0 := h.freeCpu
  have hp := h.pc
  have hc := h.cpuV
  simp [rregs] at f0 f_v f_expect
  by_cases he : ldw be m v = expect
  · skip
    intro _
    simp [rrun, ppc_cbneStoreStore_rel, hp, hc, f0, h_v, f_v, h_expect, f_expect, setWidth32_setWidth hn, sub_eq_zero_iff, upd_upd, he, twiceOf, insertBlock, twiceBlk, cpuChk, neChk, eqChk, twiceExit, hasTear, twiceAt, tearDown, Instr.shift, Pc.shift]
    try (funext x; simp only [upd]; repeat' split)
    all_goals simp_all
  · have hn1 := Ne.symm he
    simp [rrun, ppc_cbneStoreStore_rel, hp, hc, f0, h_v, f_v, h_expect, f_expect, setWidth32_setWidth hn, sub_eq_zero_iff, upd_upd, he, hn1]

theorem ppc_cbneMemcpyStore_blk (hn : 4 ≤ n) (al : Opnd → Nat) (be : Bool) (csa v expect dst src len newv : W n) :
    BlockOK (ppc_cbneMemcpyStore al be csa) (twiceOf al .ppc .cbneMemcpyStore (ppc_cbneMemcpyStore al be csa)) 10 6 [r17, r18, r19, r20, r21]
      false al (.cbneMemcpyStore v expect dst src len newv) := by
  intro cpu l m h
  have h_v := h.reg .v _ rfl
  have f_v := h.free .v _ rfl
  have h_expect := h.reg .expect _ rfl
  have f_expect := h.free .expect _ rfl
  have f0 := h.freeCpu
  have hp := h.pc
  have hc := h.cpuV
  simp [rregs] at f0 f_v f_expect
  by_cases he : ldw be m v = expect
  · skip
    intro _
    simp [rrun, ppc_cbneMemcpyStore, hp, hc, f0, h_v, f_v, h_expect, f_expect, setWidth32_setWidth hn, sub_eq_zero_iff, upd_upd, he, twiceOf, insertBlock, twiceBlk, cpuChk, neChk, eqChk, twiceExit, hasTear, twiceAt, tearDown, Instr.shift, Pc.shift]
    try (funext x; simp only [upd]; repeat' split)
    all_goals simp_all
  · have hn1 := Ne.symm he
    simp [rrun, ppc_cbneMemcpyStore, hp, hc, f0, h_v, f_v, h_expect, f_expect, setWidth32_setWidth hn, sub_eq_zero_iff, upd_upd, he, hn1]

theorem ppc_cbneMemcpyStore_rel_blk (hn : 4 ≤ n) (al : Opnd → Nat) (be : Bool) (csa v expect dst src len newv : W n) :
    BlockOK (ppc_cbneMemcpyStore_rel al be csa) (twiceOf al .ppc .cbneMemcpyStore (ppc_cbneMemcpyStore_rel al be csa)) 10 6 [r17, r18, r19, r20, r21]
      false al (.cbneMemcpyStore v expect dst src len newv) := by
  intro cpu l m h
  have h_v := h.reg .v _ rfl
  have f_v := h.free .v _ rfl
  have h_expect := h.reg .expect _ rfl
  have f_expect := h.free .expect _ rfl
  have f0 := h.freeCpu
  have hp := h.pc
  have hc := h.cpuV
  simp [rregs] at f0 f_v f_expect
  by_cases he : ldw be m v = expect
  · skip
    intro _
    simp [rrun, ppc_cbneMemcpyStore_rel, hp, hc, f0, h_v, f_v, h_expect, f_expect, setWidth32_setWidth hn, sub_eq_zero_iff, upd_upd, he, twiceOf, insertBlock, twiceBlk, cpuChk, neChk, eqChk, twiceExit, hasTear, twiceAt, tearDown, Instr.shift, Pc.shift]
    try (funext x; simp only [upd]; repeat' split)
    all_goals simp_all
  · have hn1 := Ne.symm he
    simp [rrun, ppc_cbneMemcpyStore_rel, hp, hc, f0, h_v, f_v, h_expect, f_expect, setWidth32_setWidth hn, sub_eq_zero_iff, upd_upd, he, hn1]

theorem s390_cbneStore_blk (hn : 4 ≤ n) (al : Opnd → Nat) (be : Bool) (csa v expect newv : W n) :
    BlockOK (s390_cbneStore al be csa) (twiceOf al .s390 .cbneStore (s390_cbneStore al be csa)) 5 4 [g0]
      false al (.cbneStore v expect newv) := by
  intro cpu l m h
  have h_v := h.reg .v _ rfl
  have f_v := h.free .v _ rfl
  have h_expect := h.reg .expect _ rfl
  have f_expect := h.free .expect _ rfl
  have f0 := h.freeCpu
  have hp := h.pc
  have hc := h.cpuV
  simp [rregs] at f0 f_v f_expect
  by_cases he : ldw be m v = expect
  · skip
    intro _
    simp [rrun, s390_cbneStore, hp, hc, f0, h_v, f_v, h_expect, f_expect, setWidth32_setWidth hn, sub_eq_zero_iff, upd_upd, he, twiceOf, insertBlock, twiceBlk, cpuChk, neChk, eqChk, twiceExit, hasTear, twiceAt, tearDown, Instr.shift, Pc.shift]
    try (funext x; simp only [upd]; repeat' split)
    all_goals simp_all
  · have hn1 := Ne.symm he
    simp [rrun, s390_cbneStore, hp, hc, f0, h_v, f_v, h_expect, f_expect, setWidth32_setWidth hn, sub_eq_zero_iff, upd_upd, he, hn1]

theorem s390_cbeqStoreAddLoadStore_blk (hn : 4 ≤ n) (al : Opnd → Nat) (be : Bool) (csa v expectnot voffp load : W n) :
    BlockOK (s390_cbeqStoreAddLoadStore al be csa) (twiceOf al .s390 .cbeqStoreAddLoadStore (s390_cbeqStoreAddLoadStore al be csa)) 6 5 [g0, g1]
      false al (.cbeqStoreAddLoadStore v expectnot voffp load) := by
  intro cpu l m h
  have h_v := h.reg .v _ rfl
  have f_v := h.free .v _ rfl
  have h_expectnot := h.reg .expectnot _ rfl
  have f_expectnot := h.free .expectnot _ rfl
  have f0 := h.freeCpu
  have hp := h.pc
  have hc := h.cpuV
  simp [rregs] at f0 f_v f_expectnot
  by_cases he : ldw be m v = expectnot
  · simp [rrun, s390_cbeqStoreAddLoadStore, hp, hc, f0, h_v, f_v, h_expectnot, f_expectnot, setWidth32_setWidth hn, sub_eq_zero_iff, upd_upd, he]
  · have hn1 := Ne.symm he
    intro _
    simp [rrun, s390_cbeqStoreAddLoadStore, hp, hc, f0, h_v, f_v, h_expectnot, f_expectnot, setWidth32_setWidth hn, sub_eq_zero_iff, upd_upd, he, hn1, twiceOf, insertBlock, twiceBlk, cpuChk, neChk, eqChk, twiceExit, hasTear, twiceAt, tearDown, Instr.shift, Pc.shift]
    try (funext x; simp only [upd]; repeat' split)
    all_goals simp_all

theorem s390_addStore_blk (hn : 4 ≤ n) (al : Opnd → Nat) (be : Bool) (csa v count : W n) :
    BlockOK (s390_addStore al be csa) (twiceOf al .s390 .addStore (s390_addStore al be csa)) 3 2 [g0]
      false al (.addStore v count) := by
  intro cpu l m h
  have f0 := h.freeCpu
  have hp := h.pc
  have hc := h.cpuV
  simp [rregs] at f0 
  intro _
  simp [rrun, s390_addStore, hp, hc, f0, setWidth32_setWidth hn, sub_eq_zero_iff, upd_upd, twiceOf, insertBlock, twiceBlk, cpuChk, neChk, eqChk, twiceExit, hasTear, twiceAt, tearDown, Instr.shift, Pc.shift]
  try (funext x; simp only [upd]; repeat' split)
  all_goals simp_all

theorem s390_cbneCbneStore_blk (hn : 4 ≤ n) (al : Opnd → Nat) (be : Bool) (csa v expect v2 expect2 newv : W n) :
    BlockOK (s390_cbneCbneStore al be csa) (twiceOf al .s390 .cbneCbneStore (s390_cbneCbneStore al be csa)) 7 6 [g0]
      false al (.cbneCbneStore v expect v2 expect2 newv) := by
  intro cpu l m h
  have h_v := h.reg .v _ rfl
  have f_v := h.free .v _ rfl
  have h_expect := h.reg .expect _ rfl
  have f_expect := h.free .expect _ rfl
  have h_v2 := h.reg .v2 _ rfl
  have f_v2 := h.free .v2 _ rfl
  have h_expect2 := h.reg .expect2 _ rfl
  have f_expect2 := h.free .expect2 _ rfl
  have f0 := h.freeCpu
  have hp := h.pc
  have hc := h.cpuV
  simp [rregs] at f0 f_v f_expect f_v2 f_expect2
  by_cases he : ldw be m v = expect
  · by_cases he2 : ldw be m v2 = expect2
    · skip
      intro _
      simp [rrun, s390_cbneCbneStore, hp, hc, f0, h_v, f_v, h_expect, f_expect, h_v2, f_v2, h_expect2, f_expect2, setWidth32_setWidth hn, sub_eq_zero_iff, upd_upd, he, he2, twiceOf, insertBlock, twiceBlk, cpuChk, neChk, eqChk, twiceExit, hasTear, twiceAt, tearDown, Instr.shift, Pc.shift]
      try (funext x; simp only [upd]; repeat' split)
      all_goals simp_all
    · have hn2 := Ne.symm he2
      simp [rrun, s390_cbneCbneStore, hp, hc, f0, h_v, f_v, h_expect, f_expect, h_v2, f_v2, h_expect2, f_expect2, setWidth32_setWidth hn, sub_eq_zero_iff, upd_upd, he, he2, hn2]
  · have hn1 := Ne.symm he
    simp [rrun, s390_cbneCbneStore, hp, hc, f0, h_v, f_v, h_expect, f_expect, h_v2, f_v2, h_expect2, f_expect2, setWidth32_setWidth hn, sub_eq_zero_iff, upd_upd, he, hn1]

theorem s390_cbneStoreStore_blk (hn : 4 ≤ n) (al : Opnd → Nat) (be : Bool) (csa v expect v2 newv2 newv : W n) :
    BlockOK (s390_cbneStoreStore al be csa) (twiceOf al .s390 .cbneStoreStore (s390_cbneStoreStore al be csa)) 5 4 [g0]
      false al (.cbneStoreStore v expect v2 newv2 newv) := by
  intro cpu l m h
  have h_v := h.reg .v _ rfl
  have f_v := h.free .v _ rfl
  have h_expect := h.reg .expect _ rfl
  have f_expect := h.free .expect _ rfl
  have f0 := h.freeCpu
  have hp := h.pc
  have hc := h.cpuV
  simp [rregs] at f0 f_v f_expect
  by_cases he : ldw be m v = expect
  · skip
    intro _
    simp [rrun, s390_cbneStoreStore, hp, hc, f0, h_v, f_v, h_expect, f_expect, setWidth32_setWidth hn, sub_eq_zero_iff, upd_upd, he, twiceOf, insertBlock, twiceBlk, cpuChk, neChk, eqChk, twiceExit, hasTear, twiceAt, tearDown, Instr.shift, Pc.shift]
    try (funext x; simp only [upd]; repeat' split)
    all_goals simp_all
  · have hn1 := Ne.symm he
    simp [rrun, s390_cbneStoreStore, hp, hc, f0, h_v, f_v, h_expect, f_expect, setWidth32_setWidth hn, sub_eq_zero_iff, upd_upd, he, hn1]

theorem s390_cbneMemcpyStore_blk (hn : 4 ≤ n) (al : Opnd → Nat) (be : Bool) (csa v expect dst src len newv : W n) :
    BlockOK (s390_cbneMemcpyStore al be csa) (twiceOf al .s390 .cbneMemcpyStore (s390_cbneMemcpyStore al be csa)) 8 4 [g0]
      false al (.cbneMemcpyStore v expect dst src len newv) := by
  intro cpu l m h
  have h_v := h.reg .v _ rfl
  have f_v := h.free .v _ rfl
  have h_expect := h.reg .expect _ rfl
  have f_expect := h.free .expect _ rfl
  have f0 := h.freeCpu
  have hp := h.pc
  have hc := h.cpuV
  simp [rregs] at f0 f_v f_expect
  by_cases he : ldw be m v = expect
  · skip
    intro _
    simp [rrun, s390_cbneMemcpyStore, hp, hc, f0, h_v, f_v, h_expect, f_expect, setWidth32_setWidth hn, sub_eq_zero_iff, upd_upd, he, twiceOf, insertBlock, twiceBlk, cpuChk, neChk, eqChk, twiceExit, hasTear, twiceAt, tearDown, Instr.shift, Pc.shift]
    try (funext x; simp only [upd]; repeat' split)
    all_goals simp_all
  · have hn1 := Ne.symm he
    simp [rrun, s390_cbneMemcpyStore, hp, hc, f0, h_v, f_v, h_expect, f_expect, setWidth32_setWidth hn, sub_eq_zero_iff, upd_upd, he, hn1]

theorem mips_cbneStore_blk (hn : 4 ≤ n) (al : Opnd → Nat) (be : Bool) (csa v expect newv : W n) :
    BlockOK (mips_cbneStore al be csa) (twiceOf al .mips .cbneStore (mips_cbneStore al be csa)) 5 4 [m4]
      true al (.cbneStore v expect newv) := by
  intro cpu l m h
  have h_v := h.reg .v _ rfl
  have f_v := h.free .v _ rfl
  have h_expect := h.reg .expect _ rfl
  have f_expect := h.free .expect _ rfl
  have f0 := h.freeCpu
  have hp := h.pc
  have hc := h.cpuV
  have hs := h.cpuS rfl
  simp [rregs] at f0 f_v f_expect
  by_cases he : ldw be m v = expect
  · skip
    intro _
    simp [rrun, mips_cbneStore, hp, hc, f0, h_v, f_v, h_expect, f_expect, hs, setWidth32_setWidth hn, sub_eq_zero_iff, upd_upd, he, twiceOf, insertBlock, twiceBlk, cpuChk, neChk, eqChk, twiceExit, hasTear, twiceAt, tearDown, Instr.shift, Pc.shift]
    try (funext x; simp only [upd]; repeat' split)
    all_goals simp_all
  · have hn1 := Ne.symm he
    simp [rrun, mips_cbneStore, hp, hc, f0, h_v, f_v, h_expect, f_expect, hs, setWidth32_setWidth hn, sub_eq_zero_iff, upd_upd, he, hn1]

theorem mips_cbeqStoreAddLoadStore_blk (hn : 4 ≤ n) (al : Opnd → Nat) (be : Bool) (csa v expectnot voffp load : W n) :
    BlockOK (mips_cbeqStoreAddLoadStore al be csa) (twiceOf al .mips .cbeqStoreAddLoadStore (mips_cbeqStoreAddLoadStore al be csa)) 5 4 [m4]
      true al (.cbeqStoreAddLoadStore v expectnot voffp load) := by
  intro cpu l m h
  have h_v := h.reg .v _ rfl
  have f_v := h.free .v _ rfl
  have h_expectnot := h.reg .expectnot _ rfl
  have f_expectnot := h.free .expectnot _ rfl
  have f0 := h.freeCpu
  have hp := h.pc
  have hc := h.cpuV
  have hs := h.cpuS rfl
  simp [rregs] at f0 f_v f_expectnot
  by_cases he : ldw be m v = expectnot
  · simp [rrun, mips_cbeqStoreAddLoadStore, hp, hc, f0, h_v, f_v, h_expectnot, f_expectnot, hs, setWidth32_setWidth hn, sub_eq_zero_iff, upd_upd, he]
  · have hn1 := Ne.symm he
    intro _
    simp [rrun, mips_cbeqStoreAddLoadStore, hp, hc, f0, h_v, f_v, h_expectnot, f_expectnot, hs, setWidth32_setWidth hn, sub_eq_zero_iff, upd_upd, he, hn1, twiceOf, insertBlock, twiceBlk, cpuChk, neChk, eqChk, twiceExit, hasTear, twiceAt, tearDown, Instr.shift, Pc.shift]
    try (funext x; simp only [upd]; repeat' split)
    all_goals simp_all

theorem mips_addStore_blk (hn : 4 ≤ n) (al : Opnd → Nat) (be : Bool) (csa v count : W n) :
    BlockOK (mips_addStore al be csa) (twiceOf al .mips .addStore (mips_addStore al be csa)) 3 2 [m4]
      true al (.addStore v count) := by
  intro cpu l m h
  have f0 := h.freeCpu
  have hp := h.pc
  have hc := h.cpuV
  have hs := h.cpuS rfl
  simp [rregs] at f0 
  intro _
  simp [rrun, mips_addStore, hp, hc, f0, hs, setWidth32_setWidth hn, sub_eq_zero_iff, upd_upd, twiceOf, insertBlock, twiceBlk, cpuChk, neChk, eqChk, twiceExit, hasTear, twiceAt, tearDown, Instr.shift, Pc.shift]
  try (funext x; simp only [upd]; repeat' split)
  all_goals simp_all

theorem mips_cbneCbneStore_blk (hn : 4 ≤ n) (al : Opnd → Nat) (be : Bool) (csa v expect v2 expect2 newv : W n) :
    BlockOK (mips_cbneCbneStore al be csa) (twiceOf al .mips .cbneCbneStore (mips_cbneCbneStore al be csa)) 7 6 [m4]
      true al (.cbneCbneStore v expect v2 expect2 newv) := by
  intro cpu l m h
  have h_v := h.reg .v _ rfl
  have f_v := h.free .v _ rfl
  have h_expect := h.reg .expect _ rfl
  have f_expect := h.free .expect _ rfl
  have h_v2 := h.reg .v2 _ rfl
  have f_v2 := h.free .v2 _ rfl
  have h_expect2 := h.reg .expect2 _ rfl
  have f_expect2 := h.free .expect2 _ rfl
  have f0 := h.freeCpu
  have hp := h.pc
  have hc := h.cpuV
  have hs := h.cpuS rfl
  simp [rregs] at f0 f_v f_expect f_v2 f_expect2
  by_cases he : ldw be m v = expect
  · by_cases he2 : ldw be m v2 = expect2
    · skip
      intro _
      simp [rrun, mips_cbneCbneStore, hp, hc, f0, h_v, f_v, h_expect, f_expect, h_v2, f_v2, h_expect2, f_expect2, hs, setWidth32_setWidth hn, sub_eq_zero_iff, upd_upd, he, he2, twiceOf, insertBlock, twiceBlk, cpuChk, neChk, eqChk, twiceExit, hasTear, twiceAt, tearDown, Instr.shift, Pc.shift]
      try (funext x; simp only [upd]; repeat' split)
      all_goals simp_all
    · have hn2 := Ne.symm he2
      simp [rrun, mips_cbneCbneStore, hp, hc, f0, h_v, f_v, h_expect, f_expect, h_v2, f_v2, h_expect2, f_expect2, hs, setWidth32_setWidth hn, sub_eq_zero_iff, upd_upd, he, he2, hn2]
  · have hn1 := Ne.symm he
    simp [rrun, mips_cbneCbneStore, hp, hc, f0, h_v, f_v, h_expect, f_expect, h_v2, f_v2, h_expect2, f_expect2, hs, setWidth32_setWidth hn, sub_eq_zero_iff, upd_upd, he, hn1]

theorem mips_cbneStoreStore_blk (hn : 4 ≤ n) (al : Opnd → Nat) (be : Bool) (csa v expect v2 newv2 newv : W n) :
    BlockOK (mips_cbneStoreStore al be csa) (twiceOf al .mips .cbneStoreStore (mips_cbneStoreStore al be csa)) 5 4 [m4]
      true al (.cbneStoreStore v expect v2 newv2 newv) := by
  intro cpu l m h
  have h_v := h.reg .v _ rfl
  have f_v := h.free .v _ rfl
  have h_expect := h.reg .expect _ rfl
  have f_expect := h.free .expect _ rfl
  have f0 := h.freeCpu
  have hp := h.pc
  have hc := h.cpuV
  have hs := h.cpuS rfl
  simp [rregs] at f0 f_v f_expect
  by_cases he : ldw be m v = expect
  · skip
    intro _
    simp [rrun, mips_cbneStoreStore, hp, hc, f0, h_v, f_v, h_expect, f_expect, hs, setWidth32_setWidth hn, sub_eq_zero_iff, upd_upd, he, twiceOf, insertBlock, twiceBlk, cpuChk, neChk, eqChk, twiceExit, hasTear, twiceAt, tearDown, Instr.shift, Pc.shift]
    try (funext x; simp only [upd]; repeat' split)
    all_goals simp_all
  · have hn1 := Ne.symm he
    simp [rrun, mips_cbneStoreStore, hp, hc, f0, h_v, f_v, h_expect, f_expect, hs, setWidth32_setWidth hn, sub_eq_zero_iff, upd_upd, he, hn1]

theorem mips_cbneStoreStore_rel_blk (hn : 4 ≤ n) (al : Opnd → Nat) (be : Bool) (csa v expect v2 newv2 newv : W n) :
    BlockOK (mips_cbneStoreStore_rel al be csa) (twiceOf al .mips .cbneStoreStore (mips_cbneStoreStore_rel al be csa)) 5 4 [m4]
      true al (.cbneStoreStore v expect v2 newv2 newv) := by
  intro cpu l m h
  have h_v := h.reg .v _ rfl
  have f_v := h.free .v _ rfl
  have h_expect := h.reg .expect _ rfl
  have f_expect := h.free .expect _ rfl
  have f0 := h.freeCpu
  have hp := h.pc
  have hc := h.cpuV
  have hs := h.cpuS rfl
  simp [rregs] at f0 f_v f_expect
  by_cases he : ldw be m v = expect
  · skip
    intro _
    simp [rrun, mips_cbneStoreStore_rel, hp, hc, f0, h_v, f_v, h_expect, f_expect, hs, setWidth32_setWidth hn, sub_eq_zero_iff, upd_upd, he, twiceOf, insertBlock, twiceBlk, cpuChk, neChk, eqChk, twiceExit, hasTear, twiceAt, tearDown, Instr.shift, Pc.shift]
    try (funext x; simp only [upd]; repeat' split)
    all_goals simp_all
  · have hn1 := Ne.symm he
    simp [rrun, mips_cbneStoreStore_rel, hp, hc, f0, h_v, f_v, h_expect, f_expect, hs, setWidth32_setWidth hn, sub_eq_zero_iff, upd_upd, he, hn1]

theorem mips_cbneMemcpyStore_blk (hn : 4 ≤ n) (al : Opnd → Nat) (be : Bool) (csa v expect dst src len newv : W n) :
    BlockOK (mips_cbneMemcpyStore al be csa) (twiceOf al .mips .cbneMemcpyStore (mips_cbneMemcpyStore al be csa)) 8 4 [m4]
      true al (.cbneMemcpyStore v expect dst src len newv) := by
  intro cpu l m h
  have h_v := h.reg .v _ rfl
  have f_v := h.free .v _ rfl
  have h_expect := h.reg .expect _ rfl
  have f_expect := h.free .expect _ rfl
  have f0 := h.freeCpu
  have hp := h.pc
  have hc := h.cpuV
  have hs := h.cpuS rfl
  simp [rregs] at f0 f_v f_expect
  by_cases he : ldw be m v = expect
  · skip
    intro _
    simp [rrun, mips_cbneMemcpyStore, hp, hc, f0, h_v, f_v, h_expect, f_expect, hs, setWidth32_setWidth hn, sub_eq_zero_iff, upd_upd, he, twiceOf, insertBlock, twiceBlk, cpuChk, neChk, eqChk, twiceExit, hasTear, twiceAt, tearDown, Instr.shift, Pc.shift]
    try (funext x; simp only [upd]; repeat' split)
    all_goals simp_all
  · have hn1 := Ne.symm he
    simp [rrun, mips_cbneMemcpyStore, hp, hc, f0, h_v, f_v, h_expect, f_expect, hs, setWidth32_setWidth hn, sub_eq_zero_iff, upd_upd, he, hn1]

theorem mips_cbneMemcpyStore_rel_blk (hn : 4 ≤ n) (al : Opnd → Nat) (be : Bool) (csa v expect dst src len newv : W n) :
    BlockOK (mips_cbneMemcpyStore_rel al be csa) (twiceOf al .mips .cbneMemcpyStore (mips_cbneMemcpyStore_rel al be csa)) 8 4 [m4]
      true al (.cbneMemcpyStore v expect dst src len newv) := by
  intro cpu l m h
  have h_v := h.reg .v _ rfl
  have f_v := h.free .v _ rfl
  have h_expect := h.reg .expect _ rfl
  have f_expect := h.free .expect _ rfl
  have f0 := h.freeCpu
  have hp := h.pc
  have hc := h.cpuV
  have hs := h.cpuS rfl
  simp [rregs] at f0 f_v f_expect
  by_cases he : ldw be m v = expect
  · skip
    intro _
    simp [rrun, mips_cbneMemcpyStore_rel, hp, hc, f0, h_v, f_v, h_expect, f_expect, hs, setWidth32_setWidth hn, sub_eq_zero_iff, upd_upd, he, twiceOf, insertBlock, twiceBlk, cpuChk, neChk, eqChk, twiceExit, hasTear, twiceAt, tearDown, Instr.shift, Pc.shift]
    try (funext x; simp only [upd]; repeat' split)
    all_goals simp_all
  · have hn1 := Ne.symm he
    simp [rrun, mips_cbneMemcpyStore_rel, hp, hc, f0, h_v, f_v, h_expect, f_expect, hs, setWidth32_setWidth hn, sub_eq_zero_iff, upd_upd, he, hn1]

theorem loongarch_cbneStore_blk (hn : 4 ≤ n) (al : Opnd → Nat) (be : Bool) (csa v expect newv : W n) :
    BlockOK (loongarch_cbneStore al be csa) (twiceOf al .loongarch .cbneStore (loongarch_cbneStore al be csa)) 5 4 [m4]
      true al (.cbneStore v expect newv) := by
  intro cpu l m h
  have h_v := h.reg .v _ rfl
  have f_v := h.free .v _ rfl
  have h_expect := h.reg .expect _ rfl
  have f_expect := h.free .expect _ rfl
  have f0 := h.freeCpu
  have hp := h.pc
  have hc := h.cpuV
  have hs := h.cpuS rfl
  simp [rregs] at f0 f_v f_expect
  by_cases he : ldw be m v = expect
  · skip
    intro _
    simp [rrun, loongarch_cbneStore, hp, hc, f0, h_v, f_v, h_expect, f_expect, hs, setWidth32_setWidth hn, sub_eq_zero_iff, upd_upd, he, twiceOf, insertBlock, twiceBlk, cpuChk, neChk, eqChk, twiceExit, hasTear, twiceAt, tearDown, Instr.shift, Pc.shift]
    try (funext x; simp only [upd]; repeat' split)
    all_goals simp_all
  · have hn1 := Ne.symm he
    simp [rrun, loongarch_cbneStore, hp, hc, f0, h_v, f_v, h_expect, f_expect, hs, setWidth32_setWidth hn, sub_eq_zero_iff, upd_upd, he, hn1]

theorem loongarch_cbeqStoreAddLoadStore_blk (hn : 4 ≤ n) (al : Opnd → Nat) (be : Bool) (csa v expectnot voffp load : W n) :
    BlockOK (loongarch_cbeqStoreAddLoadStore al be csa) (twiceOf al .loongarch .cbeqStoreAddLoadStore (loongarch_cbeqStoreAddLoadStore al be csa)) 5 4 [m4]
      true al (.cbeqStoreAddLoadStore v expectnot voffp load) := by
  intro cpu l m h
  have h_v := h.reg .v _ rfl
  have f_v := h.free .v _ rfl
  have h_expectnot := h.reg .expectnot _ rfl
  have f_expectnot := h.free .expectnot _ rfl
  have f0 := h.freeCpu
  have hp := h.pc
  have hc := h.cpuV
  have hs := h.cpuS rfl
  simp [rregs] at f0 f_v f_expectnot
  by_cases he : ldw be m v = expectnot
  · simp [rrun, loongarch_cbeqStoreAddLoadStore, hp, hc, f0, h_v, f_v, h_expectnot, f_expectnot, hs, setWidth32_setWidth hn, sub_eq_zero_iff, upd_upd, he]
  · have hn1 := Ne.symm he
    intro _
    simp [rrun, loongarch_cbeqStoreAddLoadStore, hp, hc, f0, h_v, f_v, h_expectnot, f_expectnot, hs, setWidth32_setWidth hn, sub_eq_zero_iff, upd_upd, he, hn1, twiceOf, insertBlock, twiceBlk, cpuChk, neChk, eqChk, twiceExit, hasTear, twiceAt, tearDown, Instr.shift, Pc.shift]
    try (funext x; simp only [upd]; repeat' split)
    all_goals simp_all

theorem loongarch_addStore_blk (hn : 4 ≤ n) (al : Opnd → Nat) (be : Bool) (csa v count : W n) :
    BlockOK (loongarch_addStore al be csa) (twiceOf al .loongarch .addStore (loongarch_addStore al be csa)) 3 2 [m4]
      true al (.addStore v count) := by
  intro cpu l m h
  have f0 := h.freeCpu
  have hp := h.pc
  have hc := h.cpuV
  have hs := h.cpuS rfl
  simp [rregs] at f0 
  intro _
  simp [rrun, loongarch_addStore, hp, hc, f0, hs, setWidth32_setWidth hn, sub_eq_zero_iff, upd_upd, twiceOf, insertBlock, twiceBlk, cpuChk, neChk, eqChk, twiceExit, hasTear, twiceAt, tearDown, Instr.shift, Pc.shift]
  try (funext x; simp only [upd]; repeat' split)
  all_goals simp_all

theorem loongarch_cbneCbneStore_blk (hn : 4 ≤ n) (al : Opnd → Nat) (be : Bool) (csa v expect v2 expect2 newv : W n) :
    BlockOK (loongarch_cbneCbneStore al be csa) (twiceOf al .loongarch .cbneCbneStore (loongarch_cbneCbneStore al be csa)) 7 6 [m4]
      true al (.cbneCbneStore v expect v2 expect2 newv) := by
  intro cpu l m h
  have h_v := h.reg .v _ rfl
  have f_v := h.free .v _ rfl
  have h_expect := h.reg .expect _ rfl
  have f_expect := h.free .expect _ rfl
  have h_v2 := h.reg .v2 _ rfl
  have f_v2 := h.free .v2 _ rfl
  have h_expect2 := h.reg .expect2 _ rfl
  have f_expect2 := h.free .expect2 _ rfl
  have f0 := h.freeCpu
  have hp := h.pc
  have hc := h.cpuV
  have hs := h.cpuS rfl
  simp [rregs] at f0 f_v f_expect f_v2 f_expect2
  by_cases he : ldw be m v = expect
  · by_cases he2 : ldw be m v2 = expect2
    · skip
      intro _
      simp [rrun, loongarch_cbneCbneStore, hp, hc, f0, h_v, f_v, h_expect, f_expect, h_v2, f_v2, h_expect2, f_expect2, hs, setWidth32_setWidth hn, sub_eq_zero_iff, upd_upd, he, he2, twiceOf, insertBlock, twiceBlk, cpuChk, neChk, eqChk, twiceExit, hasTear, twiceAt, tearDown, Instr.shift, Pc.shift]
      try (funext x; simp only [upd]; repeat' split)
      all_goals simp_all
    · have hn2 := Ne.symm he2
      simp [rrun, loongarch_cbneCbneStore, hp, hc, f0, h_v, f_v, h_expect, f_expect, h_v2, f_v2, h_expect2, f_expect2, hs, setWidth32_setWidth hn, sub_eq_zero_iff, upd_upd, he, he2, hn2]
  · have hn1 := Ne.symm he
    simp [rrun, loongarch_cbneCbneStore, hp, hc, f0, h_v, f_v, h_expect, f_expect, h_v2, f_v2, h_expect2, f_expect2, hs, setWidth32_setWidth hn, sub_eq_zero_iff, upd_upd, he, hn1]

theorem loongarch_cbneStoreStore_blk (hn : 4 ≤ n) (al : Opnd → Nat) (be : Bool) (csa v expect v2 newv2 newv : W n) :
    BlockOK (loongarch_cbneStoreStore al be csa) (twiceOf al .loongarch .cbneStoreStore (loongarch_cbneStoreStore al be csa)) 5 4 [m4]
      true al (.cbneStoreStore v expect v2 newv2 newv) := by
  intro cpu l m h
  have h_v := h.reg .v _ rfl
  have f_v := h.free .v _ rfl
  have h_expect := h.reg .expect _ rfl
  have f_expect := h.free .expect _ rfl
  have f0 := h.freeCpu
  have hp := h.pc
  have hc := h.cpuV
  have hs := h.cpuS rfl
  simp [rregs] at f0 f_v f_expect
  by_cases he : ldw be m v = expect
  · skip
    intro _
    simp [rrun, loongarch_cbneStoreStore, hp, hc, f0, h_v, f_v, h_expect, f_expect, hs, setWidth32_setWidth hn, sub_eq_zero_iff, upd_upd, he, twiceOf, insertBlock, twiceBlk, cpuChk, neChk, eqChk, twiceExit, hasTear, twiceAt, tearDown, Instr.shift, Pc.shift]
    try (funext x; simp only [upd]; repeat' split)
    all_goals simp_all
  · have hn1 := Ne.symm he
    simp [rrun, loongarch_cbneStoreStore, hp, hc, f0, h_v, f_v, h_expect, f_expect, hs, setWidth32_setWidth hn, sub_eq_zero_iff, upd_upd, he, hn1]

theorem loongarch_cbneStoreStore_rel_blk (hn : 4 ≤ n) (al : Opnd → Nat) (be : Bool) (csa v expect v2 newv2 newv : W n) :
    BlockOK (loongarch_cbneStoreStore_rel al be csa) (twiceOf al .loongarch .cbneStoreStore (loongarch_cbneStoreStore_rel al be csa)) 5 4 [m4]
      true al (.cbneStoreStore v expect v2 newv2 newv) := by
  intro cpu l m h
  have h_v := h.reg .v _ rfl
  have f_v := h.free .v _ rfl
  have h_expect := h.reg .expect _ rfl
  have f_expect := h.free .expect _ rfl
  have f0 := h.freeCpu
  have hp := h.pc
  have hc := h.cpuV
  have hs := h.cpuS rfl
  simp [rregs] at f0 f_v f_expect
  by_cases he : ldw be m v = expect
  · skip
    intro _
    simp [rrun, loongarch_cbneStoreStore_rel, hp, hc, f0, h_v, f_v, h_expect, f_expect, hs, setWidth32_setWidth hn, sub_eq_zero_iff, upd_upd, he, twiceOf, insertBlock, twiceBlk, cpuChk, neChk, eqChk, twiceExit, hasTear, twiceAt, tearDown, Instr.shift, Pc.shift]
    try (funext x; simp only [upd]; repeat' split)
    all_goals simp_all
  · have hn1 := Ne.symm he
    simp [rrun, loongarch_cbneStoreStore_rel, hp, hc, f0, h_v, f_v, h_expect, f_expect, hs, setWidth32_setWidth hn, sub_eq_zero_iff, upd_upd, he, hn1]

theorem loongarch_cbneMemcpyStore_blk (hn : 4 ≤ n) (al : Opnd → Nat) (be : Bool) (csa v expect dst src len newv : W n) :
    BlockOK (loongarch_cbneMemcpyStore al be csa) (twiceOf al .loongarch .cbneMemcpyStore (loongarch_cbneMemcpyStore al be csa)) 8 4 [m4]
      true al (.cbneMemcpyStore v expect dst src len newv) := by
  intro cpu l m h
  have h_v := h.reg .v _ rfl
  have f_v := h.free .v _ rfl
  have h_expect := h.reg .expect _ rfl
  have f_expect := h.free .expect _ rfl
  have f0 := h.freeCpu
  have hp := h.pc
  have hc := h.cpuV
  have hs := h.cpuS rfl
  simp [rregs] at f0 f_v f_expect
  by_cases he : ldw be m v = expect
  · skip
    intro _
    simp [rrun, loongarch_cbneMemcpyStore, hp, hc, f0, h_v, f_v, h_expect, f_expect, hs, setWidth32_setWidth hn, sub_eq_zero_iff, upd_upd, he, twiceOf, insertBlock, twiceBlk, cpuChk, neChk, eqChk, twiceExit, hasTear, twiceAt, tearDown, Instr.shift, Pc.shift]
    try (funext x; simp only [upd]; repeat' split)
    all_goals simp_all
  · have hn1 := Ne.symm he
    simp [rrun, loongarch_cbneMemcpyStore, hp, hc, f0, h_v, f_v, h_expect, f_expect, hs, setWidth32_setWidth hn, sub_eq_zero_iff, upd_upd, he, hn1]

theorem loongarch_cbneMemcpyStore_rel_blk (hn : 4 ≤ n) (al : Opnd → Nat) (be : Bool) (csa v expect dst src len newv : W n) :
    BlockOK (loongarch_cbneMemcpyStore_rel al be csa) (twiceOf al .loongarch .cbneMemcpyStore (loongarch_cbneMemcpyStore_rel al be csa)) 8 4 [m4]
      true al (.cbneMemcpyStore v expect dst src len newv) := by
  intro cpu l m h
  have h_v := h.reg .v _ rfl
  have f_v := h.free .v _ rfl
  have h_expect := h.reg .expect _ rfl
  have f_expect := h.free .expect _ rfl
  have f0 := h.freeCpu
  have hp := h.pc
  have hc := h.cpuV
  have hs := h.cpuS rfl
  simp [rregs] at f0 f_v f_expect
  by_cases he : ldw be m v = expect
  · skip
    intro _
    simp [rrun, loongarch_cbneMemcpyStore_rel, hp, hc, f0, h_v, f_v, h_expect, f_expect, hs, setWidth32_setWidth hn, sub_eq_zero_iff, upd_upd, he, twiceOf, insertBlock, twiceBlk, cpuChk, neChk, eqChk, twiceExit, hasTear, twiceAt, tearDown, Instr.shift, Pc.shift]
    try (funext x; simp only [upd]; repeat' split)
    all_goals simp_all
  · have hn1 := Ne.symm he
    simp [rrun, loongarch_cbneMemcpyStore_rel, hp, hc, f0, h_v, f_v, h_expect, f_expect, hs, setWidth32_setWidth hn, sub_eq_zero_iff, upd_upd, he, hn1]

theorem arm_cbneStore_blk (hn : 4 ≤ n) (al : Opnd → Nat) (be : Bool) (csa v expect newv : W n) :
    BlockOK (arm_cbneStore al be csa) (twiceOf al .arm .cbneStore (arm_cbneStore al be csa)) 7 6 [a0]
      false al (.cbneStore v expect newv) := by
  intro cpu l m h
  have h_v := h.reg .v _ rfl
  have f_v := h.free .v _ rfl
  have h_expect := h.reg .expect _ rfl
  have f_expect := h.free .expect _ rfl
  have f0 := h.freeCpu
  have hp := h.pc
  have hc := h.cpuV
  simp [rregs] at f0 f_v f_expect
  by_cases he : ldw be m v = expect
  · skip
    intro _
    simp [rrun, arm_cbneStore, hp, hc, f0, h_v, f_v, h_expect, f_expect, setWidth32_setWidth hn, sub_eq_zero_iff, upd_upd, he, twiceOf, insertBlock, twiceBlk, cpuChk, neChk, eqChk, twiceExit, hasTear, twiceAt, tearDown, Instr.shift, Pc.shift]
    try (funext x; simp only [upd]; repeat' split)
    all_goals simp_all
  · have hn1 := Ne.symm he
    simp [rrun, arm_cbneStore, hp, hc, f0, h_v, f_v, h_expect, f_expect, setWidth32_setWidth hn, sub_eq_zero_iff, upd_upd, he, hn1]

theorem arm_cbeqStoreAddLoadStore_blk (hn : 4 ≤ n) (al : Opnd → Nat) (be : Bool) (csa v expectnot voffp load : W n) :
    BlockOK (arm_cbeqStoreAddLoadStore al be csa) (twiceOf al .arm .cbeqStoreAddLoadStore (arm_cbeqStoreAddLoadStore al be csa)) 7 6 [a0]
      false al (.cbeqStoreAddLoadStore v expectnot voffp load) := by
  intro cpu l m h
  have h_v := h.reg .v _ rfl
  have f_v := h.free .v _ rfl
  have h_expectnot := h.reg .expectnot _ rfl
  have f_expectnot := h.free .expectnot _ rfl
  have f0 := h.freeCpu
  have hp := h.pc
  have hc := h.cpuV
  simp [rregs] at f0 f_v f_expectnot
  by_cases he : ldw be m v = expectnot
  · simp [rrun, arm_cbeqStoreAddLoadStore, hp, hc, f0, h_v, f_v, h_expectnot, f_expectnot, setWidth32_setWidth hn, sub_eq_zero_iff, upd_upd, he]
  · have hn1 := Ne.symm he
    intro _
    simp [rrun, arm_cbeqStoreAddLoadStore, hp, hc, f0, h_v, f_v, h_expectnot, f_expectnot, setWidth32_setWidth hn, sub_eq_zero_iff, upd_upd, he, hn1, twiceOf, insertBlock, twiceBlk, cpuChk, neChk, eqChk, twiceExit, hasTear, twiceAt, tearDown, Instr.shift, Pc.shift]
    try (funext x; simp only [upd]; repeat' split)
    all_goals simp_all

theorem arm_addStore_blk (hn : 4 ≤ n) (al : Opnd → Nat) (be : Bool) (csa v count : W n) :
    BlockOK (arm_addStore al be csa) (twiceOf al .arm .addStore (arm_addStore al be csa)) 4 3 [a0]
      false al (.addStore v count) := by
  intro cpu l m h
  have f0 := h.freeCpu
  have hp := h.pc
  have hc := h.cpuV
  simp [rregs] at f0 
  intro _
  simp [rrun, arm_addStore, hp, hc, f0, setWidth32_setWidth hn, sub_eq_zero_iff, upd_upd, twiceOf, insertBlock, twiceBlk, cpuChk, neChk, eqChk, twiceExit, hasTear, twiceAt, tearDown, Instr.shift, Pc.shift]
  try (funext x; simp only [upd]; repeat' split)
  all_goals simp_all

theorem arm_cbneCbneStore_blk (hn : 4 ≤ n) (al : Opnd → Nat) (be : Bool) (csa v expect v2 expect2 newv : W n) :
    BlockOK (arm_cbneCbneStore al be csa) (twiceOf al .arm .cbneCbneStore (arm_cbneCbneStore al be csa)) 10 9 [a0]
      false al (.cbneCbneStore v expect v2 expect2 newv) := by
  intro cpu l m h
  have h_v := h.reg .v _ rfl
  have f_v := h.free .v _ rfl
  have h_expect := h.reg .expect _ rfl
  have f_expect := h.free .expect _ rfl
  have h_v2 := h.reg .v2 _ rfl
  have f_v2 := h.free .v2 _ rfl
  have h_expect2 := h.reg .expect2 _ rfl
  have f_expect2 := h.free .expect2 _ rfl
  have f0 := h.freeCpu
  have hp := h.pc
  have hc := h.cpuV
  simp [rregs] at f0 f_v f_expect f_v2 f_expect2
  by_cases he : ldw be m v = expect
  · by_cases he2 : ldw be m v2 = expect2
    · skip
      intro _
      simp [rrun, arm_cbneCbneStore, hp, hc, f0, h_v, f_v, h_expect, f_expect, h_v2, f_v2, h_expect2, f_expect2, setWidth32_setWidth hn, sub_eq_zero_iff, upd_upd, he, he2, twiceOf, insertBlock, twiceBlk, cpuChk, neChk, eqChk, twiceExit, hasTear, twiceAt, tearDown, Instr.shift, Pc.shift]
      try (funext x; simp only [upd]; repeat' split)
      all_goals simp_all
    · have hn2 := Ne.symm he2
      simp [rrun, arm_cbneCbneStore, hp, hc, f0, h_v, f_v, h_expect, f_expect, h_v2, f_v2, h_expect2, f_expect2, setWidth32_setWidth hn, sub_eq_zero_iff, upd_upd, he, he2, hn2]
  · have hn1 := Ne.symm he
    simp [rrun, arm_cbneCbneStore, hp, hc, f0, h_v, f_v, h_expect, f_expect, h_v2, f_v2, h_expect2, f_expect2, setWidth32_setWidth hn, sub_eq_zero_iff, upd_upd, he, hn1]

theorem arm_cbneStoreStore_blk (hn : 4 ≤ n) (al : Opnd → Nat) (be : Bool) (csa v expect v2 newv2 newv : W n) :
    BlockOK (arm_cbneStoreStore al be csa) (twiceOf al .arm .cbneStoreStore (arm_cbneStoreStore al be csa)) 7 6 [a0]
      false al (.cbneStoreStore v expect v2 newv2 newv) := by
  intro cpu l m h
  have h_v := h.reg .v _ rfl
  have f_v := h.free .v _ rfl
  have h_expect := h.reg .expect _ rfl
  have f_expect := h.free .expect _ rfl
  have s_expect := h.slot .expect _ rfl (by decide)
  simp [slotOf] at s_expect
  have f0 := h.freeCpu
  have hp := h.pc
  have hc := h.cpuV
  simp [rregs] at f0 f_v f_expect
  by_cases he : ldw be m v = expect
  · skip
    intro _
    simp [rrun, arm_cbneStoreStore, hp, hc, f0, h_v, f_v, h_expect, f_expect, s_expect, slotOf, setWidth32_setWidth hn, sub_eq_zero_iff, upd_upd, he, twiceOf, insertBlock, twiceBlk, cpuChk, neChk, eqChk, twiceExit, hasTear, twiceAt, tearDown, Instr.shift, Pc.shift]
    try (funext x; simp only [upd]; repeat' split)
    all_goals simp_all
  · have hn1 := Ne.symm he
    simp [rrun, arm_cbneStoreStore, hp, hc, f0, h_v, f_v, h_expect, f_expect, s_expect, slotOf, setWidth32_setWidth hn, sub_eq_zero_iff, upd_upd, he, hn1]

theorem arm_cbneStoreStore_rel_blk (hn : 4 ≤ n) (al : Opnd → Nat) (be : Bool) (csa v expect v2 newv2 newv : W n) :
    BlockOK (arm_cbneStoreStore_rel al be csa) (twiceOf al .arm .cbneStoreStore (arm_cbneStoreStore_rel al be csa)) 7 6 [a0]
      false al (.cbneStoreStore v expect v2 newv2 newv) := by
  intro cpu l m h
  have h_v := h.reg .v _ rfl
  have f_v := h.free .v _ rfl
  have h_expect := h.reg .expect _ rfl
  have f_expect := h.free .expect _ rfl
  have s_expect := h.slot .expect _ rfl (by decide)
  simp [slotOf] at s_expect
  have f0 := h.freeCpu
  have hp := h.pc
  have hc := h.cpuV
  simp [rregs] at f0 f_v f_expect
  by_cases he : ldw be m v = expect
  · skip
    intro _
    simp [rrun, arm_cbneStoreStore_rel, hp, hc, f0, h_v, f_v, h_expect, f_expect, s_expect, slotOf, setWidth32_setWidth hn, sub_eq_zero_iff, upd_upd, he, twiceOf, insertBlock, twiceBlk, cpuChk, neChk, eqChk, twiceExit, hasTear, twiceAt, tearDown, Instr.shift, Pc.shift]
    try (funext x; simp only [upd]; repeat' split)
    all_goals simp_all
  · have hn1 := Ne.symm he
    simp [rrun, arm_cbneStoreStore_rel, hp, hc, f0, h_v, f_v, h_expect, f_expect, s_expect, slotOf, setWidth32_setWidth hn, sub_eq_zero_iff, upd_upd, he, hn1]

theorem arm_cbneMemcpyStore_blk (hn : 4 ≤ n) (al : Opnd → Nat) (be : Bool) (csa v expect dst src len newv : W n) :
    BlockOK (arm_cbneMemcpyStore al be csa) (twiceOf al .arm .cbneMemcpyStore (arm_cbneMemcpyStore al be csa)) 8 6 [a0, a5, a6, a7]
      false al (.cbneMemcpyStore v expect dst src len newv) := by
  intro cpu l m h
  have h_v := h.reg .v _ rfl
  have f_v := h.free .v _ rfl
  have h_expect := h.reg .expect _ rfl
  have f_expect := h.free .expect _ rfl
  have s_expect := h.slot .expect _ rfl (by decide)
  simp [slotOf] at s_expect
  have f0 := h.freeCpu
  have hp := h.pc
  have hc := h.cpuV
  simp [rregs] at f0 f_v f_expect
  by_cases he : ldw be m v = expect
  · skip
    intro _
    simp [rrun, arm_cbneMemcpyStore, hp, hc, f0, h_v, f_v, h_expect, f_expect, s_expect, slotOf, setWidth32_setWidth hn, sub_eq_zero_iff, upd_upd, he, twiceOf, insertBlock, twiceBlk, cpuChk, neChk, eqChk, twiceExit, hasTear, twiceAt, tearDown, Instr.shift, Pc.shift]
    try (funext x; simp only [upd]; repeat' split)
    all_goals simp_all
  · have hn1 := Ne.symm he
    simp [rrun, arm_cbneMemcpyStore, hp, hc, f0, h_v, f_v, h_expect, f_expect, s_expect, slotOf, setWidth32_setWidth hn, sub_eq_zero_iff, upd_upd, he, hn1]

theorem arm_cbneMemcpyStore_rel_blk (hn : 4 ≤ n) (al : Opnd → Nat) (be : Bool) (csa v expect dst src len newv : W n) :
    BlockOK (arm_cbneMemcpyStore_rel al be csa) (twiceOf al .arm .cbneMemcpyStore (arm_cbneMemcpyStore_rel al be csa)) 8 6 [a0, a5, a6, a7]
      false al (.cbneMemcpyStore v expect dst src len newv) := by
  intro cpu l m h
  have h_v := h.reg .v _ rfl
  have f_v := h.free .v _ rfl
  have h_expect := h.reg .expect _ rfl
  have f_expect := h.free .expect _ rfl
  have s_expect := h.slot .expect _ rfl (by decide)
  simp [slotOf] at s_expect
  have f0 := h.freeCpu
  have hp := h.pc
  have hc := h.cpuV
  simp [rregs] at f0 f_v f_expect
  by_cases he : ldw be m v = expect
  · skip
    intro _
    simp [rrun, arm_cbneMemcpyStore_rel, hp, hc, f0, h_v, f_v, h_expect, f_expect, s_expect, slotOf, setWidth32_setWidth hn, sub_eq_zero_iff, upd_upd, he, twiceOf, insertBlock, twiceBlk, cpuChk, neChk, eqChk, twiceExit, hasTear, twiceAt, tearDown, Instr.shift, Pc.shift]
    try (funext x; simp only [upd]; repeat' split)
    all_goals simp_all
  · have hn1 := Ne.symm he
    simp [rrun, arm_cbneMemcpyStore_rel, hp, hc, f0, h_v, f_v, h_expect, f_expect, s_expect, slotOf, setWidth32_setWidth hn, sub_eq_zero_iff, upd_upd, he, hn1]

end Verif.Rseq
