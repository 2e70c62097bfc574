import Verif.RseqTwiceRun
/-
The tear-down code of the memory-copy helpers in a `RSEQ_COMPARE_TWICE` build (labels 6 and 7, x86/bits.h:478-487,
s390/bits.h:421-430, mips/bits.h:415-426, loongarch/bits.h:443-454): when a repeated comparison fails, because another
CPU has stored into the variable or because of a defect the build is meant to find, the helper leaves through the
error label of that comparison with the registers of `src`, `dst` and `len` as the caller had them.
-/

set_option linter.unusedVariables false
set_option linter.unusedSimpArgs false

namespace Verif.Rseq

variable {n : Nat}

/-- `P'` continues at index `p` with the local state in which `P` has passed its comparisons on `cpu` and `m`.  If the CPU
number read now is another one it leaves through `error1`; if only the variable has another value than expected, through
`error2`.  No memory is written and no register outside `clob` differs from its value at entry. -/
def BlockBad (P P' : Prog n) (p : Nat) (clob : List Nat) (sx : Bool) (al : Opnd → Nat) (op : Op n) (v expect : W n) :
    Prop :=
  ∀ (cpu cpu' : BitVec 32) (l : LSt n) (m m' : Mem n), Setup clob sx al op cpu l →
    (run P cpu p (l, m)).1.pc = .at p →
    (cpu' ≠ cpu → ∃ k, (run P' cpu' k ((run P cpu p (l, m)).1, m')).1.pc = .ret 2 ∧
      (run P' cpu' k ((run P cpu p (l, m)).1, m')).2 = m' ∧
      ∀ x, x ∉ clob → (run P' cpu' k ((run P cpu p (l, m)).1, m')).1.regs x = l.regs x) ∧
    (cpu' = cpu → ldw P.be m' v ≠ expect → ∃ k, (run P' cpu' k ((run P cpu p (l, m)).1, m')).1.pc = .ret 3 ∧
      (run P' cpu' k ((run P cpu p (l, m)).1, m')).2 = m' ∧
      ∀ x, x ∉ clob → (run P' cpu' k ((run P cpu p (l, m)).1, m')).1.regs x = l.regs x)

/-- What the repeated comparisons find: the operands, and in the scratch slots the caller's registers. -/
structure Mid (p : Nat) (clob : List Nat) (al : Opnd → Nat) (l A : LSt n) : Prop where
  pc : A.pc = .at p
  src : A.slots 100 = l.regs (al .src)
  dst : A.slots 101 = l.regs (al .dst)
  len : A.slots 102 = l.regs (al .len)
  regs : ∀ x, x ∉ clob → A.regs x = l.regs x

theorem x86_64_cbneMemcpyStore_mid (hn : 4 ≤ n) (al : Opnd → Nat) (be : Bool) (csa v expect dst src len newv : W n)
    (cpu : BitVec 32) (l : LSt n) (m : Mem n) (h : Setup [rax] false al (.cbneMemcpyStore v expect dst src len newv) cpu l)
    (h8 : (run (x86_64_cbneMemcpyStore al be csa) cpu 8 (l, m)).1.pc = .at 8) :
    Mid 8 [rax] al l (run (x86_64_cbneMemcpyStore al be csa) cpu 8 (l, m)).1 := by
  have h_v := h.reg .v _ rfl
  have f_v := h.free .v _ rfl
  have h_expect := h.reg .expect _ rfl
  have f_expect := h.free .expect _ rfl
  have f0 := h.freeCpu
  have hp := h.pc
  have hc := h.cpuV
  simp [rregs] at f0 f_v f_expect
  by_cases he : ldw be m v = expect
  · obtain ⟨A, hA⟩ : ∃ A, A = (run (x86_64_cbneMemcpyStore al be csa) cpu 8 (l, m)).1 := ⟨_, rfl⟩
    rw [← hA] at h8 ⊢
    simp [rrun, x86_64_cbneMemcpyStore, hp, hc, f0, h_v, f_v, h_expect, f_expect, setWidth32_setWidth hn, sub_eq_zero_iff, upd_upd, he] at hA
    subst hA
    refine ⟨h8, ?_, ?_, ?_, ?_⟩
    · simp [upd]
    · simp [upd]
    · simp [upd]
    · intro x hx
      simp [rregs] at hx
      simp [upd, rregs, hx]
  · simp [rrun, x86_64_cbneMemcpyStore, hp, hc, f0, h_v, f_v, h_expect, f_expect, setWidth32_setWidth hn, sub_eq_zero_iff, upd_upd, he] at h8

theorem x86_64_cbneMemcpyStore_bad (hn : 4 ≤ n) (al : Opnd → Nat) (be : Bool) (csa v expect dst src len newv : W n) :
    BlockBad (x86_64_cbneMemcpyStore al be csa) (twiceOf al .x86_64 .cbneMemcpyStore (x86_64_cbneMemcpyStore al be csa)) 8 [rax]
      false al (.cbneMemcpyStore v expect dst src len newv) v expect := by
  intro cpu cpu' l m m' h h8
  have A := x86_64_cbneMemcpyStore_mid hn al be csa v expect dst src len newv cpu l m h h8
  obtain ⟨B, hB⟩ : ∃ B, B = (run (x86_64_cbneMemcpyStore al be csa) cpu 8 (l, m)).1 := ⟨_, rfl⟩
  rw [← hB] at A h8 ⊢
  have f_v := h.free .v _ rfl
  have f_expect := h.free .expect _ rfl
  have f0 := h.freeCpu
  have h_v' : B.regs (al .v) = v := (A.regs _ f_v).trans (h.reg .v _ rfl)
  have h_expect' : B.regs (al .expect) = expect := (A.regs _ f_expect).trans (h.reg .expect _ rfl)
  have hc' : (B.regs (al .cpu)).setWidth 32 = cpu := by rw [A.regs _ f0]; exact h.cpuV
  have hp' := A.pc
  simp [rregs] at f0 f_v f_expect
  have hr := A.regs
  refine ⟨fun hcc => ⟨6, ?_⟩, fun hcc hne => ⟨8, ?_⟩⟩
  · have hcc' := Ne.symm hcc
    obtain ⟨C, hC⟩ : ∃ C, C = run (twiceOf al .x86_64 .cbneMemcpyStore (x86_64_cbneMemcpyStore al be csa)) cpu' 6 (B, m') :=
      ⟨_, rfl⟩
    rw [← hC]
    simp [rrun, x86_64_cbneMemcpyStore, hp', hc', h_v', h_expect', f0, f_v, f_expect, setWidth32_setWidth hn, signExtend_inj hn, sub_eq_zero_iff, twiceOf, insertBlock, twiceBlk, cpuChk, neChk, eqChk, twiceExit, hasTear, twiceAt, tearDown, Instr.shift, Pc.shift, A.src, A.dst, A.len, hcc, hcc'] at hC
    subst hC
    refine ⟨rfl, rfl, fun x hx => ?_⟩
    have hrx := hr x hx
    simp [rregs] at hx
    simp only [upd]
    repeat' split
    all_goals simp_all
  · subst hcc
    have hne' : ¬ ldw be m' v = expect := hne
    obtain ⟨C, hC⟩ : ∃ C, C = run (twiceOf al .x86_64 .cbneMemcpyStore (x86_64_cbneMemcpyStore al be csa)) cpu' 8 (B, m') :=
      ⟨_, rfl⟩
    rw [← hC]
    simp [rrun, x86_64_cbneMemcpyStore, hp', hc', h_v', h_expect', f0, f_v, f_expect, setWidth32_setWidth hn, signExtend_inj hn, sub_eq_zero_iff, twiceOf, insertBlock, twiceBlk, cpuChk, neChk, eqChk, twiceExit, hasTear, twiceAt, tearDown, Instr.shift, Pc.shift, A.src, A.dst, A.len, hne'] at hC
    subst hC
    refine ⟨rfl, rfl, fun x hx => ?_⟩
    have hrx := hr x hx
    simp [rregs] at hx
    simp only [upd]
    repeat' split
    all_goals simp_all

theorem s390_cbneMemcpyStore_mid (hn : 4 ≤ n) (al : Opnd → Nat) (be : Bool) (csa v expect dst src len newv : W n)
    (cpu : BitVec 32) (l : LSt n) (m : Mem n) (h : Setup [g0] false al (.cbneMemcpyStore v expect dst src len newv) cpu l)
    (h8 : (run (s390_cbneMemcpyStore al be csa) cpu 8 (l, m)).1.pc = .at 8) :
    Mid 8 [g0] al l (run (s390_cbneMemcpyStore al be csa) cpu 8 (l, m)).1 := by
  have h_v := h.reg .v _ rfl
  have f_v := h.free .v _ rfl
  have h_expect := h.reg .expect _ rfl
  have f_expect := h.free .expect _ rfl
  have f0 := h.freeCpu
  have hp := h.pc
  have hc := h.cpuV
  simp [rregs] at f0 f_v f_expect
  by_cases he : ldw be m v = expect
  · obtain ⟨A, hA⟩ : ∃ A, A = (run (s390_cbneMemcpyStore al be csa) cpu 8 (l, m)).1 := ⟨_, rfl⟩
    rw [← hA] at h8 ⊢
    simp [rrun, s390_cbneMemcpyStore, hp, hc, f0, h_v, f_v, h_expect, f_expect, setWidth32_setWidth hn, sub_eq_zero_iff, upd_upd, he] at hA
    subst hA
    refine ⟨h8, ?_, ?_, ?_, ?_⟩
    · simp [upd]
    · simp [upd]
    · simp [upd]
    · intro x hx
      simp [rregs] at hx
      simp [upd, rregs, hx]
  · simp [rrun, s390_cbneMemcpyStore, hp, hc, f0, h_v, f_v, h_expect, f_expect, setWidth32_setWidth hn, sub_eq_zero_iff, upd_upd, he] at h8

theorem s390_cbneMemcpyStore_bad (hn : 4 ≤ n) (al : Opnd → Nat) (be : Bool) (csa v expect dst src len newv : W n) :
    BlockBad (s390_cbneMemcpyStore al be csa) (twiceOf al .s390 .cbneMemcpyStore (s390_cbneMemcpyStore al be csa)) 8 [g0]
      false al (.cbneMemcpyStore v expect dst src len newv) v expect := by
  intro cpu cpu' l m m' h h8
  have A := s390_cbneMemcpyStore_mid hn al be csa v expect dst src len newv cpu l m h h8
  obtain ⟨B, hB⟩ : ∃ B, B = (run (s390_cbneMemcpyStore al be csa) cpu 8 (l, m)).1 := ⟨_, rfl⟩
  rw [← hB] at A h8 ⊢
  have f_v := h.free .v _ rfl
  have f_expect := h.free .expect _ rfl
  have f0 := h.freeCpu
  have h_v' : B.regs (al .v) = v := (A.regs _ f_v).trans (h.reg .v _ rfl)
  have h_expect' : B.regs (al .expect) = expect := (A.regs _ f_expect).trans (h.reg .expect _ rfl)
  have hc' : (B.regs (al .cpu)).setWidth 32 = cpu := by rw [A.regs _ f0]; exact h.cpuV
  have hp' := A.pc
  simp [rregs] at f0 f_v f_expect
  have hr := A.regs
  refine ⟨fun hcc => ⟨6, ?_⟩, fun hcc hne => ⟨8, ?_⟩⟩
  · have hcc' := Ne.symm hcc
    obtain ⟨C, hC⟩ : ∃ C, C = run (twiceOf al .s390 .cbneMemcpyStore (s390_cbneMemcpyStore al be csa)) cpu' 6 (B, m') :=
      ⟨_, rfl⟩
    rw [← hC]
    simp [rrun, s390_cbneMemcpyStore, hp', hc', h_v', h_expect', f0, f_v, f_expect, setWidth32_setWidth hn, signExtend_inj hn, sub_eq_zero_iff, twiceOf, insertBlock, twiceBlk, cpuChk, neChk, eqChk, twiceExit, hasTear, twiceAt, tearDown, Instr.shift, Pc.shift, A.src, A.dst, A.len, hcc, hcc'] at hC
    subst hC
    refine ⟨rfl, rfl, fun x hx => ?_⟩
    have hrx := hr x hx
    simp [rregs] at hx
    simp only [upd]
    repeat' split
    all_goals simp_all
  · subst hcc
    have hne' : ¬ ldw be m' v = expect := hne
    obtain ⟨C, hC⟩ : ∃ C, C = run (twiceOf al .s390 .cbneMemcpyStore (s390_cbneMemcpyStore al be csa)) cpu' 8 (B, m') :=
      ⟨_, rfl⟩
    rw [← hC]
    simp [rrun, s390_cbneMemcpyStore, hp', hc', h_v', h_expect', f0, f_v, f_expect, setWidth32_setWidth hn, signExtend_inj hn, sub_eq_zero_iff, twiceOf, insertBlock, twiceBlk, cpuChk, neChk, eqChk, twiceExit, hasTear, twiceAt, tearDown, Instr.shift, Pc.shift, A.src, A.dst, A.len, hne'] at hC
    subst hC
    refine ⟨rfl, rfl, fun x hx => ?_⟩
    have hrx := hr x hx
    simp [rregs] at hx
    simp only [upd]
    repeat' split
    all_goals simp_all

theorem mips_cbneMemcpyStore_mid (hn : 4 ≤ n) (al : Opnd → Nat) (be : Bool) (csa v expect dst src len newv : W n)
    (cpu : BitVec 32) (l : LSt n) (m : Mem n) (h : Setup [m4] true al (.cbneMemcpyStore v expect dst src len newv) cpu l)
    (h8 : (run (mips_cbneMemcpyStore al be csa) cpu 8 (l, m)).1.pc = .at 8) :
    Mid 8 [m4] al l (run (mips_cbneMemcpyStore al be csa) cpu 8 (l, m)).1 := by
  have h_v := h.reg .v _ rfl
  have f_v := h.free .v _ rfl
  have h_expect := h.reg .expect _ rfl
  have f_expect := h.free .expect _ rfl
  have f0 := h.freeCpu
  have hp := h.pc
  have hc := h.cpuV
  have hs := h.cpuS rfl
  simp [rregs] at f0 f_v f_expect
  by_cases he : ldw be m v = expect
  · obtain ⟨A, hA⟩ : ∃ A, A = (run (mips_cbneMemcpyStore al be csa) cpu 8 (l, m)).1 := ⟨_, rfl⟩
    rw [← hA] at h8 ⊢
    simp [rrun, mips_cbneMemcpyStore, hp, hc, f0, h_v, f_v, h_expect, f_expect, hs, setWidth32_setWidth hn, sub_eq_zero_iff, upd_upd, he] at hA
    subst hA
    refine ⟨h8, ?_, ?_, ?_, ?_⟩
    · simp [upd]
    · simp [upd]
    · simp [upd]
    · intro x hx
      simp [rregs] at hx
      simp [upd, rregs, hx]
  · simp [rrun, mips_cbneMemcpyStore, hp, hc, f0, h_v, f_v, h_expect, f_expect, hs, setWidth32_setWidth hn, sub_eq_zero_iff, upd_upd, he] at h8

theorem mips_cbneMemcpyStore_bad (hn : 4 ≤ n) (al : Opnd → Nat) (be : Bool) (csa v expect dst src len newv : W n) :
    BlockBad (mips_cbneMemcpyStore al be csa) (twiceOf al .mips .cbneMemcpyStore (mips_cbneMemcpyStore al be csa)) 8 [m4]
      true al (.cbneMemcpyStore v expect dst src len newv) v expect := by
  intro cpu cpu' l m m' h h8
  have A := mips_cbneMemcpyStore_mid hn al be csa v expect dst src len newv cpu l m h h8
  obtain ⟨B, hB⟩ : ∃ B, B = (run (mips_cbneMemcpyStore al be csa) cpu 8 (l, m)).1 := ⟨_, rfl⟩
  rw [← hB] at A h8 ⊢
  have f_v := h.free .v _ rfl
  have f_expect := h.free .expect _ rfl
  have f0 := h.freeCpu
  have h_v' : B.regs (al .v) = v := (A.regs _ f_v).trans (h.reg .v _ rfl)
  have h_expect' : B.regs (al .expect) = expect := (A.regs _ f_expect).trans (h.reg .expect _ rfl)
  have hc' : (B.regs (al .cpu)).setWidth 32 = cpu := by rw [A.regs _ f0]; exact h.cpuV
  have hs' : B.regs (al .cpu) = _ := (A.regs _ h.freeCpu).trans (h.cpuS rfl)
  have hp' := A.pc
  simp [rregs] at f0 f_v f_expect
  have hr := A.regs
  refine ⟨fun hcc => ⟨6, ?_⟩, fun hcc hne => ⟨8, ?_⟩⟩
  · have hcc' := Ne.symm hcc
    obtain ⟨C, hC⟩ : ∃ C, C = run (twiceOf al .mips .cbneMemcpyStore (mips_cbneMemcpyStore al be csa)) cpu' 6 (B, m') :=
      ⟨_, rfl⟩
    rw [← hC]
    simp [rrun, mips_cbneMemcpyStore, hp', hc', h_v', h_expect', hs', f0, f_v, f_expect, setWidth32_setWidth hn, signExtend_inj hn, sub_eq_zero_iff, twiceOf, insertBlock, twiceBlk, cpuChk, neChk, eqChk, twiceExit, hasTear, twiceAt, tearDown, Instr.shift, Pc.shift, A.src, A.dst, A.len, hcc, hcc'] at hC
    subst hC
    refine ⟨rfl, rfl, fun x hx => ?_⟩
    have hrx := hr x hx
    simp [rregs] at hx
    simp only [upd]
    repeat' split
    all_goals simp_all
  · subst hcc
    have hne' : ¬ ldw be m' v = expect := hne
    obtain ⟨C, hC⟩ : ∃ C, C = run (twiceOf al .mips .cbneMemcpyStore (mips_cbneMemcpyStore al be csa)) cpu' 8 (B, m') :=
      ⟨_, rfl⟩
    rw [← hC]
    simp [rrun, mips_cbneMemcpyStore, hp', hc', h_v', h_expect', hs', f0, f_v, f_expect, setWidth32_setWidth hn, signExtend_inj hn, sub_eq_zero_iff, twiceOf, insertBlock, twiceBlk, cpuChk, neChk, eqChk, twiceExit, hasTear, twiceAt, tearDown, Instr.shift, Pc.shift, A.src, A.dst, A.len, hne'] at hC
    subst hC
    refine ⟨rfl, rfl, fun x hx => ?_⟩
    have hrx := hr x hx
    simp [rregs] at hx
    simp only [upd]
    repeat' split
    all_goals simp_all

theorem mips_cbneMemcpyStore_rel_mid (hn : 4 ≤ n) (al : Opnd → Nat) (be : Bool) (csa v expect dst src len newv : W n)
    (cpu : BitVec 32) (l : LSt n) (m : Mem n) (h : Setup [m4] true al (.cbneMemcpyStore v expect dst src len newv) cpu l)
    (h8 : (run (mips_cbneMemcpyStore_rel al be csa) cpu 8 (l, m)).1.pc = .at 8) :
    Mid 8 [m4] al l (run (mips_cbneMemcpyStore_rel al be csa) cpu 8 (l, m)).1 := by
  have h_v := h.reg .v _ rfl
  have f_v := h.free .v _ rfl
  have h_expect := h.reg .expect _ rfl
  have f_expect := h.free .expect _ rfl
  have f0 := h.freeCpu
  have hp := h.pc
  have hc := h.cpuV
  have hs := h.cpuS rfl
  simp [rregs] at f0 f_v f_expect
  by_cases he : ldw be m v = expect
  · obtain ⟨A, hA⟩ : ∃ A, A = (run (mips_cbneMemcpyStore_rel al be csa) cpu 8 (l, m)).1 := ⟨_, rfl⟩
    rw [← hA] at h8 ⊢
    simp [rrun, mips_cbneMemcpyStore_rel, hp, hc, f0, h_v, f_v, h_expect, f_expect, hs, setWidth32_setWidth hn, sub_eq_zero_iff, upd_upd, he] at hA
    subst hA
    refine ⟨h8, ?_, ?_, ?_, ?_⟩
    · simp [upd]
    · simp [upd]
    · simp [upd]
    · intro x hx
      simp [rregs] at hx
      simp [upd, rregs, hx]
  · simp [rrun, mips_cbneMemcpyStore_rel, hp, hc, f0, h_v, f_v, h_expect, f_expect, hs, setWidth32_setWidth hn, sub_eq_zero_iff, upd_upd, he] at h8

theorem mips_cbneMemcpyStore_rel_bad (hn : 4 ≤ n) (al : Opnd → Nat) (be : Bool) (csa v expect dst src len newv : W n) :
    BlockBad (mips_cbneMemcpyStore_rel al be csa) (twiceOf al .mips .cbneMemcpyStore (mips_cbneMemcpyStore_rel al be csa)) 8 [m4]
      true al (.cbneMemcpyStore v expect dst src len newv) v expect := by
  intro cpu cpu' l m m' h h8
  have A := mips_cbneMemcpyStore_rel_mid hn al be csa v expect dst src len newv cpu l m h h8
  obtain ⟨B, hB⟩ : ∃ B, B = (run (mips_cbneMemcpyStore_rel al be csa) cpu 8 (l, m)).1 := ⟨_, rfl⟩
  rw [← hB] at A h8 ⊢
  have f_v := h.free .v _ rfl
  have f_expect := h.free .expect _ rfl
  have f0 := h.freeCpu
  have h_v' : B.regs (al .v) = v := (A.regs _ f_v).trans (h.reg .v _ rfl)
  have h_expect' : B.regs (al .expect) = expect := (A.regs _ f_expect).trans (h.reg .expect _ rfl)
  have hc' : (B.regs (al .cpu)).setWidth 32 = cpu := by rw [A.regs _ f0]; exact h.cpuV
  have hs' : B.regs (al .cpu) = _ := (A.regs _ h.freeCpu).trans (h.cpuS rfl)
  have hp' := A.pc
  simp [rregs] at f0 f_v f_expect
  have hr := A.regs
  refine ⟨fun hcc => ⟨6, ?_⟩, fun hcc hne => ⟨8, ?_⟩⟩
  · have hcc' := Ne.symm hcc
    obtain ⟨C, hC⟩ : ∃ C, C = run (twiceOf al .mips .cbneMemcpyStore (mips_cbneMemcpyStore_rel al be csa)) cpu' 6 (B, m') :=
      ⟨_, rfl⟩
    rw [← hC]
    simp [rrun, mips_cbneMemcpyStore_rel, hp', hc', h_v', h_expect', hs', f0, f_v, f_expect, setWidth32_setWidth hn, signExtend_inj hn, sub_eq_zero_iff, twiceOf, insertBlock, twiceBlk, cpuChk, neChk, eqChk, twiceExit, hasTear, twiceAt, tearDown, Instr.shift, Pc.shift, A.src, A.dst, A.len, hcc, hcc'] at hC
    subst hC
    refine ⟨rfl, rfl, fun x hx => ?_⟩
    have hrx := hr x hx
    simp [rregs] at hx
    simp only [upd]
    repeat' split
    all_goals simp_all
  · subst hcc
    have hne' : ¬ ldw be m' v = expect := hne
    obtain ⟨C, hC⟩ : ∃ C, C = run (twiceOf al .mips .cbneMemcpyStore (mips_cbneMemcpyStore_rel al be csa)) cpu' 8 (B, m') :=
      ⟨_, rfl⟩
    rw [← hC]
    simp [rrun, mips_cbneMemcpyStore_rel, hp', hc', h_v', h_expect', hs', f0, f_v, f_expect, setWidth32_setWidth hn, signExtend_inj hn, sub_eq_zero_iff, twiceOf, insertBlock, twiceBlk, cpuChk, neChk, eqChk, twiceExit, hasTear, twiceAt, tearDown, Instr.shift, Pc.shift, A.src, A.dst, A.len, hne'] at hC
    subst hC
    refine ⟨rfl, rfl, fun x hx => ?_⟩
    have hrx := hr x hx
    simp [rregs] at hx
    simp only [upd]
    repeat' split
    all_goals simp_all

theorem loongarch_cbneMemcpyStore_mid (hn : 4 ≤ n) (al : Opnd → Nat) (be : Bool) (csa v expect dst src len newv : W n)
    (cpu : BitVec 32) (l : LSt n) (m : Mem n) (h : Setup [m4] true al (.cbneMemcpyStore v expect dst src len newv) cpu l)
    (h8 : (run (loongarch_cbneMemcpyStore al be csa) cpu 8 (l, m)).1.pc = .at 8) :
    Mid 8 [m4] al l (run (loongarch_cbneMemcpyStore al be csa) cpu 8 (l, m)).1 := by
  have h_v := h.reg .v _ rfl
  have f_v := h.free .v _ rfl
  have h_expect := h.reg .expect _ rfl
  have f_expect := h.free .expect _ rfl
  have f0 := h.freeCpu
  have hp := h.pc
  have hc := h.cpuV
  have hs := h.cpuS rfl
  simp [rregs] at f0 f_v f_expect
  by_cases he : ldw be m v = expect
  · obtain ⟨A, hA⟩ : ∃ A, A = (run (loongarch_cbneMemcpyStore al be csa) cpu 8 (l, m)).1 := ⟨_, rfl⟩
    rw [← hA] at h8 ⊢
    simp [rrun, loongarch_cbneMemcpyStore, hp, hc, f0, h_v, f_v, h_expect, f_expect, hs, setWidth32_setWidth hn, sub_eq_zero_iff, upd_upd, he] at hA
    subst hA
    refine ⟨h8, ?_, ?_, ?_, ?_⟩
    · simp [upd]
    · simp [upd]
    · simp [upd]
    · intro x hx
      simp [rregs] at hx
      simp [upd, rregs, hx]
  · simp [rrun, loongarch_cbneMemcpyStore, hp, hc, f0, h_v, f_v, h_expect, f_expect, hs, setWidth32_setWidth hn, sub_eq_zero_iff, upd_upd, he] at h8

theorem loongarch_cbneMemcpyStore_bad (hn : 4 ≤ n) (al : Opnd → Nat) (be : Bool) (csa v expect dst src len newv : W n) :
    BlockBad (loongarch_cbneMemcpyStore al be csa) (twiceOf al .loongarch .cbneMemcpyStore (loongarch_cbneMemcpyStore al be csa)) 8 [m4]
      true al (.cbneMemcpyStore v expect dst src len newv) v expect := by
  intro cpu cpu' l m m' h h8
  have A := loongarch_cbneMemcpyStore_mid hn al be csa v expect dst src len newv cpu l m h h8
  obtain ⟨B, hB⟩ : ∃ B, B = (run (loongarch_cbneMemcpyStore al be csa) cpu 8 (l, m)).1 := ⟨_, rfl⟩
  rw [← hB] at A h8 ⊢
  have f_v := h.free .v _ rfl
  have f_expect := h.free .expect _ rfl
  have f0 := h.freeCpu
  have h_v' : B.regs (al .v) = v := (A.regs _ f_v).trans (h.reg .v _ rfl)
  have h_expect' : B.regs (al .expect) = expect := (A.regs _ f_expect).trans (h.reg .expect _ rfl)
  have hc' : (B.regs (al .cpu)).setWidth 32 = cpu := by rw [A.regs _ f0]; exact h.cpuV
  have hs' : B.regs (al .cpu) = _ := (A.regs _ h.freeCpu).trans (h.cpuS rfl)
  have hp' := A.pc
  simp [rregs] at f0 f_v f_expect
  have hr := A.regs
  refine ⟨fun hcc => ⟨6, ?_⟩, fun hcc hne => ⟨8, ?_⟩⟩
  · have hcc' := Ne.symm hcc
    obtain ⟨C, hC⟩ : ∃ C, C = run (twiceOf al .loongarch .cbneMemcpyStore (loongarch_cbneMemcpyStore al be csa)) cpu' 6 (B, m') :=
      ⟨_, rfl⟩
    rw [← hC]
    simp [rrun, loongarch_cbneMemcpyStore, hp', hc', h_v', h_expect', hs', f0, f_v, f_expect, setWidth32_setWidth hn, signExtend_inj hn, sub_eq_zero_iff, twiceOf, insertBlock, twiceBlk, cpuChk, neChk, eqChk, twiceExit, hasTear, twiceAt, tearDown, Instr.shift, Pc.shift, A.src, A.dst, A.len, hcc, hcc'] at hC
    subst hC
    refine ⟨rfl, rfl, fun x hx => ?_⟩
    have hrx := hr x hx
    simp [rregs] at hx
    simp only [upd]
    repeat' split
    all_goals simp_all
  · subst hcc
    have hne' : ¬ ldw be m' v = expect := hne
    obtain ⟨C, hC⟩ : ∃ C, C = run (twiceOf al .loongarch .cbneMemcpyStore (loongarch_cbneMemcpyStore al be csa)) cpu' 8 (B, m') :=
      ⟨_, rfl⟩
    rw [← hC]
    simp [rrun, loongarch_cbneMemcpyStore, hp', hc', h_v', h_expect', hs', f0, f_v, f_expect, setWidth32_setWidth hn, signExtend_inj hn, sub_eq_zero_iff, twiceOf, insertBlock, twiceBlk, cpuChk, neChk, eqChk, twiceExit, hasTear, twiceAt, tearDown, Instr.shift, Pc.shift, A.src, A.dst, A.len, hne'] at hC
    subst hC
    refine ⟨rfl, rfl, fun x hx => ?_⟩
    have hrx := hr x hx
    simp [rregs] at hx
    simp only [upd]
    repeat' split
    all_goals simp_all

theorem loongarch_cbneMemcpyStore_rel_mid (hn : 4 ≤ n) (al : Opnd → Nat) (be : Bool) (csa v expect dst src len newv : W n)
    (cpu : BitVec 32) (l : LSt n) (m : Mem n) (h : Setup [m4] true al (.cbneMemcpyStore v expect dst src len newv) cpu l)
    (h8 : (run (loongarch_cbneMemcpyStore_rel al be csa) cpu 8 (l, m)).1.pc = .at 8) :
    Mid 8 [m4] al l (run (loongarch_cbneMemcpyStore_rel al be csa) cpu 8 (l, m)).1 := by
  have h_v := h.reg .v _ rfl
  have f_v := h.free .v _ rfl
  have h_expect := h.reg .expect _ rfl
  have f_expect := h.free .expect _ rfl
  have f0 := h.freeCpu
  have hp := h.pc
  have hc := h.cpuV
  have hs := h.cpuS rfl
  simp [rregs] at f0 f_v f_expect
  by_cases he : ldw be m v = expect
  · obtain ⟨A, hA⟩ : ∃ A, A = (run (loongarch_cbneMemcpyStore_rel al be csa) cpu 8 (l, m)).1 := ⟨_, rfl⟩
    rw [← hA] at h8 ⊢
    simp [rrun, loongarch_cbneMemcpyStore_rel, hp, hc, f0, h_v, f_v, h_expect, f_expect, hs, setWidth32_setWidth hn, sub_eq_zero_iff, upd_upd, he] at hA
    subst hA
    refine ⟨h8, ?_, ?_, ?_, ?_⟩
    · simp [upd]
    · simp [upd]
    · simp [upd]
    · intro x hx
      simp [rregs] at hx
      simp [upd, rregs, hx]
  · simp [rrun, loongarch_cbneMemcpyStore_rel, hp, hc, f0, h_v, f_v, h_expect, f_expect, hs, setWidth32_setWidth hn, sub_eq_zero_iff, upd_upd, he] at h8

theorem loongarch_cbneMemcpyStore_rel_bad (hn : 4 ≤ n) (al : Opnd → Nat) (be : Bool) (csa v expect dst src len newv : W n) :
    BlockBad (loongarch_cbneMemcpyStore_rel al be csa) (twiceOf al .loongarch .cbneMemcpyStore (loongarch_cbneMemcpyStore_rel al be csa)) 8 [m4]
      true al (.cbneMemcpyStore v expect dst src len newv) v expect := by
  intro cpu cpu' l m m' h h8
  have A := loongarch_cbneMemcpyStore_rel_mid hn al be csa v expect dst src len newv cpu l m h h8
  obtain ⟨B, hB⟩ : ∃ B, B = (run (loongarch_cbneMemcpyStore_rel al be csa) cpu 8 (l, m)).1 := ⟨_, rfl⟩
  rw [← hB] at A h8 ⊢
  have f_v := h.free .v _ rfl
  have f_expect := h.free .expect _ rfl
  have f0 := h.freeCpu
  have h_v' : B.regs (al .v) = v := (A.regs _ f_v).trans (h.reg .v _ rfl)
  have h_expect' : B.regs (al .expect) = expect := (A.regs _ f_expect).trans (h.reg .expect _ rfl)
  have hc' : (B.regs (al .cpu)).setWidth 32 = cpu := by rw [A.regs _ f0]; exact h.cpuV
  have hs' : B.regs (al .cpu) = _ := (A.regs _ h.freeCpu).trans (h.cpuS rfl)
  have hp' := A.pc
  simp [rregs] at f0 f_v f_expect
  have hr := A.regs
  refine ⟨fun hcc => ⟨6, ?_⟩, fun hcc hne => ⟨8, ?_⟩⟩
  · have hcc' := Ne.symm hcc
    obtain ⟨C, hC⟩ : ∃ C, C = run (twiceOf al .loongarch .cbneMemcpyStore (loongarch_cbneMemcpyStore_rel al be csa)) cpu' 6 (B, m') :=
      ⟨_, rfl⟩
    rw [← hC]
    simp [rrun, loongarch_cbneMemcpyStore_rel, hp', hc', h_v', h_expect', hs', f0, f_v, f_expect, setWidth32_setWidth hn, signExtend_inj hn, sub_eq_zero_iff, twiceOf, insertBlock, twiceBlk, cpuChk, neChk, eqChk, twiceExit, hasTear, twiceAt, tearDown, Instr.shift, Pc.shift, A.src, A.dst, A.len, hcc, hcc'] at hC
    subst hC
    refine ⟨rfl, rfl, fun x hx => ?_⟩
    have hrx := hr x hx
    simp [rregs] at hx
    simp only [upd]
    repeat' split
    all_goals simp_all
  · subst hcc
    have hne' : ¬ ldw be m' v = expect := hne
    obtain ⟨C, hC⟩ : ∃ C, C = run (twiceOf al .loongarch .cbneMemcpyStore (loongarch_cbneMemcpyStore_rel al be csa)) cpu' 8 (B, m') :=
      ⟨_, rfl⟩
    rw [← hC]
    simp [rrun, loongarch_cbneMemcpyStore_rel, hp', hc', h_v', h_expect', hs', f0, f_v, f_expect, setWidth32_setWidth hn, signExtend_inj hn, sub_eq_zero_iff, twiceOf, insertBlock, twiceBlk, cpuChk, neChk, eqChk, twiceExit, hasTear, twiceAt, tearDown, Instr.shift, Pc.shift, A.src, A.dst, A.len, hne'] at hC
    subst hC
    refine ⟨rfl, rfl, fun x hx => ?_⟩
    have hrx := hr x hx
    simp [rregs] at hx
    simp only [upd]
    repeat' split
    all_goals simp_all

/-- C69: what the four architectures with tear-down code do when a repeated comparison of the memory-copy helper fails. -/
theorem compare_twice_tear_down (hn : 4 ≤ n) (S : Site n) (v expect dst src len newv : W n)
    (hk : S.kind = .cbneMemcpyStore) (ha : S.arch = .x86_64 ∨ S.arch = .s390 ∨ S.arch = .mips ∨ S.arch = .loongarch) :
    BlockBad S.prog S.twice 8 (clobbers S.arch .cbneMemcpyStore) (signExt S.arch) S.al
      (.cbneMemcpyStore v expect dst src len newv) v expect := by
  have hok := S.ok
  have e1 : S.twice = twiceOf S.al S.arch .cbneMemcpyStore S.prog := by rw [← hk]; rfl
  rw [e1]
  rw [hk] at hok
  generalize S.prog = P at hok ⊢
  generalize S.arch = a at hok ha ⊢
  generalize S.rel = rel at hok
  rcases ha with rfl | rfl | rfl | rfl <;> cases rel <;>
    simp only [program, Option.some.injEq] at hok <;> subst hok
  · exact x86_64_cbneMemcpyStore_bad hn _ _ _ _ _ _ _ _ _
  · exact x86_64_cbneMemcpyStore_bad hn _ _ _ _ _ _ _ _ _
  · exact s390_cbneMemcpyStore_bad hn _ _ _ _ _ _ _ _ _
  · exact s390_cbneMemcpyStore_bad hn _ _ _ _ _ _ _ _ _
  · exact mips_cbneMemcpyStore_bad hn _ _ _ _ _ _ _ _ _
  · exact mips_cbneMemcpyStore_rel_bad hn _ _ _ _ _ _ _ _ _
  · exact loongarch_cbneMemcpyStore_bad hn _ _ _ _ _ _ _ _ _
  · exact loongarch_cbneMemcpyStore_rel_bad hn _ _ _ _ _ _ _ _ _

end Verif.Rseq
