import Verif.RseqCopy
/-
The memory-copy helpers, which loop, implement their pseudo-code (one lemma per program).

The x86-64, s390, mips and loongarch versions modify the registers of the input operands src, dst and
len inside the assembly, so they additionally need the hypothesis `OwnRegs` that the compiler did not
put another operand into the same register; see `RseqArchProps.lean` for what happens otherwise.
-/

set_option linter.unusedVariables false
set_option linter.unusedSimpArgs false

namespace Verif.Rseq

variable {n : Nat}

/-- The registers of src, dst and len are pairwise different and differ from those of v and newv. -/
structure OwnRegs (al : Opnd → Nat) : Prop where
  sd : al .src ≠ al .dst
  sl : al .src ≠ al .len
  dl : al .dst ≠ al .len
  vs : al .v ≠ al .src
  vd : al .v ≠ al .dst
  vl : al .v ≠ al .len
  ns : al .newv ≠ al .src
  nd : al .newv ≠ al .dst
  nl : al .newv ≠ al .len

theorem x86_64_cbneMemcpyStore_ok (hn : 4 ≤ n) (al : Opnd → Nat) (be : Bool)
    (csa v expect dst src len newv : W n) (hno : NoOverlap dst src len) (ho : OwnRegs al) :
    Implements (x86_64_cbneMemcpyStore al be csa) [rax] false al
      (.cbneMemcpyStore v expect dst src len newv) := by
  intro cpu fv l m h
  have h_v := h.reg .v _ rfl
  have f_v := h.free .v _ rfl
  have h_expect := h.reg .expect _ rfl
  have f_expect := h.free .expect _ rfl
  have h_dst := h.reg .dst _ rfl
  have f_dst := h.free .dst _ rfl
  have h_src := h.reg .src _ rfl
  have f_src := h.free .src _ rfl
  have h_len := h.reg .len _ rfl
  have f_len := h.free .len _ rfl
  have h_newv := h.reg .newv _ rfl
  have f_newv := h.free .newv _ rfl
  have f0 := h.freeCpu
  have hp := h.pc
  have hc := h.cpuV
  obtain ⟨o1, o2, o3, o4, o5, o6, o7, o8, o9⟩ := ho
  have q1 := Ne.symm o1
  have q2 := Ne.symm o2
  have q3 := Ne.symm o3
  have q4 := Ne.symm o4
  have q5 := Ne.symm o5
  have q6 := Ne.symm o6
  have q7 := Ne.symm o7
  have q8 := Ne.symm o8
  have q9 := Ne.symm o9
  simp [rregs] at f0 f_v f_expect f_dst f_src f_len f_newv
  refine ⟨?_, ?_⟩
  · intro hfv; subst hfv
    by_cases he : ldw be m v = expect
    · by_cases h0 : len = 0#(8 * n)
      · subst h0
        refine ⟨30, ?_, ?_, ?_⟩
        · simp [rrun, x86_64_cbneMemcpyStore, *, pseudo]
        · simp [rrun, x86_64_cbneMemcpyStore, *, pseudo, memcpy_zero]
        · intro x hx
          simp [rregs] at hx
          simp [rrun, x86_64_cbneMemcpyStore, *]
          try grind
      · have hpos : 0 < len.toNat := by
          have := mt (len_zero_iff len).2 h0; omega
        obtain ⟨k, hk⟩ := loop (x86_64_cbneMemcpyStore al be csa) fv
          (LoopI 10 16 (al .src) (al .dst) (al .len) [0] l.regs
            (upd (upd (upd l.slots 100 src) 101 dst) 102 len) m src dst src dst len) len.toNat
          (by
            rintro j ⟨⟨R, S, z, pc⟩, m1⟩ hj ⟨i1, i2, i3, i4, i5, i6, i7⟩
            simp only [hj, if_true] at i1 i2 i3 i4 i5 i6 i7
            subst i1 i6 i7
            have g1 := cpy_src m dst src len hno j hj
            refine ⟨6, ?_, ?_, ?_, ?_, ?_, ?_, ?_⟩
            · simp [rrun, x86_64_cbneMemcpyStore, *, step_up, step_up1, step_down, left_zero len j hj]
              grind
            · simp [rrun, x86_64_cbneMemcpyStore, *, step_up, step_up1, step_down]
            · simp [rrun, x86_64_cbneMemcpyStore, *, step_up, step_up1, step_down]
            · simp [rrun, x86_64_cbneMemcpyStore, *, step_up, step_up1, step_down]
            · intro x x1 x2 x3 x4
              have := i5 x x1 x2 x3 x4
              simp at x4
              simp [rrun, x86_64_cbneMemcpyStore, *]
            · simp [rrun, x86_64_cbneMemcpyStore]
            · simp [rrun, x86_64_cbneMemcpyStore, *, step_up, step_up1, step_down, byte_trip hn, cpy_succ m dst src len j hj])
          (l, m) (by
            refine ⟨10, ?_, ?_, ?_, ?_, ?_, ?_, ?_⟩
            · simp [rrun, x86_64_cbneMemcpyStore, *]
            · simp [rrun, x86_64_cbneMemcpyStore, *]
            · simp [rrun, x86_64_cbneMemcpyStore, *]
            · simp [rrun, x86_64_cbneMemcpyStore, *]
            · intro x x1 x2 x3 x4
              simp at x4
              simp [rrun, x86_64_cbneMemcpyStore, *]
            · simp [rrun, x86_64_cbneMemcpyStore, *]
            · simp [rrun, x86_64_cbneMemcpyStore, *, cpy_zero])
        refine ⟨k + 6, ?_⟩
        rw [run_add]
        generalize run (x86_64_cbneMemcpyStore al be csa) fv k (l, m) = s1 at hk
        obtain ⟨⟨R, S, z, pc⟩, m1⟩ := s1
        obtain ⟨i1, i2, i3, i4, i5, i6, i7⟩ := hk
        simp only [Nat.lt_irrefl, if_false] at i1 i2 i3 i4 i5 i6 i7
        subst i1 i6 i7
        have j1 : R (al .v) = v := (i5 (al .v) (by simp [*]) (by simp [*]) (by simp [*]) (by simp [*])).trans h_v
        have j2 : R (al .newv) = newv :=
          (i5 (al .newv) (by simp [*]) (by simp [*]) (by simp [*]) (by simp [*])).trans h_newv
        refine ⟨?_, ?_, ?_⟩
        · simp [rrun, x86_64_cbneMemcpyStore, *, pseudo]
        · simp [rrun, x86_64_cbneMemcpyStore, *, pseudo, cpy_len]
        · intro x hx
          simp [rregs] at hx
          have := i5 x
          simp at this
          simp [rrun, x86_64_cbneMemcpyStore, *]
          try grind
    · have he2 := Ne.symm he
      refine ⟨30, ?_, ?_, ?_⟩
      · simp [rrun, x86_64_cbneMemcpyStore, *, pseudo]
      · simp [rrun, x86_64_cbneMemcpyStore, *, pseudo]
      · intro x hx
        simp [rregs] at hx
        simp [rrun, x86_64_cbneMemcpyStore, *]
        try grind
  · intro hne
    have hne2 := Ne.symm hne
    refine ⟨30, ?_, ?_, ?_⟩
    · simp [rrun, x86_64_cbneMemcpyStore, *]
    · simp [rrun, x86_64_cbneMemcpyStore, *]
    · intro x hx
      simp [rregs] at hx
      simp [rrun, x86_64_cbneMemcpyStore, *]
      try grind

theorem i386_cbneMemcpyStore_ok (hn : 4 ≤ n) (al : Opnd → Nat) (be : Bool)
    (csa v expect dst src len newv : W n) (hno : NoOverlap dst src len) :
    Implements (i386_cbneMemcpyStore al be csa) [rax, rbx, rcx, rdx] false al
      (.cbneMemcpyStore v expect dst src len newv) := by
  intro cpu fv l m h
  have h_v := h.reg .v _ rfl
  have f_v := h.free .v _ rfl
  have h_expect := h.reg .expect _ rfl
  have f_expect := h.free .expect _ rfl
  have s_expect := h.slot .expect _ rfl (by decide)
  simp only [slotOf] at s_expect
  have h_dst := h.reg .dst _ rfl
  have f_dst := h.free .dst _ rfl
  have s_dst := h.slot .dst _ rfl (by decide)
  simp only [slotOf] at s_dst
  have h_src := h.reg .src _ rfl
  have f_src := h.free .src _ rfl
  have s_src := h.slot .src _ rfl (by decide)
  simp only [slotOf] at s_src
  have h_len := h.reg .len _ rfl
  have f_len := h.free .len _ rfl
  have s_len := h.slot .len _ rfl (by decide)
  simp only [slotOf] at s_len
  have h_newv := h.reg .newv _ rfl
  have f_newv := h.free .newv _ rfl
  have s_newv := h.slot .newv _ rfl (by decide)
  simp only [slotOf] at s_newv
  have f0 := h.freeCpu
  have hp := h.pc
  have hc := h.cpuV
  simp [rregs] at f0 f_v f_expect f_dst f_src f_len f_newv
  refine ⟨?_, ?_⟩
  · intro hfv; subst hfv
    by_cases he : ldw be m v = expect
    · by_cases h0 : len = 0#(8 * n)
      · subst h0
        refine ⟨30, ?_, ?_, ?_⟩
        · simp [rrun, i386_cbneMemcpyStore, *, slotOf, pseudo]
        · simp [rrun, i386_cbneMemcpyStore, *, slotOf, pseudo, memcpy_zero]
        · intro x hx
          simp [rregs] at hx
          simp [rrun, i386_cbneMemcpyStore, *, slotOf]
          try grind
      · have hpos : 0 < len.toNat := by
          have := mt (len_zero_iff len).2 h0; omega
        obtain ⟨k, hk⟩ := loop (i386_cbneMemcpyStore al be csa) fv
          (LoopI 11 17 1 3 2 [0, 3, 1, 2] l.regs
            l.slots m src dst src dst len) len.toNat
          (by
            rintro j ⟨⟨R, S, z, pc⟩, m1⟩ hj ⟨i1, i2, i3, i4, i5, i6, i7⟩
            simp only [hj, if_true] at i1 i2 i3 i4 i5 i6 i7
            subst i1 i6 i7
            have g1 := cpy_src m dst src len hno j hj
            refine ⟨6, ?_, ?_, ?_, ?_, ?_, ?_, ?_⟩
            · simp [rrun, i386_cbneMemcpyStore, *, slotOf, step_up, step_up1, step_down, left_zero len j hj]
              grind
            · simp [rrun, i386_cbneMemcpyStore, *, slotOf, step_up, step_up1, step_down]
            · simp [rrun, i386_cbneMemcpyStore, *, slotOf, step_up, step_up1, step_down]
            · simp [rrun, i386_cbneMemcpyStore, *, slotOf, step_up, step_up1, step_down]
            · intro x x1 x2 x3 x4
              have := i5 x x1 x2 x3 x4
              simp at x4
              simp [rrun, i386_cbneMemcpyStore, *, slotOf]
            · simp [rrun, i386_cbneMemcpyStore]
            · simp [rrun, i386_cbneMemcpyStore, *, slotOf, step_up, step_up1, step_down, byte_trip hn, cpy_succ m dst src len j hj])
          (l, m) (by
            refine ⟨11, ?_, ?_, ?_, ?_, ?_, ?_, ?_⟩
            · simp [rrun, i386_cbneMemcpyStore, *, slotOf]
            · simp [rrun, i386_cbneMemcpyStore, *, slotOf]
            · simp [rrun, i386_cbneMemcpyStore, *, slotOf]
            · simp [rrun, i386_cbneMemcpyStore, *, slotOf]
            · intro x x1 x2 x3 x4
              simp at x4
              simp [rrun, i386_cbneMemcpyStore, *, slotOf]
            · simp [rrun, i386_cbneMemcpyStore, *, slotOf]
            · simp [rrun, i386_cbneMemcpyStore, *, slotOf, cpy_zero])
        refine ⟨k + 6, ?_⟩
        rw [run_add]
        generalize run (i386_cbneMemcpyStore al be csa) fv k (l, m) = s1 at hk
        obtain ⟨⟨R, S, z, pc⟩, m1⟩ := s1
        obtain ⟨i1, i2, i3, i4, i5, i6, i7⟩ := hk
        simp only [Nat.lt_irrefl, if_false] at i1 i2 i3 i4 i5 i6 i7
        subst i1 i6 i7
        have j1 : R (al .v) = v := (i5 (al .v) (by simp [*]) (by simp [*]) (by simp [*]) (by simp [*])).trans h_v
        have j2 : R (al .newv) = newv :=
          (i5 (al .newv) (by simp [*]) (by simp [*]) (by simp [*]) (by simp [*])).trans h_newv
        refine ⟨?_, ?_, ?_⟩
        · simp [rrun, i386_cbneMemcpyStore, *, slotOf, pseudo]
        · simp [rrun, i386_cbneMemcpyStore, *, slotOf, pseudo, cpy_len]
        · intro x hx
          simp [rregs] at hx
          have := i5 x
          simp at this
          simp [rrun, i386_cbneMemcpyStore, *, slotOf]
          try grind
    · have he2 := Ne.symm he
      refine ⟨30, ?_, ?_, ?_⟩
      · simp [rrun, i386_cbneMemcpyStore, *, slotOf, pseudo]
      · simp [rrun, i386_cbneMemcpyStore, *, slotOf, pseudo]
      · intro x hx
        simp [rregs] at hx
        simp [rrun, i386_cbneMemcpyStore, *, slotOf]
        try grind
  · intro hne
    have hne2 := Ne.symm hne
    refine ⟨30, ?_, ?_, ?_⟩
    · simp [rrun, i386_cbneMemcpyStore, *, slotOf]
    · simp [rrun, i386_cbneMemcpyStore, *, slotOf]
    · intro x hx
      simp [rregs] at hx
      simp [rrun, i386_cbneMemcpyStore, *, slotOf]
      try grind

theorem i386_cbneMemcpyStore_rel_ok (hn : 4 ≤ n) (al : Opnd → Nat) (be : Bool)
    (csa v expect dst src len newv : W n) (hno : NoOverlap dst src len) :
    Implements (i386_cbneMemcpyStore_rel al be csa) [rax, rbx, rcx, rdx] false al
      (.cbneMemcpyStore v expect dst src len newv) := by
  intro cpu fv l m h
  have h_v := h.reg .v _ rfl
  have f_v := h.free .v _ rfl
  have h_expect := h.reg .expect _ rfl
  have f_expect := h.free .expect _ rfl
  have s_expect := h.slot .expect _ rfl (by decide)
  simp only [slotOf] at s_expect
  have h_dst := h.reg .dst _ rfl
  have f_dst := h.free .dst _ rfl
  have s_dst := h.slot .dst _ rfl (by decide)
  simp only [slotOf] at s_dst
  have h_src := h.reg .src _ rfl
  have f_src := h.free .src _ rfl
  have s_src := h.slot .src _ rfl (by decide)
  simp only [slotOf] at s_src
  have h_len := h.reg .len _ rfl
  have f_len := h.free .len _ rfl
  have s_len := h.slot .len _ rfl (by decide)
  simp only [slotOf] at s_len
  have h_newv := h.reg .newv _ rfl
  have f_newv := h.free .newv _ rfl
  have s_newv := h.slot .newv _ rfl (by decide)
  simp only [slotOf] at s_newv
  have f0 := h.freeCpu
  have hp := h.pc
  have hc := h.cpuV
  simp [rregs] at f0 f_v f_expect f_dst f_src f_len f_newv
  refine ⟨?_, ?_⟩
  · intro hfv; subst hfv
    by_cases he : ldw be m v = expect
    · by_cases h0 : len = 0#(8 * n)
      · subst h0
        refine ⟨30, ?_, ?_, ?_⟩
        · simp [rrun, i386_cbneMemcpyStore_rel, *, slotOf, pseudo]
        · simp [rrun, i386_cbneMemcpyStore_rel, *, slotOf, pseudo, memcpy_zero]
        · intro x hx
          simp [rregs] at hx
          simp [rrun, i386_cbneMemcpyStore_rel, *, slotOf]
          try grind
      · have hpos : 0 < len.toNat := by
          have := mt (len_zero_iff len).2 h0; omega
        obtain ⟨k, hk⟩ := loop (i386_cbneMemcpyStore_rel al be csa) fv
          (LoopI 11 17 1 3 2 [0, 3, 1, 2] l.regs
            l.slots m src dst src dst len) len.toNat
          (by
            rintro j ⟨⟨R, S, z, pc⟩, m1⟩ hj ⟨i1, i2, i3, i4, i5, i6, i7⟩
            simp only [hj, if_true] at i1 i2 i3 i4 i5 i6 i7
            subst i1 i6 i7
            have g1 := cpy_src m dst src len hno j hj
            refine ⟨6, ?_, ?_, ?_, ?_, ?_, ?_, ?_⟩
            · simp [rrun, i386_cbneMemcpyStore_rel, *, slotOf, step_up, step_up1, step_down, left_zero len j hj]
              grind
            · simp [rrun, i386_cbneMemcpyStore_rel, *, slotOf, step_up, step_up1, step_down]
            · simp [rrun, i386_cbneMemcpyStore_rel, *, slotOf, step_up, step_up1, step_down]
            · simp [rrun, i386_cbneMemcpyStore_rel, *, slotOf, step_up, step_up1, step_down]
            · intro x x1 x2 x3 x4
              have := i5 x x1 x2 x3 x4
              simp at x4
              simp [rrun, i386_cbneMemcpyStore_rel, *, slotOf]
            · simp [rrun, i386_cbneMemcpyStore_rel]
            · simp [rrun, i386_cbneMemcpyStore_rel, *, slotOf, step_up, step_up1, step_down, byte_trip hn, cpy_succ m dst src len j hj])
          (l, m) (by
            refine ⟨11, ?_, ?_, ?_, ?_, ?_, ?_, ?_⟩
            · simp [rrun, i386_cbneMemcpyStore_rel, *, slotOf]
            · simp [rrun, i386_cbneMemcpyStore_rel, *, slotOf]
            · simp [rrun, i386_cbneMemcpyStore_rel, *, slotOf]
            · simp [rrun, i386_cbneMemcpyStore_rel, *, slotOf]
            · intro x x1 x2 x3 x4
              simp at x4
              simp [rrun, i386_cbneMemcpyStore_rel, *, slotOf]
            · simp [rrun, i386_cbneMemcpyStore_rel, *, slotOf]
            · simp [rrun, i386_cbneMemcpyStore_rel, *, slotOf, cpy_zero])
        refine ⟨k + 6, ?_⟩
        rw [run_add]
        generalize run (i386_cbneMemcpyStore_rel al be csa) fv k (l, m) = s1 at hk
        obtain ⟨⟨R, S, z, pc⟩, m1⟩ := s1
        obtain ⟨i1, i2, i3, i4, i5, i6, i7⟩ := hk
        simp only [Nat.lt_irrefl, if_false] at i1 i2 i3 i4 i5 i6 i7
        subst i1 i6 i7
        have j1 : R (al .v) = v := (i5 (al .v) (by simp [*]) (by simp [*]) (by simp [*]) (by simp [*])).trans h_v
        have j2 : R (al .newv) = newv :=
          (i5 (al .newv) (by simp [*]) (by simp [*]) (by simp [*]) (by simp [*])).trans h_newv
        refine ⟨?_, ?_, ?_⟩
        · simp [rrun, i386_cbneMemcpyStore_rel, *, slotOf, pseudo]
        · simp [rrun, i386_cbneMemcpyStore_rel, *, slotOf, pseudo, cpy_len]
        · intro x hx
          simp [rregs] at hx
          have := i5 x
          simp at this
          simp [rrun, i386_cbneMemcpyStore_rel, *, slotOf]
          try grind
    · have he2 := Ne.symm he
      refine ⟨30, ?_, ?_, ?_⟩
      · simp [rrun, i386_cbneMemcpyStore_rel, *, slotOf, pseudo]
      · simp [rrun, i386_cbneMemcpyStore_rel, *, slotOf, pseudo]
      · intro x hx
        simp [rregs] at hx
        simp [rrun, i386_cbneMemcpyStore_rel, *, slotOf]
        try grind
  · intro hne
    have hne2 := Ne.symm hne
    refine ⟨30, ?_, ?_, ?_⟩
    · simp [rrun, i386_cbneMemcpyStore_rel, *, slotOf]
    · simp [rrun, i386_cbneMemcpyStore_rel, *, slotOf]
    · intro x hx
      simp [rregs] at hx
      simp [rrun, i386_cbneMemcpyStore_rel, *, slotOf]
      try grind

theorem riscv_cbneMemcpyStore_ok (hn : 4 ≤ n) (al : Opnd → Nat) (be : Bool)
    (csa v expect dst src len newv : W n) (hno : NoOverlap dst src len) :
    Implements (riscv_cbneMemcpyStore al be csa) [t6, t5, t4, t3] true al
      (.cbneMemcpyStore v expect dst src len newv) := by
  intro cpu fv l m h
  have h_v := h.reg .v _ rfl
  have f_v := h.free .v _ rfl
  have h_expect := h.reg .expect _ rfl
  have f_expect := h.free .expect _ rfl
  have h_dst := h.reg .dst _ rfl
  have f_dst := h.free .dst _ rfl
  have h_src := h.reg .src _ rfl
  have f_src := h.free .src _ rfl
  have h_len := h.reg .len _ rfl
  have f_len := h.free .len _ rfl
  have h_newv := h.reg .newv _ rfl
  have f_newv := h.free .newv _ rfl
  have f0 := h.freeCpu
  have hp := h.pc
  have hc := h.cpuS rfl
  simp [rregs] at f0 f_v f_expect f_dst f_src f_len f_newv
  refine ⟨?_, ?_⟩
  · intro hfv; subst hfv
    by_cases he : ldw be m v = expect
    · by_cases h0 : len = 0#(8 * n)
      · subst h0
        refine ⟨30, ?_, ?_, ?_⟩
        · simp [rrun, riscv_cbneMemcpyStore, *, signExtend_inj hn, pseudo]
        · simp [rrun, riscv_cbneMemcpyStore, *, signExtend_inj hn, pseudo, memcpy_zero]
        · intro x hx
          simp [rregs] at hx
          simp [rrun, riscv_cbneMemcpyStore, *, signExtend_inj hn]
          try grind
      · have hpos : 0 < len.toNat := by
          have := mt (len_zero_iff len).2 h0; omega
        obtain ⟨k, hk⟩ := loop (riscv_cbneMemcpyStore al be csa) fv
          (LoopI 9 15 30 29 31 [31, 30, 29, 28] l.regs
            l.slots m src dst src dst len) len.toNat
          (by
            rintro j ⟨⟨R, S, z, pc⟩, m1⟩ hj ⟨i1, i2, i3, i4, i5, i6, i7⟩
            simp only [hj, if_true] at i1 i2 i3 i4 i5 i6 i7
            subst i1 i6 i7
            have g1 := cpy_src m dst src len hno j hj
            refine ⟨6, ?_, ?_, ?_, ?_, ?_, ?_, ?_⟩
            · simp [rrun, riscv_cbneMemcpyStore, *, signExtend_inj hn, step_up, step_up1, step_down, left_zero len j hj]
              grind
            · simp [rrun, riscv_cbneMemcpyStore, *, signExtend_inj hn, step_up, step_up1, step_down]
            · simp [rrun, riscv_cbneMemcpyStore, *, signExtend_inj hn, step_up, step_up1, step_down]
            · simp [rrun, riscv_cbneMemcpyStore, *, signExtend_inj hn, step_up, step_up1, step_down]
            · intro x x1 x2 x3 x4
              have := i5 x x1 x2 x3 x4
              simp at x4
              simp [rrun, riscv_cbneMemcpyStore, *, signExtend_inj hn]
            · simp [rrun, riscv_cbneMemcpyStore]
            · simp [rrun, riscv_cbneMemcpyStore, *, signExtend_inj hn, step_up, step_up1, step_down, byte_trip hn, cpy_succ m dst src len j hj])
          (l, m) (by
            refine ⟨9, ?_, ?_, ?_, ?_, ?_, ?_, ?_⟩
            · simp [rrun, riscv_cbneMemcpyStore, *, signExtend_inj hn]
            · simp [rrun, riscv_cbneMemcpyStore, *, signExtend_inj hn]
            · simp [rrun, riscv_cbneMemcpyStore, *, signExtend_inj hn]
            · simp [rrun, riscv_cbneMemcpyStore, *, signExtend_inj hn]
            · intro x x1 x2 x3 x4
              simp at x4
              simp [rrun, riscv_cbneMemcpyStore, *, signExtend_inj hn]
            · simp [rrun, riscv_cbneMemcpyStore, *, signExtend_inj hn]
            · simp [rrun, riscv_cbneMemcpyStore, *, signExtend_inj hn, cpy_zero])
        refine ⟨k + 6, ?_⟩
        rw [run_add]
        generalize run (riscv_cbneMemcpyStore al be csa) fv k (l, m) = s1 at hk
        obtain ⟨⟨R, S, z, pc⟩, m1⟩ := s1
        obtain ⟨i1, i2, i3, i4, i5, i6, i7⟩ := hk
        simp only [Nat.lt_irrefl, if_false] at i1 i2 i3 i4 i5 i6 i7
        subst i1 i6 i7
        have j1 : R (al .v) = v := (i5 (al .v) (by simp [*]) (by simp [*]) (by simp [*]) (by simp [*])).trans h_v
        have j2 : R (al .newv) = newv :=
          (i5 (al .newv) (by simp [*]) (by simp [*]) (by simp [*]) (by simp [*])).trans h_newv
        refine ⟨?_, ?_, ?_⟩
        · simp [rrun, riscv_cbneMemcpyStore, *, signExtend_inj hn, pseudo]
        · simp [rrun, riscv_cbneMemcpyStore, *, signExtend_inj hn, pseudo, cpy_len]
        · intro x hx
          simp [rregs] at hx
          have := i5 x
          simp at this
          simp [rrun, riscv_cbneMemcpyStore, *, signExtend_inj hn]
          try grind
    · have he2 := Ne.symm he
      refine ⟨30, ?_, ?_, ?_⟩
      · simp [rrun, riscv_cbneMemcpyStore, *, signExtend_inj hn, pseudo]
      · simp [rrun, riscv_cbneMemcpyStore, *, signExtend_inj hn, pseudo]
      · intro x hx
        simp [rregs] at hx
        simp [rrun, riscv_cbneMemcpyStore, *, signExtend_inj hn]
        try grind
  · intro hne
    have hne2 := Ne.symm hne
    refine ⟨30, ?_, ?_, ?_⟩
    · simp [rrun, riscv_cbneMemcpyStore, *, signExtend_inj hn]
    · simp [rrun, riscv_cbneMemcpyStore, *, signExtend_inj hn]
    · intro x hx
      simp [rregs] at hx
      simp [rrun, riscv_cbneMemcpyStore, *, signExtend_inj hn]
      try grind

theorem riscv_cbneMemcpyStore_rel_ok (hn : 4 ≤ n) (al : Opnd → Nat) (be : Bool)
    (csa v expect dst src len newv : W n) (hno : NoOverlap dst src len) :
    Implements (riscv_cbneMemcpyStore_rel al be csa) [t6, t5, t4, t3] true al
      (.cbneMemcpyStore v expect dst src len newv) := by
  intro cpu fv l m h
  have h_v := h.reg .v _ rfl
  have f_v := h.free .v _ rfl
  have h_expect := h.reg .expect _ rfl
  have f_expect := h.free .expect _ rfl
  have h_dst := h.reg .dst _ rfl
  have f_dst := h.free .dst _ rfl
  have h_src := h.reg .src _ rfl
  have f_src := h.free .src _ rfl
  have h_len := h.reg .len _ rfl
  have f_len := h.free .len _ rfl
  have h_newv := h.reg .newv _ rfl
  have f_newv := h.free .newv _ rfl
  have f0 := h.freeCpu
  have hp := h.pc
  have hc := h.cpuS rfl
  simp [rregs] at f0 f_v f_expect f_dst f_src f_len f_newv
  refine ⟨?_, ?_⟩
  · intro hfv; subst hfv
    by_cases he : ldw be m v = expect
    · by_cases h0 : len = 0#(8 * n)
      · subst h0
        refine ⟨30, ?_, ?_, ?_⟩
        · simp [rrun, riscv_cbneMemcpyStore_rel, *, signExtend_inj hn, pseudo]
        · simp [rrun, riscv_cbneMemcpyStore_rel, *, signExtend_inj hn, pseudo, memcpy_zero]
        · intro x hx
          simp [rregs] at hx
          simp [rrun, riscv_cbneMemcpyStore_rel, *, signExtend_inj hn]
          try grind
      · have hpos : 0 < len.toNat := by
          have := mt (len_zero_iff len).2 h0; omega
        obtain ⟨k, hk⟩ := loop (riscv_cbneMemcpyStore_rel al be csa) fv
          (LoopI 9 15 30 29 31 [31, 30, 29, 28] l.regs
            l.slots m src dst src dst len) len.toNat
          (by
            rintro j ⟨⟨R, S, z, pc⟩, m1⟩ hj ⟨i1, i2, i3, i4, i5, i6, i7⟩
            simp only [hj, if_true] at i1 i2 i3 i4 i5 i6 i7
            subst i1 i6 i7
            have g1 := cpy_src m dst src len hno j hj
            refine ⟨6, ?_, ?_, ?_, ?_, ?_, ?_, ?_⟩
            · simp [rrun, riscv_cbneMemcpyStore_rel, *, signExtend_inj hn, step_up, step_up1, step_down, left_zero len j hj]
              grind
            · simp [rrun, riscv_cbneMemcpyStore_rel, *, signExtend_inj hn, step_up, step_up1, step_down]
            · simp [rrun, riscv_cbneMemcpyStore_rel, *, signExtend_inj hn, step_up, step_up1, step_down]
            · simp [rrun, riscv_cbneMemcpyStore_rel, *, signExtend_inj hn, step_up, step_up1, step_down]
            · intro x x1 x2 x3 x4
              have := i5 x x1 x2 x3 x4
              simp at x4
              simp [rrun, riscv_cbneMemcpyStore_rel, *, signExtend_inj hn]
            · simp [rrun, riscv_cbneMemcpyStore_rel]
            · simp [rrun, riscv_cbneMemcpyStore_rel, *, signExtend_inj hn, step_up, step_up1, step_down, byte_trip hn, cpy_succ m dst src len j hj])
          (l, m) (by
            refine ⟨9, ?_, ?_, ?_, ?_, ?_, ?_, ?_⟩
            · simp [rrun, riscv_cbneMemcpyStore_rel, *, signExtend_inj hn]
            · simp [rrun, riscv_cbneMemcpyStore_rel, *, signExtend_inj hn]
            · simp [rrun, riscv_cbneMemcpyStore_rel, *, signExtend_inj hn]
            · simp [rrun, riscv_cbneMemcpyStore_rel, *, signExtend_inj hn]
            · intro x x1 x2 x3 x4
              simp at x4
              simp [rrun, riscv_cbneMemcpyStore_rel, *, signExtend_inj hn]
            · simp [rrun, riscv_cbneMemcpyStore_rel, *, signExtend_inj hn]
            · simp [rrun, riscv_cbneMemcpyStore_rel, *, signExtend_inj hn, cpy_zero])
        refine ⟨k + 6, ?_⟩
        rw [run_add]
        generalize run (riscv_cbneMemcpyStore_rel al be csa) fv k (l, m) = s1 at hk
        obtain ⟨⟨R, S, z, pc⟩, m1⟩ := s1
        obtain ⟨i1, i2, i3, i4, i5, i6, i7⟩ := hk
        simp only [Nat.lt_irrefl, if_false] at i1 i2 i3 i4 i5 i6 i7
        subst i1 i6 i7
        have j1 : R (al .v) = v := (i5 (al .v) (by simp [*]) (by simp [*]) (by simp [*]) (by simp [*])).trans h_v
        have j2 : R (al .newv) = newv :=
          (i5 (al .newv) (by simp [*]) (by simp [*]) (by simp [*]) (by simp [*])).trans h_newv
        refine ⟨?_, ?_, ?_⟩
        · simp [rrun, riscv_cbneMemcpyStore_rel, *, signExtend_inj hn, pseudo]
        · simp [rrun, riscv_cbneMemcpyStore_rel, *, signExtend_inj hn, pseudo, cpy_len]
        · intro x hx
          simp [rregs] at hx
          have := i5 x
          simp at this
          simp [rrun, riscv_cbneMemcpyStore_rel, *, signExtend_inj hn]
          try grind
    · have he2 := Ne.symm he
      refine ⟨30, ?_, ?_, ?_⟩
      · simp [rrun, riscv_cbneMemcpyStore_rel, *, signExtend_inj hn, pseudo]
      · simp [rrun, riscv_cbneMemcpyStore_rel, *, signExtend_inj hn, pseudo]
      · intro x hx
        simp [rregs] at hx
        simp [rrun, riscv_cbneMemcpyStore_rel, *, signExtend_inj hn]
        try grind
  · intro hne
    have hne2 := Ne.symm hne
    refine ⟨30, ?_, ?_, ?_⟩
    · simp [rrun, riscv_cbneMemcpyStore_rel, *, signExtend_inj hn]
    · simp [rrun, riscv_cbneMemcpyStore_rel, *, signExtend_inj hn]
    · intro x hx
      simp [rregs] at hx
      simp [rrun, riscv_cbneMemcpyStore_rel, *, signExtend_inj hn]
      try grind

theorem ppc_cbneMemcpyStore_ok (hn : 4 ≤ n) (al : Opnd → Nat) (be : Bool)
    (csa v expect dst src len newv : W n) (hno : NoOverlap dst src len) :
    Implements (ppc_cbneMemcpyStore al be csa) [r17, r18, r19, r20, r21] false al
      (.cbneMemcpyStore v expect dst src len newv) := by
  intro cpu fv l m h
  have h_v := h.reg .v _ rfl
  have f_v := h.free .v _ rfl
  have h_expect := h.reg .expect _ rfl
  have f_expect := h.free .expect _ rfl
  have h_dst := h.reg .dst _ rfl
  have f_dst := h.free .dst _ rfl
  have h_src := h.reg .src _ rfl
  have f_src := h.free .src _ rfl
  have h_len := h.reg .len _ rfl
  have f_len := h.free .len _ rfl
  have h_newv := h.reg .newv _ rfl
  have f_newv := h.free .newv _ rfl
  have f0 := h.freeCpu
  have hp := h.pc
  have hc := h.cpuV
  simp [rregs] at f0 f_v f_expect f_dst f_src f_len f_newv
  refine ⟨?_, ?_⟩
  · intro hfv; subst hfv
    by_cases he : ldw be m v = expect
    · by_cases h0 : len = 0#(8 * n)
      · subst h0
        refine ⟨30, ?_, ?_, ?_⟩
        · simp [rrun, ppc_cbneMemcpyStore, *, setWidth32_setWidth hn, pseudo]
        · simp [rrun, ppc_cbneMemcpyStore, *, setWidth32_setWidth hn, pseudo, memcpy_zero]
        · intro x hx
          simp [rregs] at hx
          simp [rrun, ppc_cbneMemcpyStore, *, setWidth32_setWidth hn]
          try grind
      · have hpos : 0 < len.toNat := by
          have := mt (len_zero_iff len).2 h0; omega
        obtain ⟨k, hk⟩ := loop (ppc_cbneMemcpyStore al be csa) fv
          (LoopI 14 19 20 21 19 [17, 18, 19, 20, 21] l.regs
            l.slots m (src + BitVec.ofInt (8 * n) (-1)) (dst + BitVec.ofInt (8 * n) (-1)) src dst len) len.toNat
          (by
            rintro j ⟨⟨R, S, z, pc⟩, m1⟩ hj ⟨i1, i2, i3, i4, i5, i6, i7⟩
            simp only [hj, if_true] at i1 i2 i3 i4 i5 i6 i7
            subst i1 i6 i7
            have g1 := cpy_src m dst src len hno j hj
            refine ⟨5, ?_, ?_, ?_, ?_, ?_, ?_, ?_⟩
            · simp [rrun, ppc_cbneMemcpyStore, *, setWidth32_setWidth hn, step_up, step_up1, step_down, pred_up1, left_zero len j hj]
              grind
            · simp [rrun, ppc_cbneMemcpyStore, *, setWidth32_setWidth hn, step_up, step_up1, step_down, pred_up1]
            · simp [rrun, ppc_cbneMemcpyStore, *, setWidth32_setWidth hn, step_up, step_up1, step_down, pred_up1]
            · simp [rrun, ppc_cbneMemcpyStore, *, setWidth32_setWidth hn, step_up, step_up1, step_down, pred_up1]
            · intro x x1 x2 x3 x4
              have := i5 x x1 x2 x3 x4
              simp at x4
              simp [rrun, ppc_cbneMemcpyStore, *, setWidth32_setWidth hn]
            · simp [rrun, ppc_cbneMemcpyStore]
            · simp [rrun, ppc_cbneMemcpyStore, *, setWidth32_setWidth hn, step_up, step_up1, step_down, pred_up1, byte_trip hn, cpy_succ m dst src len j hj])
          (l, m) (by
            refine ⟨14, ?_, ?_, ?_, ?_, ?_, ?_, ?_⟩
            · simp [rrun, ppc_cbneMemcpyStore, *, setWidth32_setWidth hn]
            · simp [rrun, ppc_cbneMemcpyStore, *, setWidth32_setWidth hn]
            · simp [rrun, ppc_cbneMemcpyStore, *, setWidth32_setWidth hn]
            · simp [rrun, ppc_cbneMemcpyStore, *, setWidth32_setWidth hn]
            · intro x x1 x2 x3 x4
              simp at x4
              simp [rrun, ppc_cbneMemcpyStore, *, setWidth32_setWidth hn]
            · simp [rrun, ppc_cbneMemcpyStore, *, setWidth32_setWidth hn]
            · simp [rrun, ppc_cbneMemcpyStore, *, setWidth32_setWidth hn, cpy_zero])
        refine ⟨k + 6, ?_⟩
        rw [run_add]
        generalize run (ppc_cbneMemcpyStore al be csa) fv k (l, m) = s1 at hk
        obtain ⟨⟨R, S, z, pc⟩, m1⟩ := s1
        obtain ⟨i1, i2, i3, i4, i5, i6, i7⟩ := hk
        simp only [Nat.lt_irrefl, if_false] at i1 i2 i3 i4 i5 i6 i7
        subst i1 i6 i7
        have j1 : R (al .v) = v := (i5 (al .v) (by simp [*]) (by simp [*]) (by simp [*]) (by simp [*])).trans h_v
        have j2 : R (al .newv) = newv :=
          (i5 (al .newv) (by simp [*]) (by simp [*]) (by simp [*]) (by simp [*])).trans h_newv
        refine ⟨?_, ?_, ?_⟩
        · simp [rrun, ppc_cbneMemcpyStore, *, setWidth32_setWidth hn, pseudo]
        · simp [rrun, ppc_cbneMemcpyStore, *, setWidth32_setWidth hn, pseudo, cpy_len]
        · intro x hx
          simp [rregs] at hx
          have := i5 x
          simp at this
          simp [rrun, ppc_cbneMemcpyStore, *, setWidth32_setWidth hn]
          try grind
    · have he2 := Ne.symm he
      refine ⟨30, ?_, ?_, ?_⟩
      · simp [rrun, ppc_cbneMemcpyStore, *, setWidth32_setWidth hn, pseudo]
      · simp [rrun, ppc_cbneMemcpyStore, *, setWidth32_setWidth hn, pseudo]
      · intro x hx
        simp [rregs] at hx
        simp [rrun, ppc_cbneMemcpyStore, *, setWidth32_setWidth hn]
        try grind
  · intro hne
    have hne2 := Ne.symm hne
    refine ⟨30, ?_, ?_, ?_⟩
    · simp [rrun, ppc_cbneMemcpyStore, *, setWidth32_setWidth hn]
    · simp [rrun, ppc_cbneMemcpyStore, *, setWidth32_setWidth hn]
    · intro x hx
      simp [rregs] at hx
      simp [rrun, ppc_cbneMemcpyStore, *, setWidth32_setWidth hn]
      try grind

theorem ppc_cbneMemcpyStore_rel_ok (hn : 4 ≤ n) (al : Opnd → Nat) (be : Bool)
    (csa v expect dst src len newv : W n) (hno : NoOverlap dst src len) :
    Implements (ppc_cbneMemcpyStore_rel al be csa) [r17, r18, r19, r20, r21] false al
      (.cbneMemcpyStore v expect dst src len newv) := by
  intro cpu fv l m h
  have h_v := h.reg .v _ rfl
  have f_v := h.free .v _ rfl
  have h_expect := h.reg .expect _ rfl
  have f_expect := h.free .expect _ rfl
  have h_dst := h.reg .dst _ rfl
  have f_dst := h.free .dst _ rfl
  have h_src := h.reg .src _ rfl
  have f_src := h.free .src _ rfl
  have h_len := h.reg .len _ rfl
  have f_len := h.free .len _ rfl
  have h_newv := h.reg .newv _ rfl
  have f_newv := h.free .newv _ rfl
  have f0 := h.freeCpu
  have hp := h.pc
  have hc := h.cpuV
  simp [rregs] at f0 f_v f_expect f_dst f_src f_len f_newv
  refine ⟨?_, ?_⟩
  · intro hfv; subst hfv
    by_cases he : ldw be m v = expect
    · by_cases h0 : len = 0#(8 * n)
      · subst h0
        refine ⟨30, ?_, ?_, ?_⟩
        · simp [rrun, ppc_cbneMemcpyStore_rel, *, setWidth32_setWidth hn, pseudo]
        · simp [rrun, ppc_cbneMemcpyStore_rel, *, setWidth32_setWidth hn, pseudo, memcpy_zero]
        · intro x hx
          simp [rregs] at hx
          simp [rrun, ppc_cbneMemcpyStore_rel, *, setWidth32_setWidth hn]
          try grind
      · have hpos : 0 < len.toNat := by
          have := mt (len_zero_iff len).2 h0; omega
        obtain ⟨k, hk⟩ := loop (ppc_cbneMemcpyStore_rel al be csa) fv
          (LoopI 14 19 20 21 19 [17, 18, 19, 20, 21] l.regs
            l.slots m (src + BitVec.ofInt (8 * n) (-1)) (dst + BitVec.ofInt (8 * n) (-1)) src dst len) len.toNat
          (by
            rintro j ⟨⟨R, S, z, pc⟩, m1⟩ hj ⟨i1, i2, i3, i4, i5, i6, i7⟩
            simp only [hj, if_true] at i1 i2 i3 i4 i5 i6 i7
            subst i1 i6 i7
            have g1 := cpy_src m dst src len hno j hj
            refine ⟨5, ?_, ?_, ?_, ?_, ?_, ?_, ?_⟩
            · simp [rrun, ppc_cbneMemcpyStore_rel, *, setWidth32_setWidth hn, step_up, step_up1, step_down, pred_up1, left_zero len j hj]
              grind
            · simp [rrun, ppc_cbneMemcpyStore_rel, *, setWidth32_setWidth hn, step_up, step_up1, step_down, pred_up1]
            · simp [rrun, ppc_cbneMemcpyStore_rel, *, setWidth32_setWidth hn, step_up, step_up1, step_down, pred_up1]
            · simp [rrun, ppc_cbneMemcpyStore_rel, *, setWidth32_setWidth hn, step_up, step_up1, step_down, pred_up1]
            · intro x x1 x2 x3 x4
              have := i5 x x1 x2 x3 x4
              simp at x4
              simp [rrun, ppc_cbneMemcpyStore_rel, *, setWidth32_setWidth hn]
            · simp [rrun, ppc_cbneMemcpyStore_rel]
            · simp [rrun, ppc_cbneMemcpyStore_rel, *, setWidth32_setWidth hn, step_up, step_up1, step_down, pred_up1, byte_trip hn, cpy_succ m dst src len j hj])
          (l, m) (by
            refine ⟨14, ?_, ?_, ?_, ?_, ?_, ?_, ?_⟩
            · simp [rrun, ppc_cbneMemcpyStore_rel, *, setWidth32_setWidth hn]
            · simp [rrun, ppc_cbneMemcpyStore_rel, *, setWidth32_setWidth hn]
            · simp [rrun, ppc_cbneMemcpyStore_rel, *, setWidth32_setWidth hn]
            · simp [rrun, ppc_cbneMemcpyStore_rel, *, setWidth32_setWidth hn]
            · intro x x1 x2 x3 x4
              simp at x4
              simp [rrun, ppc_cbneMemcpyStore_rel, *, setWidth32_setWidth hn]
            · simp [rrun, ppc_cbneMemcpyStore_rel, *, setWidth32_setWidth hn]
            · simp [rrun, ppc_cbneMemcpyStore_rel, *, setWidth32_setWidth hn, cpy_zero])
        refine ⟨k + 6, ?_⟩
        rw [run_add]
        generalize run (ppc_cbneMemcpyStore_rel al be csa) fv k (l, m) = s1 at hk
        obtain ⟨⟨R, S, z, pc⟩, m1⟩ := s1
        obtain ⟨i1, i2, i3, i4, i5, i6, i7⟩ := hk
        simp only [Nat.lt_irrefl, if_false] at i1 i2 i3 i4 i5 i6 i7
        subst i1 i6 i7
        have j1 : R (al .v) = v := (i5 (al .v) (by simp [*]) (by simp [*]) (by simp [*]) (by simp [*])).trans h_v
        have j2 : R (al .newv) = newv :=
          (i5 (al .newv) (by simp [*]) (by simp [*]) (by simp [*]) (by simp [*])).trans h_newv
        refine ⟨?_, ?_, ?_⟩
        · simp [rrun, ppc_cbneMemcpyStore_rel, *, setWidth32_setWidth hn, pseudo]
        · simp [rrun, ppc_cbneMemcpyStore_rel, *, setWidth32_setWidth hn, pseudo, cpy_len]
        · intro x hx
          simp [rregs] at hx
          have := i5 x
          simp at this
          simp [rrun, ppc_cbneMemcpyStore_rel, *, setWidth32_setWidth hn]
          try grind
    · have he2 := Ne.symm he
      refine ⟨30, ?_, ?_, ?_⟩
      · simp [rrun, ppc_cbneMemcpyStore_rel, *, setWidth32_setWidth hn, pseudo]
      · simp [rrun, ppc_cbneMemcpyStore_rel, *, setWidth32_setWidth hn, pseudo]
      · intro x hx
        simp [rregs] at hx
        simp [rrun, ppc_cbneMemcpyStore_rel, *, setWidth32_setWidth hn]
        try grind
  · intro hne
    have hne2 := Ne.symm hne
    refine ⟨30, ?_, ?_, ?_⟩
    · simp [rrun, ppc_cbneMemcpyStore_rel, *, setWidth32_setWidth hn]
    · simp [rrun, ppc_cbneMemcpyStore_rel, *, setWidth32_setWidth hn]
    · intro x hx
      simp [rregs] at hx
      simp [rrun, ppc_cbneMemcpyStore_rel, *, setWidth32_setWidth hn]
      try grind

theorem s390_cbneMemcpyStore_ok (hn : 4 ≤ n) (al : Opnd → Nat) (be : Bool)
    (csa v expect dst src len newv : W n) (hno : NoOverlap dst src len) (ho : OwnRegs al) :
    Implements (s390_cbneMemcpyStore al be csa) [g0] false al
      (.cbneMemcpyStore v expect dst src len newv) := by
  intro cpu fv l m h
  have h_v := h.reg .v _ rfl
  have f_v := h.free .v _ rfl
  have h_expect := h.reg .expect _ rfl
  have f_expect := h.free .expect _ rfl
  have h_dst := h.reg .dst _ rfl
  have f_dst := h.free .dst _ rfl
  have h_src := h.reg .src _ rfl
  have f_src := h.free .src _ rfl
  have h_len := h.reg .len _ rfl
  have f_len := h.free .len _ rfl
  have h_newv := h.reg .newv _ rfl
  have f_newv := h.free .newv _ rfl
  have f0 := h.freeCpu
  have hp := h.pc
  have hc := h.cpuV
  obtain ⟨o1, o2, o3, o4, o5, o6, o7, o8, o9⟩ := ho
  have q1 := Ne.symm o1
  have q2 := Ne.symm o2
  have q3 := Ne.symm o3
  have q4 := Ne.symm o4
  have q5 := Ne.symm o5
  have q6 := Ne.symm o6
  have q7 := Ne.symm o7
  have q8 := Ne.symm o8
  have q9 := Ne.symm o9
  simp [rregs] at f0 f_v f_expect f_dst f_src f_len f_newv
  refine ⟨?_, ?_⟩
  · intro hfv; subst hfv
    by_cases he : ldw be m v = expect
    · by_cases h0 : len = 0#(8 * n)
      · subst h0
        refine ⟨30, ?_, ?_, ?_⟩
        · simp [rrun, s390_cbneMemcpyStore, *, pseudo]
        · simp [rrun, s390_cbneMemcpyStore, *, pseudo, memcpy_zero]
        · intro x hx
          simp [rregs] at hx
          simp [rrun, s390_cbneMemcpyStore, *]
          try grind
      · have hpos : 0 < len.toNat := by
          have := mt (len_zero_iff len).2 h0; omega
        obtain ⟨k, hk⟩ := loop (s390_cbneMemcpyStore al be csa) fv
          (LoopI 10 16 (al .src) (al .dst) (al .len) [0] l.regs
            (upd (upd (upd l.slots 100 src) 101 dst) 102 len) m src dst src dst len) len.toNat
          (by
            rintro j ⟨⟨R, S, z, pc⟩, m1⟩ hj ⟨i1, i2, i3, i4, i5, i6, i7⟩
            simp only [hj, if_true] at i1 i2 i3 i4 i5 i6 i7
            subst i1 i6 i7
            have g1 := cpy_src m dst src len hno j hj
            refine ⟨6, ?_, ?_, ?_, ?_, ?_, ?_, ?_⟩
            · simp [rrun, s390_cbneMemcpyStore, *, step_up, step_up1, step_down, left_zero len j hj]
              grind
            · simp [rrun, s390_cbneMemcpyStore, *, step_up, step_up1, step_down]
            · simp [rrun, s390_cbneMemcpyStore, *, step_up, step_up1, step_down]
            · simp [rrun, s390_cbneMemcpyStore, *, step_up, step_up1, step_down]
            · intro x x1 x2 x3 x4
              have := i5 x x1 x2 x3 x4
              simp at x4
              simp [rrun, s390_cbneMemcpyStore, *]
            · simp [rrun, s390_cbneMemcpyStore]
            · simp [rrun, s390_cbneMemcpyStore, *, step_up, step_up1, step_down, byte_trip hn, cpy_succ m dst src len j hj])
          (l, m) (by
            refine ⟨10, ?_, ?_, ?_, ?_, ?_, ?_, ?_⟩
            · simp [rrun, s390_cbneMemcpyStore, *]
            · simp [rrun, s390_cbneMemcpyStore, *]
            · simp [rrun, s390_cbneMemcpyStore, *]
            · simp [rrun, s390_cbneMemcpyStore, *]
            · intro x x1 x2 x3 x4
              simp at x4
              simp [rrun, s390_cbneMemcpyStore, *]
            · simp [rrun, s390_cbneMemcpyStore, *]
            · simp [rrun, s390_cbneMemcpyStore, *, cpy_zero])
        refine ⟨k + 6, ?_⟩
        rw [run_add]
        generalize run (s390_cbneMemcpyStore al be csa) fv k (l, m) = s1 at hk
        obtain ⟨⟨R, S, z, pc⟩, m1⟩ := s1
        obtain ⟨i1, i2, i3, i4, i5, i6, i7⟩ := hk
        simp only [Nat.lt_irrefl, if_false] at i1 i2 i3 i4 i5 i6 i7
        subst i1 i6 i7
        have j1 : R (al .v) = v := (i5 (al .v) (by simp [*]) (by simp [*]) (by simp [*]) (by simp [*])).trans h_v
        have j2 : R (al .newv) = newv :=
          (i5 (al .newv) (by simp [*]) (by simp [*]) (by simp [*]) (by simp [*])).trans h_newv
        refine ⟨?_, ?_, ?_⟩
        · simp [rrun, s390_cbneMemcpyStore, *, pseudo]
        · simp [rrun, s390_cbneMemcpyStore, *, pseudo, cpy_len]
        · intro x hx
          simp [rregs] at hx
          have := i5 x
          simp at this
          simp [rrun, s390_cbneMemcpyStore, *]
          try grind
    · have he2 := Ne.symm he
      refine ⟨30, ?_, ?_, ?_⟩
      · simp [rrun, s390_cbneMemcpyStore, *, pseudo]
      · simp [rrun, s390_cbneMemcpyStore, *, pseudo]
      · intro x hx
        simp [rregs] at hx
        simp [rrun, s390_cbneMemcpyStore, *]
        try grind
  · intro hne
    have hne2 := Ne.symm hne
    refine ⟨30, ?_, ?_, ?_⟩
    · simp [rrun, s390_cbneMemcpyStore, *]
    · simp [rrun, s390_cbneMemcpyStore, *]
    · intro x hx
      simp [rregs] at hx
      simp [rrun, s390_cbneMemcpyStore, *]
      try grind

theorem mips_cbneMemcpyStore_ok (hn : 4 ≤ n) (al : Opnd → Nat) (be : Bool)
    (csa v expect dst src len newv : W n) (hno : NoOverlap dst src len) (ho : OwnRegs al) :
    Implements (mips_cbneMemcpyStore al be csa) [m4] true al
      (.cbneMemcpyStore v expect dst src len newv) := by
  intro cpu fv l m h
  have h_v := h.reg .v _ rfl
  have f_v := h.free .v _ rfl
  have h_expect := h.reg .expect _ rfl
  have f_expect := h.free .expect _ rfl
  have h_dst := h.reg .dst _ rfl
  have f_dst := h.free .dst _ rfl
  have h_src := h.reg .src _ rfl
  have f_src := h.free .src _ rfl
  have h_len := h.reg .len _ rfl
  have f_len := h.free .len _ rfl
  have h_newv := h.reg .newv _ rfl
  have f_newv := h.free .newv _ rfl
  have f0 := h.freeCpu
  have hp := h.pc
  have hc := h.cpuS rfl
  obtain ⟨o1, o2, o3, o4, o5, o6, o7, o8, o9⟩ := ho
  have q1 := Ne.symm o1
  have q2 := Ne.symm o2
  have q3 := Ne.symm o3
  have q4 := Ne.symm o4
  have q5 := Ne.symm o5
  have q6 := Ne.symm o6
  have q7 := Ne.symm o7
  have q8 := Ne.symm o8
  have q9 := Ne.symm o9
  simp [rregs] at f0 f_v f_expect f_dst f_src f_len f_newv
  refine ⟨?_, ?_⟩
  · intro hfv; subst hfv
    by_cases he : ldw be m v = expect
    · by_cases h0 : len = 0#(8 * n)
      · subst h0
        refine ⟨30, ?_, ?_, ?_⟩
        · simp [rrun, mips_cbneMemcpyStore, *, signExtend_inj hn, pseudo]
        · simp [rrun, mips_cbneMemcpyStore, *, signExtend_inj hn, pseudo, memcpy_zero]
        · intro x hx
          simp [rregs] at hx
          simp [rrun, mips_cbneMemcpyStore, *, signExtend_inj hn]
          try grind
      · have hpos : 0 < len.toNat := by
          have := mt (len_zero_iff len).2 h0; omega
        obtain ⟨k, hk⟩ := loop (mips_cbneMemcpyStore al be csa) fv
          (LoopI 9 15 (al .src) (al .dst) (al .len) [4] l.regs
            (upd (upd (upd l.slots 100 src) 101 dst) 102 len) m src dst src dst len) len.toNat
          (by
            rintro j ⟨⟨R, S, z, pc⟩, m1⟩ hj ⟨i1, i2, i3, i4, i5, i6, i7⟩
            simp only [hj, if_true] at i1 i2 i3 i4 i5 i6 i7
            subst i1 i6 i7
            have g1 := cpy_src m dst src len hno j hj
            refine ⟨6, ?_, ?_, ?_, ?_, ?_, ?_, ?_⟩
            · simp [rrun, mips_cbneMemcpyStore, *, signExtend_inj hn, step_up, step_up1, step_down, left_zero len j hj]
              grind
            · simp [rrun, mips_cbneMemcpyStore, *, signExtend_inj hn, step_up, step_up1, step_down]
            · simp [rrun, mips_cbneMemcpyStore, *, signExtend_inj hn, step_up, step_up1, step_down]
            · simp [rrun, mips_cbneMemcpyStore, *, signExtend_inj hn, step_up, step_up1, step_down]
            · intro x x1 x2 x3 x4
              have := i5 x x1 x2 x3 x4
              simp at x4
              simp [rrun, mips_cbneMemcpyStore, *, signExtend_inj hn]
            · simp [rrun, mips_cbneMemcpyStore]
            · simp [rrun, mips_cbneMemcpyStore, *, signExtend_inj hn, step_up, step_up1, step_down, byte_trip hn, cpy_succ m dst src len j hj])
          (l, m) (by
            refine ⟨9, ?_, ?_, ?_, ?_, ?_, ?_, ?_⟩
            · simp [rrun, mips_cbneMemcpyStore, *, signExtend_inj hn]
            · simp [rrun, mips_cbneMemcpyStore, *, signExtend_inj hn]
            · simp [rrun, mips_cbneMemcpyStore, *, signExtend_inj hn]
            · simp [rrun, mips_cbneMemcpyStore, *, signExtend_inj hn]
            · intro x x1 x2 x3 x4
              simp at x4
              simp [rrun, mips_cbneMemcpyStore, *, signExtend_inj hn]
            · simp [rrun, mips_cbneMemcpyStore, *, signExtend_inj hn]
            · simp [rrun, mips_cbneMemcpyStore, *, signExtend_inj hn, cpy_zero])
        refine ⟨k + 6, ?_⟩
        rw [run_add]
        generalize run (mips_cbneMemcpyStore al be csa) fv k (l, m) = s1 at hk
        obtain ⟨⟨R, S, z, pc⟩, m1⟩ := s1
        obtain ⟨i1, i2, i3, i4, i5, i6, i7⟩ := hk
        simp only [Nat.lt_irrefl, if_false] at i1 i2 i3 i4 i5 i6 i7
        subst i1 i6 i7
        have j1 : R (al .v) = v := (i5 (al .v) (by simp [*]) (by simp [*]) (by simp [*]) (by simp [*])).trans h_v
        have j2 : R (al .newv) = newv :=
          (i5 (al .newv) (by simp [*]) (by simp [*]) (by simp [*]) (by simp [*])).trans h_newv
        refine ⟨?_, ?_, ?_⟩
        · simp [rrun, mips_cbneMemcpyStore, *, signExtend_inj hn, pseudo]
        · simp [rrun, mips_cbneMemcpyStore, *, signExtend_inj hn, pseudo, cpy_len]
        · intro x hx
          simp [rregs] at hx
          have := i5 x
          simp at this
          simp [rrun, mips_cbneMemcpyStore, *, signExtend_inj hn]
          try grind
    · have he2 := Ne.symm he
      refine ⟨30, ?_, ?_, ?_⟩
      · simp [rrun, mips_cbneMemcpyStore, *, signExtend_inj hn, pseudo]
      · simp [rrun, mips_cbneMemcpyStore, *, signExtend_inj hn, pseudo]
      · intro x hx
        simp [rregs] at hx
        simp [rrun, mips_cbneMemcpyStore, *, signExtend_inj hn]
        try grind
  · intro hne
    have hne2 := Ne.symm hne
    refine ⟨30, ?_, ?_, ?_⟩
    · simp [rrun, mips_cbneMemcpyStore, *, signExtend_inj hn]
    · simp [rrun, mips_cbneMemcpyStore, *, signExtend_inj hn]
    · intro x hx
      simp [rregs] at hx
      simp [rrun, mips_cbneMemcpyStore, *, signExtend_inj hn]
      try grind

theorem mips_cbneMemcpyStore_rel_ok (hn : 4 ≤ n) (al : Opnd → Nat) (be : Bool)
    (csa v expect dst src len newv : W n) (hno : NoOverlap dst src len) (ho : OwnRegs al) :
    Implements (mips_cbneMemcpyStore_rel al be csa) [m4] true al
      (.cbneMemcpyStore v expect dst src len newv) := by
  intro cpu fv l m h
  have h_v := h.reg .v _ rfl
  have f_v := h.free .v _ rfl
  have h_expect := h.reg .expect _ rfl
  have f_expect := h.free .expect _ rfl
  have h_dst := h.reg .dst _ rfl
  have f_dst := h.free .dst _ rfl
  have h_src := h.reg .src _ rfl
  have f_src := h.free .src _ rfl
  have h_len := h.reg .len _ rfl
  have f_len := h.free .len _ rfl
  have h_newv := h.reg .newv _ rfl
  have f_newv := h.free .newv _ rfl
  have f0 := h.freeCpu
  have hp := h.pc
  have hc := h.cpuS rfl
  obtain ⟨o1, o2, o3, o4, o5, o6, o7, o8, o9⟩ := ho
  have q1 := Ne.symm o1
  have q2 := Ne.symm o2
  have q3 := Ne.symm o3
  have q4 := Ne.symm o4
  have q5 := Ne.symm o5
  have q6 := Ne.symm o6
  have q7 := Ne.symm o7
  have q8 := Ne.symm o8
  have q9 := Ne.symm o9
  simp [rregs] at f0 f_v f_expect f_dst f_src f_len f_newv
  refine ⟨?_, ?_⟩
  · intro hfv; subst hfv
    by_cases he : ldw be m v = expect
    · by_cases h0 : len = 0#(8 * n)
      · subst h0
        refine ⟨30, ?_, ?_, ?_⟩
        · simp [rrun, mips_cbneMemcpyStore_rel, *, signExtend_inj hn, pseudo]
        · simp [rrun, mips_cbneMemcpyStore_rel, *, signExtend_inj hn, pseudo, memcpy_zero]
        · intro x hx
          simp [rregs] at hx
          simp [rrun, mips_cbneMemcpyStore_rel, *, signExtend_inj hn]
          try grind
      · have hpos : 0 < len.toNat := by
          have := mt (len_zero_iff len).2 h0; omega
        obtain ⟨k, hk⟩ := loop (mips_cbneMemcpyStore_rel al be csa) fv
          (LoopI 9 15 (al .src) (al .dst) (al .len) [4] l.regs
            (upd (upd (upd l.slots 100 src) 101 dst) 102 len) m src dst src dst len) len.toNat
          (by
            rintro j ⟨⟨R, S, z, pc⟩, m1⟩ hj ⟨i1, i2, i3, i4, i5, i6, i7⟩
            simp only [hj, if_true] at i1 i2 i3 i4 i5 i6 i7
            subst i1 i6 i7
            have g1 := cpy_src m dst src len hno j hj
            refine ⟨6, ?_, ?_, ?_, ?_, ?_, ?_, ?_⟩
            · simp [rrun, mips_cbneMemcpyStore_rel, *, signExtend_inj hn, step_up, step_up1, step_down, left_zero len j hj]
              grind
            · simp [rrun, mips_cbneMemcpyStore_rel, *, signExtend_inj hn, step_up, step_up1, step_down]
            · simp [rrun, mips_cbneMemcpyStore_rel, *, signExtend_inj hn, step_up, step_up1, step_down]
            · simp [rrun, mips_cbneMemcpyStore_rel, *, signExtend_inj hn, step_up, step_up1, step_down]
            · intro x x1 x2 x3 x4
              have := i5 x x1 x2 x3 x4
              simp at x4
              simp [rrun, mips_cbneMemcpyStore_rel, *, signExtend_inj hn]
            · simp [rrun, mips_cbneMemcpyStore_rel]
            · simp [rrun, mips_cbneMemcpyStore_rel, *, signExtend_inj hn, step_up, step_up1, step_down, byte_trip hn, cpy_succ m dst src len j hj])
          (l, m) (by
            refine ⟨9, ?_, ?_, ?_, ?_, ?_, ?_, ?_⟩
            · simp [rrun, mips_cbneMemcpyStore_rel, *, signExtend_inj hn]
            · simp [rrun, mips_cbneMemcpyStore_rel, *, signExtend_inj hn]
            · simp [rrun, mips_cbneMemcpyStore_rel, *, signExtend_inj hn]
            · simp [rrun, mips_cbneMemcpyStore_rel, *, signExtend_inj hn]
            · intro x x1 x2 x3 x4
              simp at x4
              simp [rrun, mips_cbneMemcpyStore_rel, *, signExtend_inj hn]
            · simp [rrun, mips_cbneMemcpyStore_rel, *, signExtend_inj hn]
            · simp [rrun, mips_cbneMemcpyStore_rel, *, signExtend_inj hn, cpy_zero])
        refine ⟨k + 6, ?_⟩
        rw [run_add]
        generalize run (mips_cbneMemcpyStore_rel al be csa) fv k (l, m) = s1 at hk
        obtain ⟨⟨R, S, z, pc⟩, m1⟩ := s1
        obtain ⟨i1, i2, i3, i4, i5, i6, i7⟩ := hk
        simp only [Nat.lt_irrefl, if_false] at i1 i2 i3 i4 i5 i6 i7
        subst i1 i6 i7
        have j1 : R (al .v) = v := (i5 (al .v) (by simp [*]) (by simp [*]) (by simp [*]) (by simp [*])).trans h_v
        have j2 : R (al .newv) = newv :=
          (i5 (al .newv) (by simp [*]) (by simp [*]) (by simp [*]) (by simp [*])).trans h_newv
        refine ⟨?_, ?_, ?_⟩
        · simp [rrun, mips_cbneMemcpyStore_rel, *, signExtend_inj hn, pseudo]
        · simp [rrun, mips_cbneMemcpyStore_rel, *, signExtend_inj hn, pseudo, cpy_len]
        · intro x hx
          simp [rregs] at hx
          have := i5 x
          simp at this
          simp [rrun, mips_cbneMemcpyStore_rel, *, signExtend_inj hn]
          try grind
    · have he2 := Ne.symm he
      refine ⟨30, ?_, ?_, ?_⟩
      · simp [rrun, mips_cbneMemcpyStore_rel, *, signExtend_inj hn, pseudo]
      · simp [rrun, mips_cbneMemcpyStore_rel, *, signExtend_inj hn, pseudo]
      · intro x hx
        simp [rregs] at hx
        simp [rrun, mips_cbneMemcpyStore_rel, *, signExtend_inj hn]
        try grind
  · intro hne
    have hne2 := Ne.symm hne
    refine ⟨30, ?_, ?_, ?_⟩
    · simp [rrun, mips_cbneMemcpyStore_rel, *, signExtend_inj hn]
    · simp [rrun, mips_cbneMemcpyStore_rel, *, signExtend_inj hn]
    · intro x hx
      simp [rregs] at hx
      simp [rrun, mips_cbneMemcpyStore_rel, *, signExtend_inj hn]
      try grind

theorem loongarch_cbneMemcpyStore_ok (hn : 4 ≤ n) (al : Opnd → Nat) (be : Bool)
    (csa v expect dst src len newv : W n) (hno : NoOverlap dst src len) (ho : OwnRegs al) :
    Implements (loongarch_cbneMemcpyStore al be csa) [m4] true al
      (.cbneMemcpyStore v expect dst src len newv) := by
  intro cpu fv l m h
  have h_v := h.reg .v _ rfl
  have f_v := h.free .v _ rfl
  have h_expect := h.reg .expect _ rfl
  have f_expect := h.free .expect _ rfl
  have h_dst := h.reg .dst _ rfl
  have f_dst := h.free .dst _ rfl
  have h_src := h.reg .src _ rfl
  have f_src := h.free .src _ rfl
  have h_len := h.reg .len _ rfl
  have f_len := h.free .len _ rfl
  have h_newv := h.reg .newv _ rfl
  have f_newv := h.free .newv _ rfl
  have f0 := h.freeCpu
  have hp := h.pc
  have hc := h.cpuS rfl
  obtain ⟨o1, o2, o3, o4, o5, o6, o7, o8, o9⟩ := ho
  have q1 := Ne.symm o1
  have q2 := Ne.symm o2
  have q3 := Ne.symm o3
  have q4 := Ne.symm o4
  have q5 := Ne.symm o5
  have q6 := Ne.symm o6
  have q7 := Ne.symm o7
  have q8 := Ne.symm o8
  have q9 := Ne.symm o9
  simp [rregs] at f0 f_v f_expect f_dst f_src f_len f_newv
  refine ⟨?_, ?_⟩
  · intro hfv; subst hfv
    by_cases he : ldw be m v = expect
    · by_cases h0 : len = 0#(8 * n)
      · subst h0
        refine ⟨30, ?_, ?_, ?_⟩
        · simp [rrun, loongarch_cbneMemcpyStore, *, signExtend_inj hn, pseudo]
        · simp [rrun, loongarch_cbneMemcpyStore, *, signExtend_inj hn, pseudo, memcpy_zero]
        · intro x hx
          simp [rregs] at hx
          simp [rrun, loongarch_cbneMemcpyStore, *, signExtend_inj hn]
          try grind
      · have hpos : 0 < len.toNat := by
          have := mt (len_zero_iff len).2 h0; omega
        obtain ⟨k, hk⟩ := loop (loongarch_cbneMemcpyStore al be csa) fv
          (LoopI 9 15 (al .src) (al .dst) (al .len) [4] l.regs
            (upd (upd (upd l.slots 100 src) 101 dst) 102 len) m src dst src dst len) len.toNat
          (by
            rintro j ⟨⟨R, S, z, pc⟩, m1⟩ hj ⟨i1, i2, i3, i4, i5, i6, i7⟩
            simp only [hj, if_true] at i1 i2 i3 i4 i5 i6 i7
            subst i1 i6 i7
            have g1 := cpy_src m dst src len hno j hj
            refine ⟨6, ?_, ?_, ?_, ?_, ?_, ?_, ?_⟩
            · simp [rrun, loongarch_cbneMemcpyStore, *, signExtend_inj hn, step_up, step_up1, step_down, left_zero len j hj]
              grind
            · simp [rrun, loongarch_cbneMemcpyStore, *, signExtend_inj hn, step_up, step_up1, step_down]
            · simp [rrun, loongarch_cbneMemcpyStore, *, signExtend_inj hn, step_up, step_up1, step_down]
            · simp [rrun, loongarch_cbneMemcpyStore, *, signExtend_inj hn, step_up, step_up1, step_down]
            · intro x x1 x2 x3 x4
              have := i5 x x1 x2 x3 x4
              simp at x4
              simp [rrun, loongarch_cbneMemcpyStore, *, signExtend_inj hn]
            · simp [rrun, loongarch_cbneMemcpyStore]
            · simp [rrun, loongarch_cbneMemcpyStore, *, signExtend_inj hn, step_up, step_up1, step_down, byte_trip hn, cpy_succ m dst src len j hj])
          (l, m) (by
            refine ⟨9, ?_, ?_, ?_, ?_, ?_, ?_, ?_⟩
            · simp [rrun, loongarch_cbneMemcpyStore, *, signExtend_inj hn]
            · simp [rrun, loongarch_cbneMemcpyStore, *, signExtend_inj hn]
            · simp [rrun, loongarch_cbneMemcpyStore, *, signExtend_inj hn]
            · simp [rrun, loongarch_cbneMemcpyStore, *, signExtend_inj hn]
            · intro x x1 x2 x3 x4
              simp at x4
              simp [rrun, loongarch_cbneMemcpyStore, *, signExtend_inj hn]
            · simp [rrun, loongarch_cbneMemcpyStore, *, signExtend_inj hn]
            · simp [rrun, loongarch_cbneMemcpyStore, *, signExtend_inj hn, cpy_zero])
        refine ⟨k + 6, ?_⟩
        rw [run_add]
        generalize run (loongarch_cbneMemcpyStore al be csa) fv k (l, m) = s1 at hk
        obtain ⟨⟨R, S, z, pc⟩, m1⟩ := s1
        obtain ⟨i1, i2, i3, i4, i5, i6, i7⟩ := hk
        simp only [Nat.lt_irrefl, if_false] at i1 i2 i3 i4 i5 i6 i7
        subst i1 i6 i7
        have j1 : R (al .v) = v := (i5 (al .v) (by simp [*]) (by simp [*]) (by simp [*]) (by simp [*])).trans h_v
        have j2 : R (al .newv) = newv :=
          (i5 (al .newv) (by simp [*]) (by simp [*]) (by simp [*]) (by simp [*])).trans h_newv
        refine ⟨?_, ?_, ?_⟩
        · simp [rrun, loongarch_cbneMemcpyStore, *, signExtend_inj hn, pseudo]
        · simp [rrun, loongarch_cbneMemcpyStore, *, signExtend_inj hn, pseudo, cpy_len]
        · intro x hx
          simp [rregs] at hx
          have := i5 x
          simp at this
          simp [rrun, loongarch_cbneMemcpyStore, *, signExtend_inj hn]
          try grind
    · have he2 := Ne.symm he
      refine ⟨30, ?_, ?_, ?_⟩
      · simp [rrun, loongarch_cbneMemcpyStore, *, signExtend_inj hn, pseudo]
      · simp [rrun, loongarch_cbneMemcpyStore, *, signExtend_inj hn, pseudo]
      · intro x hx
        simp [rregs] at hx
        simp [rrun, loongarch_cbneMemcpyStore, *, signExtend_inj hn]
        try grind
  · intro hne
    have hne2 := Ne.symm hne
    refine ⟨30, ?_, ?_, ?_⟩
    · simp [rrun, loongarch_cbneMemcpyStore, *, signExtend_inj hn]
    · simp [rrun, loongarch_cbneMemcpyStore, *, signExtend_inj hn]
    · intro x hx
      simp [rregs] at hx
      simp [rrun, loongarch_cbneMemcpyStore, *, signExtend_inj hn]
      try grind

theorem loongarch_cbneMemcpyStore_rel_ok (hn : 4 ≤ n) (al : Opnd → Nat) (be : Bool)
    (csa v expect dst src len newv : W n) (hno : NoOverlap dst src len) (ho : OwnRegs al) :
    Implements (loongarch_cbneMemcpyStore_rel al be csa) [m4] true al
      (.cbneMemcpyStore v expect dst src len newv) := by
  intro cpu fv l m h
  have h_v := h.reg .v _ rfl
  have f_v := h.free .v _ rfl
  have h_expect := h.reg .expect _ rfl
  have f_expect := h.free .expect _ rfl
  have h_dst := h.reg .dst _ rfl
  have f_dst := h.free .dst _ rfl
  have h_src := h.reg .src _ rfl
  have f_src := h.free .src _ rfl
  have h_len := h.reg .len _ rfl
  have f_len := h.free .len _ rfl
  have h_newv := h.reg .newv _ rfl
  have f_newv := h.free .newv _ rfl
  have f0 := h.freeCpu
  have hp := h.pc
  have hc := h.cpuS rfl
  obtain ⟨o1, o2, o3, o4, o5, o6, o7, o8, o9⟩ := ho
  have q1 := Ne.symm o1
  have q2 := Ne.symm o2
  have q3 := Ne.symm o3
  have q4 := Ne.symm o4
  have q5 := Ne.symm o5
  have q6 := Ne.symm o6
  have q7 := Ne.symm o7
  have q8 := Ne.symm o8
  have q9 := Ne.symm o9
  simp [rregs] at f0 f_v f_expect f_dst f_src f_len f_newv
  refine ⟨?_, ?_⟩
  · intro hfv; subst hfv
    by_cases he : ldw be m v = expect
    · by_cases h0 : len = 0#(8 * n)
      · subst h0
        refine ⟨30, ?_, ?_, ?_⟩
        · simp [rrun, loongarch_cbneMemcpyStore_rel, *, signExtend_inj hn, pseudo]
        · simp [rrun, loongarch_cbneMemcpyStore_rel, *, signExtend_inj hn, pseudo, memcpy_zero]
        · intro x hx
          simp [rregs] at hx
          simp [rrun, loongarch_cbneMemcpyStore_rel, *, signExtend_inj hn]
          try grind
      · have hpos : 0 < len.toNat := by
          have := mt (len_zero_iff len).2 h0; omega
        obtain ⟨k, hk⟩ := loop (loongarch_cbneMemcpyStore_rel al be csa) fv
          (LoopI 9 15 (al .src) (al .dst) (al .len) [4] l.regs
            (upd (upd (upd l.slots 100 src) 101 dst) 102 len) m src dst src dst len) len.toNat
          (by
            rintro j ⟨⟨R, S, z, pc⟩, m1⟩ hj ⟨i1, i2, i3, i4, i5, i6, i7⟩
            simp only [hj, if_true] at i1 i2 i3 i4 i5 i6 i7
            subst i1 i6 i7
            have g1 := cpy_src m dst src len hno j hj
            refine ⟨6, ?_, ?_, ?_, ?_, ?_, ?_, ?_⟩
            · simp [rrun, loongarch_cbneMemcpyStore_rel, *, signExtend_inj hn, step_up, step_up1, step_down, left_zero len j hj]
              grind
            · simp [rrun, loongarch_cbneMemcpyStore_rel, *, signExtend_inj hn, step_up, step_up1, step_down]
            · simp [rrun, loongarch_cbneMemcpyStore_rel, *, signExtend_inj hn, step_up, step_up1, step_down]
            · simp [rrun, loongarch_cbneMemcpyStore_rel, *, signExtend_inj hn, step_up, step_up1, step_down]
            · intro x x1 x2 x3 x4
              have := i5 x x1 x2 x3 x4
              simp at x4
              simp [rrun, loongarch_cbneMemcpyStore_rel, *, signExtend_inj hn]
            · simp [rrun, loongarch_cbneMemcpyStore_rel]
            · simp [rrun, loongarch_cbneMemcpyStore_rel, *, signExtend_inj hn, step_up, step_up1, step_down, byte_trip hn, cpy_succ m dst src len j hj])
          (l, m) (by
            refine ⟨9, ?_, ?_, ?_, ?_, ?_, ?_, ?_⟩
            · simp [rrun, loongarch_cbneMemcpyStore_rel, *, signExtend_inj hn]
            · simp [rrun, loongarch_cbneMemcpyStore_rel, *, signExtend_inj hn]
            · simp [rrun, loongarch_cbneMemcpyStore_rel, *, signExtend_inj hn]
            · simp [rrun, loongarch_cbneMemcpyStore_rel, *, signExtend_inj hn]
            · intro x x1 x2 x3 x4
              simp at x4
              simp [rrun, loongarch_cbneMemcpyStore_rel, *, signExtend_inj hn]
            · simp [rrun, loongarch_cbneMemcpyStore_rel, *, signExtend_inj hn]
            · simp [rrun, loongarch_cbneMemcpyStore_rel, *, signExtend_inj hn, cpy_zero])
        refine ⟨k + 6, ?_⟩
        rw [run_add]
        generalize run (loongarch_cbneMemcpyStore_rel al be csa) fv k (l, m) = s1 at hk
        obtain ⟨⟨R, S, z, pc⟩, m1⟩ := s1
        obtain ⟨i1, i2, i3, i4, i5, i6, i7⟩ := hk
        simp only [Nat.lt_irrefl, if_false] at i1 i2 i3 i4 i5 i6 i7
        subst i1 i6 i7
        have j1 : R (al .v) = v := (i5 (al .v) (by simp [*]) (by simp [*]) (by simp [*]) (by simp [*])).trans h_v
        have j2 : R (al .newv) = newv :=
          (i5 (al .newv) (by simp [*]) (by simp [*]) (by simp [*]) (by simp [*])).trans h_newv
        refine ⟨?_, ?_, ?_⟩
        · simp [rrun, loongarch_cbneMemcpyStore_rel, *, signExtend_inj hn, pseudo]
        · simp [rrun, loongarch_cbneMemcpyStore_rel, *, signExtend_inj hn, pseudo, cpy_len]
        · intro x hx
          simp [rregs] at hx
          have := i5 x
          simp at this
          simp [rrun, loongarch_cbneMemcpyStore_rel, *, signExtend_inj hn]
          try grind
    · have he2 := Ne.symm he
      refine ⟨30, ?_, ?_, ?_⟩
      · simp [rrun, loongarch_cbneMemcpyStore_rel, *, signExtend_inj hn, pseudo]
      · simp [rrun, loongarch_cbneMemcpyStore_rel, *, signExtend_inj hn, pseudo]
      · intro x hx
        simp [rregs] at hx
        simp [rrun, loongarch_cbneMemcpyStore_rel, *, signExtend_inj hn]
        try grind
  · intro hne
    have hne2 := Ne.symm hne
    refine ⟨30, ?_, ?_, ?_⟩
    · simp [rrun, loongarch_cbneMemcpyStore_rel, *, signExtend_inj hn]
    · simp [rrun, loongarch_cbneMemcpyStore_rel, *, signExtend_inj hn]
    · intro x hx
      simp [rregs] at hx
      simp [rrun, loongarch_cbneMemcpyStore_rel, *, signExtend_inj hn]
      try grind

theorem arm_cbneMemcpyStore_ok (hn : 4 ≤ n) (al : Opnd → Nat) (be : Bool)
    (csa v expect dst src len newv : W n) (hno : NoOverlap dst src len) :
    Implements (arm_cbneMemcpyStore al be csa) [a0, a5, a6, a7] false al
      (.cbneMemcpyStore v expect dst src len newv) := by
  intro cpu fv l m h
  have h_v := h.reg .v _ rfl
  have f_v := h.free .v _ rfl
  have h_expect := h.reg .expect _ rfl
  have f_expect := h.free .expect _ rfl
  have s_expect := h.slot .expect _ rfl (by decide)
  simp only [slotOf] at s_expect
  have h_dst := h.reg .dst _ rfl
  have f_dst := h.free .dst _ rfl
  have s_dst := h.slot .dst _ rfl (by decide)
  simp only [slotOf] at s_dst
  have h_src := h.reg .src _ rfl
  have f_src := h.free .src _ rfl
  have s_src := h.slot .src _ rfl (by decide)
  simp only [slotOf] at s_src
  have h_len := h.reg .len _ rfl
  have f_len := h.free .len _ rfl
  have s_len := h.slot .len _ rfl (by decide)
  simp only [slotOf] at s_len
  have h_newv := h.reg .newv _ rfl
  have f_newv := h.free .newv _ rfl
  have s_newv := h.slot .newv _ rfl (by decide)
  simp only [slotOf] at s_newv
  have f0 := h.freeCpu
  have hp := h.pc
  have hc := h.cpuV
  simp [rregs] at f0 f_v f_expect f_dst f_src f_len f_newv
  refine ⟨?_, ?_⟩
  · intro hfv; subst hfv
    by_cases he : ldw be m v = expect
    · by_cases h0 : len = 0#(8 * n)
      · subst h0
        refine ⟨30, ?_, ?_, ?_⟩
        · simp [rrun, arm_cbneMemcpyStore, *, slotOf, setWidth32_setWidth hn, pseudo]
        · simp [rrun, arm_cbneMemcpyStore, *, slotOf, setWidth32_setWidth hn, pseudo, memcpy_zero]
        · intro x hx
          simp [rregs] at hx
          simp [rrun, arm_cbneMemcpyStore, *, slotOf, setWidth32_setWidth hn]
          try grind
      · have hpos : 0 < len.toNat := by
          have := mt (len_zero_iff len).2 h0; omega
        obtain ⟨k, hk⟩ := loop (arm_cbneMemcpyStore al be csa) fv
          (LoopI 13 19 6 5 7 [0, 5, 6, 7] l.regs
            l.slots m src dst src dst len) len.toNat
          (by
            rintro j ⟨⟨R, S, z, pc⟩, m1⟩ hj ⟨i1, i2, i3, i4, i5, i6, i7⟩
            simp only [hj, if_true] at i1 i2 i3 i4 i5 i6 i7
            subst i1 i6 i7
            have g1 := cpy_src m dst src len hno j hj
            refine ⟨6, ?_, ?_, ?_, ?_, ?_, ?_, ?_⟩
            · simp [rrun, arm_cbneMemcpyStore, *, slotOf, setWidth32_setWidth hn, step_up, step_up1, step_down, left_zero len j hj]
              grind
            · simp [rrun, arm_cbneMemcpyStore, *, slotOf, setWidth32_setWidth hn, step_up, step_up1, step_down]
            · simp [rrun, arm_cbneMemcpyStore, *, slotOf, setWidth32_setWidth hn, step_up, step_up1, step_down]
            · simp [rrun, arm_cbneMemcpyStore, *, slotOf, setWidth32_setWidth hn, step_up, step_up1, step_down]
            · intro x x1 x2 x3 x4
              have := i5 x x1 x2 x3 x4
              simp at x4
              simp [rrun, arm_cbneMemcpyStore, *, slotOf, setWidth32_setWidth hn]
            · simp [rrun, arm_cbneMemcpyStore]
            · simp [rrun, arm_cbneMemcpyStore, *, slotOf, setWidth32_setWidth hn, step_up, step_up1, step_down, byte_trip hn, cpy_succ m dst src len j hj])
          (l, m) (by
            refine ⟨13, ?_, ?_, ?_, ?_, ?_, ?_, ?_⟩
            · simp [rrun, arm_cbneMemcpyStore, *, slotOf, setWidth32_setWidth hn]
            · simp [rrun, arm_cbneMemcpyStore, *, slotOf, setWidth32_setWidth hn]
            · simp [rrun, arm_cbneMemcpyStore, *, slotOf, setWidth32_setWidth hn]
            · simp [rrun, arm_cbneMemcpyStore, *, slotOf, setWidth32_setWidth hn]
            · intro x x1 x2 x3 x4
              simp at x4
              simp [rrun, arm_cbneMemcpyStore, *, slotOf, setWidth32_setWidth hn]
            · simp [rrun, arm_cbneMemcpyStore, *, slotOf, setWidth32_setWidth hn]
            · simp [rrun, arm_cbneMemcpyStore, *, slotOf, setWidth32_setWidth hn, cpy_zero])
        refine ⟨k + 6, ?_⟩
        rw [run_add]
        generalize run (arm_cbneMemcpyStore al be csa) fv k (l, m) = s1 at hk
        obtain ⟨⟨R, S, z, pc⟩, m1⟩ := s1
        obtain ⟨i1, i2, i3, i4, i5, i6, i7⟩ := hk
        simp only [Nat.lt_irrefl, if_false] at i1 i2 i3 i4 i5 i6 i7
        subst i1 i6 i7
        have j1 : R (al .v) = v := (i5 (al .v) (by simp [*]) (by simp [*]) (by simp [*]) (by simp [*])).trans h_v
        have j2 : R (al .newv) = newv :=
          (i5 (al .newv) (by simp [*]) (by simp [*]) (by simp [*]) (by simp [*])).trans h_newv
        refine ⟨?_, ?_, ?_⟩
        · simp [rrun, arm_cbneMemcpyStore, *, slotOf, setWidth32_setWidth hn, pseudo]
        · simp [rrun, arm_cbneMemcpyStore, *, slotOf, setWidth32_setWidth hn, pseudo, cpy_len]
        · intro x hx
          simp [rregs] at hx
          have := i5 x
          simp at this
          simp [rrun, arm_cbneMemcpyStore, *, slotOf, setWidth32_setWidth hn]
          try grind
    · have he2 := Ne.symm he
      refine ⟨30, ?_, ?_, ?_⟩
      · simp [rrun, arm_cbneMemcpyStore, *, slotOf, setWidth32_setWidth hn, pseudo]
      · simp [rrun, arm_cbneMemcpyStore, *, slotOf, setWidth32_setWidth hn, pseudo]
      · intro x hx
        simp [rregs] at hx
        simp [rrun, arm_cbneMemcpyStore, *, slotOf, setWidth32_setWidth hn]
        try grind
  · intro hne
    have hne2 := Ne.symm hne
    refine ⟨30, ?_, ?_, ?_⟩
    · simp [rrun, arm_cbneMemcpyStore, *, slotOf, setWidth32_setWidth hn]
    · simp [rrun, arm_cbneMemcpyStore, *, slotOf, setWidth32_setWidth hn]
    · intro x hx
      simp [rregs] at hx
      simp [rrun, arm_cbneMemcpyStore, *, slotOf, setWidth32_setWidth hn]
      try grind

theorem arm_cbneMemcpyStore_rel_ok (hn : 4 ≤ n) (al : Opnd → Nat) (be : Bool)
    (csa v expect dst src len newv : W n) (hno : NoOverlap dst src len) :
    Implements (arm_cbneMemcpyStore_rel al be csa) [a0, a5, a6, a7] false al
      (.cbneMemcpyStore v expect dst src len newv) := by
  intro cpu fv l m h
  have h_v := h.reg .v _ rfl
  have f_v := h.free .v _ rfl
  have h_expect := h.reg .expect _ rfl
  have f_expect := h.free .expect _ rfl
  have s_expect := h.slot .expect _ rfl (by decide)
  simp only [slotOf] at s_expect
  have h_dst := h.reg .dst _ rfl
  have f_dst := h.free .dst _ rfl
  have s_dst := h.slot .dst _ rfl (by decide)
  simp only [slotOf] at s_dst
  have h_src := h.reg .src _ rfl
  have f_src := h.free .src _ rfl
  have s_src := h.slot .src _ rfl (by decide)
  simp only [slotOf] at s_src
  have h_len := h.reg .len _ rfl
  have f_len := h.free .len _ rfl
  have s_len := h.slot .len _ rfl (by decide)
  simp only [slotOf] at s_len
  have h_newv := h.reg .newv _ rfl
  have f_newv := h.free .newv _ rfl
  have s_newv := h.slot .newv _ rfl (by decide)
  simp only [slotOf] at s_newv
  have f0 := h.freeCpu
  have hp := h.pc
  have hc := h.cpuV
  simp [rregs] at f0 f_v f_expect f_dst f_src f_len f_newv
  refine ⟨?_, ?_⟩
  · intro hfv; subst hfv
    by_cases he : ldw be m v = expect
    · by_cases h0 : len = 0#(8 * n)
      · subst h0
        refine ⟨30, ?_, ?_, ?_⟩
        · simp [rrun, arm_cbneMemcpyStore_rel, *, slotOf, setWidth32_setWidth hn, pseudo]
        · simp [rrun, arm_cbneMemcpyStore_rel, *, slotOf, setWidth32_setWidth hn, pseudo, memcpy_zero]
        · intro x hx
          simp [rregs] at hx
          simp [rrun, arm_cbneMemcpyStore_rel, *, slotOf, setWidth32_setWidth hn]
          try grind
      · have hpos : 0 < len.toNat := by
          have := mt (len_zero_iff len).2 h0; omega
        obtain ⟨k, hk⟩ := loop (arm_cbneMemcpyStore_rel al be csa) fv
          (LoopI 13 19 6 5 7 [0, 5, 6, 7] l.regs
            l.slots m src dst src dst len) len.toNat
          (by
            rintro j ⟨⟨R, S, z, pc⟩, m1⟩ hj ⟨i1, i2, i3, i4, i5, i6, i7⟩
            simp only [hj, if_true] at i1 i2 i3 i4 i5 i6 i7
            subst i1 i6 i7
            have g1 := cpy_src m dst src len hno j hj
            refine ⟨6, ?_, ?_, ?_, ?_, ?_, ?_, ?_⟩
            · simp [rrun, arm_cbneMemcpyStore_rel, *, slotOf, setWidth32_setWidth hn, step_up, step_up1, step_down, left_zero len j hj]
              grind
            · simp [rrun, arm_cbneMemcpyStore_rel, *, slotOf, setWidth32_setWidth hn, step_up, step_up1, step_down]
            · simp [rrun, arm_cbneMemcpyStore_rel, *, slotOf, setWidth32_setWidth hn, step_up, step_up1, step_down]
            · simp [rrun, arm_cbneMemcpyStore_rel, *, slotOf, setWidth32_setWidth hn, step_up, step_up1, step_down]
            · intro x x1 x2 x3 x4
              have := i5 x x1 x2 x3 x4
              simp at x4
              simp [rrun, arm_cbneMemcpyStore_rel, *, slotOf, setWidth32_setWidth hn]
            · simp [rrun, arm_cbneMemcpyStore_rel]
            · simp [rrun, arm_cbneMemcpyStore_rel, *, slotOf, setWidth32_setWidth hn, step_up, step_up1, step_down, byte_trip hn, cpy_succ m dst src len j hj])
          (l, m) (by
            refine ⟨13, ?_, ?_, ?_, ?_, ?_, ?_, ?_⟩
            · simp [rrun, arm_cbneMemcpyStore_rel, *, slotOf, setWidth32_setWidth hn]
            · simp [rrun, arm_cbneMemcpyStore_rel, *, slotOf, setWidth32_setWidth hn]
            · simp [rrun, arm_cbneMemcpyStore_rel, *, slotOf, setWidth32_setWidth hn]
            · simp [rrun, arm_cbneMemcpyStore_rel, *, slotOf, setWidth32_setWidth hn]
            · intro x x1 x2 x3 x4
              simp at x4
              simp [rrun, arm_cbneMemcpyStore_rel, *, slotOf, setWidth32_setWidth hn]
            · simp [rrun, arm_cbneMemcpyStore_rel, *, slotOf, setWidth32_setWidth hn]
            · simp [rrun, arm_cbneMemcpyStore_rel, *, slotOf, setWidth32_setWidth hn, cpy_zero])
        refine ⟨k + 6, ?_⟩
        rw [run_add]
        generalize run (arm_cbneMemcpyStore_rel al be csa) fv k (l, m) = s1 at hk
        obtain ⟨⟨R, S, z, pc⟩, m1⟩ := s1
        obtain ⟨i1, i2, i3, i4, i5, i6, i7⟩ := hk
        simp only [Nat.lt_irrefl, if_false] at i1 i2 i3 i4 i5 i6 i7
        subst i1 i6 i7
        have j1 : R (al .v) = v := (i5 (al .v) (by simp [*]) (by simp [*]) (by simp [*]) (by simp [*])).trans h_v
        have j2 : R (al .newv) = newv :=
          (i5 (al .newv) (by simp [*]) (by simp [*]) (by simp [*]) (by simp [*])).trans h_newv
        refine ⟨?_, ?_, ?_⟩
        · simp [rrun, arm_cbneMemcpyStore_rel, *, slotOf, setWidth32_setWidth hn, pseudo]
        · simp [rrun, arm_cbneMemcpyStore_rel, *, slotOf, setWidth32_setWidth hn, pseudo, cpy_len]
        · intro x hx
          simp [rregs] at hx
          have := i5 x
          simp at this
          simp [rrun, arm_cbneMemcpyStore_rel, *, slotOf, setWidth32_setWidth hn]
          try grind
    · have he2 := Ne.symm he
      refine ⟨30, ?_, ?_, ?_⟩
      · simp [rrun, arm_cbneMemcpyStore_rel, *, slotOf, setWidth32_setWidth hn, pseudo]
      · simp [rrun, arm_cbneMemcpyStore_rel, *, slotOf, setWidth32_setWidth hn, pseudo]
      · intro x hx
        simp [rregs] at hx
        simp [rrun, arm_cbneMemcpyStore_rel, *, slotOf, setWidth32_setWidth hn]
        try grind
  · intro hne
    have hne2 := Ne.symm hne
    refine ⟨30, ?_, ?_, ?_⟩
    · simp [rrun, arm_cbneMemcpyStore_rel, *, slotOf, setWidth32_setWidth hn]
    · simp [rrun, arm_cbneMemcpyStore_rel, *, slotOf, setWidth32_setWidth hn]
    · intro x hx
      simp [rregs] at hx
      simp [rrun, arm_cbneMemcpyStore_rel, *, slotOf, setWidth32_setWidth hn]
      try grind

theorem aarch64_cbneMemcpyStore_ok (hn : 4 ≤ n) (al : Opnd → Nat) (be : Bool)
    (csa v expect dst src len newv : W n) (hno : NoOverlap dst src len) :
    Implements (aarch64_cbneMemcpyStore al be csa) [x15, x14] false al
      (.cbneMemcpyStore v expect dst src len newv) := by
  intro cpu fv l m h
  have h_v := h.reg .v _ rfl
  have f_v := h.free .v _ rfl
  have h_expect := h.reg .expect _ rfl
  have f_expect := h.free .expect _ rfl
  have h_dst := h.reg .dst _ rfl
  have f_dst := h.free .dst _ rfl
  have h_src := h.reg .src _ rfl
  have f_src := h.free .src _ rfl
  have h_len := h.reg .len _ rfl
  have f_len := h.free .len _ rfl
  have h_newv := h.reg .newv _ rfl
  have f_newv := h.free .newv _ rfl
  have f0 := h.freeCpu
  have hp := h.pc
  have hc := h.cpuV
  simp [rregs] at f0 f_v f_expect f_dst f_src f_len f_newv
  refine ⟨?_, ?_⟩
  · intro hfv; subst hfv
    by_cases he : ldw be m v = expect
    · by_cases h0 : len = 0#(8 * n)
      · subst h0
        refine ⟨30, ?_, ?_, ?_⟩
        · simp [rrun, aarch64_cbneMemcpyStore, *, setWidth32_setWidth hn, sub_eq_zero_iff, pseudo]
        · simp [rrun, aarch64_cbneMemcpyStore, *, setWidth32_setWidth hn, sub_eq_zero_iff, pseudo, memcpy_zero]
        · intro x hx
          simp [rregs] at hx
          simp [rrun, aarch64_cbneMemcpyStore, *, setWidth32_setWidth hn, sub_eq_zero_iff]
      · have hpos : 0 < len.toNat := by
          have := mt (len_zero_iff len).2 h0; omega
        obtain ⟨k, hk⟩ := loop (aarch64_cbneMemcpyStore al be csa) fv
          (LoopB 9 13 l.regs l.slots m src dst len) len.toNat
          (by
            rintro j ⟨⟨R, S, z, pc⟩, m1⟩ hj ⟨i1, i2, i5, i6, i7⟩
            simp only [hj, if_true] at i1 i2 i5 i6 i7
            subst i1 i6 i7
            obtain ⟨q, hq⟩ : ∃ q, len.toNat - j = q + 1 := ⟨len.toNat - j - 1, by omega⟩
            have hq2 : len.toNat - (j + 1) = q := by omega
            have hq3 : q < len.toNat := by omega
            have g1 := cpyB_src m dst src len hno q hq3
            have g2 := ofNat_zero_iff len q hq3
            have g3 := i5 (al .src) (by simp [*]) (by simp [*])
            have g4 := i5 (al .dst) (by simp [*]) (by simp [*])
            rw [hq] at i2
            rw [hq]
            refine ⟨4, ?_, ?_, ?_, ?_, ?_⟩
            · by_cases hz : q = 0
              · have : ¬ (j + 1 < len.toNat) := by omega
                subst hz
                simp [rrun, aarch64_cbneMemcpyStore, *, setWidth32_setWidth hn, sub_eq_zero_iff, ofNat_pred, g2]
              · have : j + 1 < len.toNat := by omega
                simp [rrun, aarch64_cbneMemcpyStore, *, setWidth32_setWidth hn, sub_eq_zero_iff, ofNat_pred, g2, hz]
            · simp [rrun, aarch64_cbneMemcpyStore, *, setWidth32_setWidth hn, sub_eq_zero_iff, ofNat_pred]
            · intro x x1 x2
              have := i5 x x1 x2
              simp [rrun, aarch64_cbneMemcpyStore, *, setWidth32_setWidth hn, sub_eq_zero_iff]
            · simp [rrun, aarch64_cbneMemcpyStore]
            · simp [rrun, aarch64_cbneMemcpyStore, *, setWidth32_setWidth hn, sub_eq_zero_iff, ofNat_pred, byte_trip hn, cpyB_succ m dst src len q hq3])
          (l, m) (by
            refine ⟨9, ?_, ?_, ?_, ?_, ?_⟩
            · simp [rrun, aarch64_cbneMemcpyStore, *, setWidth32_setWidth hn, sub_eq_zero_iff]
            · simp [rrun, aarch64_cbneMemcpyStore, *, setWidth32_setWidth hn, sub_eq_zero_iff]
            · intro x x1 x2
              simp [rrun, aarch64_cbneMemcpyStore, *, setWidth32_setWidth hn, sub_eq_zero_iff]
            · simp [rrun, aarch64_cbneMemcpyStore, *, setWidth32_setWidth hn, sub_eq_zero_iff]
            · simp [rrun, aarch64_cbneMemcpyStore, *, setWidth32_setWidth hn, sub_eq_zero_iff, cpyB_len])
        refine ⟨k + 6, ?_⟩
        rw [run_add]
        generalize run (aarch64_cbneMemcpyStore al be csa) fv k (l, m) = s1 at hk
        obtain ⟨⟨R, S, z, pc⟩, m1⟩ := s1
        obtain ⟨i1, i2, i5, i6, i7⟩ := hk
        simp only [Nat.lt_irrefl, if_false, Nat.sub_self] at i1 i2 i5 i6 i7
        subst i1 i6 i7
        have j1 : R (al .v) = v := (i5 (al .v) (by simp [*]) (by simp [*])).trans h_v
        have j2 : R (al .newv) = newv := (i5 (al .newv) (by simp [*]) (by simp [*])).trans h_newv
        refine ⟨?_, ?_, ?_⟩
        · simp [rrun, aarch64_cbneMemcpyStore, *, setWidth32_setWidth hn, sub_eq_zero_iff, pseudo]
        · simp [rrun, aarch64_cbneMemcpyStore, *, setWidth32_setWidth hn, sub_eq_zero_iff, pseudo, cpyB_zero]
        · intro x hx
          simp [rregs] at hx
          have := i5 x hx.2 hx.1
          simp [rrun, aarch64_cbneMemcpyStore, *, setWidth32_setWidth hn, sub_eq_zero_iff]
    · have he2 := Ne.symm he
      refine ⟨30, ?_, ?_, ?_⟩
      · simp [rrun, aarch64_cbneMemcpyStore, *, setWidth32_setWidth hn, sub_eq_zero_iff, pseudo]
      · simp [rrun, aarch64_cbneMemcpyStore, *, setWidth32_setWidth hn, sub_eq_zero_iff, pseudo]
      · intro x hx
        simp [rregs] at hx
        simp [rrun, aarch64_cbneMemcpyStore, *, setWidth32_setWidth hn, sub_eq_zero_iff]
  · intro hne
    have hne2 := Ne.symm hne
    refine ⟨30, ?_, ?_, ?_⟩
    · simp [rrun, aarch64_cbneMemcpyStore, *, setWidth32_setWidth hn, sub_eq_zero_iff]
    · simp [rrun, aarch64_cbneMemcpyStore, *, setWidth32_setWidth hn, sub_eq_zero_iff]
    · intro x hx
      simp [rregs] at hx
      simp [rrun, aarch64_cbneMemcpyStore, *, setWidth32_setWidth hn, sub_eq_zero_iff]

theorem aarch64_cbneMemcpyStore_rel_ok (hn : 4 ≤ n) (al : Opnd → Nat) (be : Bool)
    (csa v expect dst src len newv : W n) (hno : NoOverlap dst src len) :
    Implements (aarch64_cbneMemcpyStore_rel al be csa) [x15, x14] false al
      (.cbneMemcpyStore v expect dst src len newv) := by
  intro cpu fv l m h
  have h_v := h.reg .v _ rfl
  have f_v := h.free .v _ rfl
  have h_expect := h.reg .expect _ rfl
  have f_expect := h.free .expect _ rfl
  have h_dst := h.reg .dst _ rfl
  have f_dst := h.free .dst _ rfl
  have h_src := h.reg .src _ rfl
  have f_src := h.free .src _ rfl
  have h_len := h.reg .len _ rfl
  have f_len := h.free .len _ rfl
  have h_newv := h.reg .newv _ rfl
  have f_newv := h.free .newv _ rfl
  have f0 := h.freeCpu
  have hp := h.pc
  have hc := h.cpuV
  simp [rregs] at f0 f_v f_expect f_dst f_src f_len f_newv
  refine ⟨?_, ?_⟩
  · intro hfv; subst hfv
    by_cases he : ldw be m v = expect
    · by_cases h0 : len = 0#(8 * n)
      · subst h0
        refine ⟨30, ?_, ?_, ?_⟩
        · simp [rrun, aarch64_cbneMemcpyStore_rel, *, setWidth32_setWidth hn, sub_eq_zero_iff, pseudo]
        · simp [rrun, aarch64_cbneMemcpyStore_rel, *, setWidth32_setWidth hn, sub_eq_zero_iff, pseudo, memcpy_zero]
        · intro x hx
          simp [rregs] at hx
          simp [rrun, aarch64_cbneMemcpyStore_rel, *, setWidth32_setWidth hn, sub_eq_zero_iff]
      · have hpos : 0 < len.toNat := by
          have := mt (len_zero_iff len).2 h0; omega
        obtain ⟨k, hk⟩ := loop (aarch64_cbneMemcpyStore_rel al be csa) fv
          (LoopB 9 13 l.regs l.slots m src dst len) len.toNat
          (by
            rintro j ⟨⟨R, S, z, pc⟩, m1⟩ hj ⟨i1, i2, i5, i6, i7⟩
            simp only [hj, if_true] at i1 i2 i5 i6 i7
            subst i1 i6 i7
            obtain ⟨q, hq⟩ : ∃ q, len.toNat - j = q + 1 := ⟨len.toNat - j - 1, by omega⟩
            have hq2 : len.toNat - (j + 1) = q := by omega
            have hq3 : q < len.toNat := by omega
            have g1 := cpyB_src m dst src len hno q hq3
            have g2 := ofNat_zero_iff len q hq3
            have g3 := i5 (al .src) (by simp [*]) (by simp [*])
            have g4 := i5 (al .dst) (by simp [*]) (by simp [*])
            rw [hq] at i2
            rw [hq]
            refine ⟨4, ?_, ?_, ?_, ?_, ?_⟩
            · by_cases hz : q = 0
              · have : ¬ (j + 1 < len.toNat) := by omega
                subst hz
                simp [rrun, aarch64_cbneMemcpyStore_rel, *, setWidth32_setWidth hn, sub_eq_zero_iff, ofNat_pred, g2]
              · have : j + 1 < len.toNat := by omega
                simp [rrun, aarch64_cbneMemcpyStore_rel, *, setWidth32_setWidth hn, sub_eq_zero_iff, ofNat_pred, g2, hz]
            · simp [rrun, aarch64_cbneMemcpyStore_rel, *, setWidth32_setWidth hn, sub_eq_zero_iff, ofNat_pred]
            · intro x x1 x2
              have := i5 x x1 x2
              simp [rrun, aarch64_cbneMemcpyStore_rel, *, setWidth32_setWidth hn, sub_eq_zero_iff]
            · simp [rrun, aarch64_cbneMemcpyStore_rel]
            · simp [rrun, aarch64_cbneMemcpyStore_rel, *, setWidth32_setWidth hn, sub_eq_zero_iff, ofNat_pred, byte_trip hn, cpyB_succ m dst src len q hq3])
          (l, m) (by
            refine ⟨9, ?_, ?_, ?_, ?_, ?_⟩
            · simp [rrun, aarch64_cbneMemcpyStore_rel, *, setWidth32_setWidth hn, sub_eq_zero_iff]
            · simp [rrun, aarch64_cbneMemcpyStore_rel, *, setWidth32_setWidth hn, sub_eq_zero_iff]
            · intro x x1 x2
              simp [rrun, aarch64_cbneMemcpyStore_rel, *, setWidth32_setWidth hn, sub_eq_zero_iff]
            · simp [rrun, aarch64_cbneMemcpyStore_rel, *, setWidth32_setWidth hn, sub_eq_zero_iff]
            · simp [rrun, aarch64_cbneMemcpyStore_rel, *, setWidth32_setWidth hn, sub_eq_zero_iff, cpyB_len])
        refine ⟨k + 6, ?_⟩
        rw [run_add]
        generalize run (aarch64_cbneMemcpyStore_rel al be csa) fv k (l, m) = s1 at hk
        obtain ⟨⟨R, S, z, pc⟩, m1⟩ := s1
        obtain ⟨i1, i2, i5, i6, i7⟩ := hk
        simp only [Nat.lt_irrefl, if_false, Nat.sub_self] at i1 i2 i5 i6 i7
        subst i1 i6 i7
        have j1 : R (al .v) = v := (i5 (al .v) (by simp [*]) (by simp [*])).trans h_v
        have j2 : R (al .newv) = newv := (i5 (al .newv) (by simp [*]) (by simp [*])).trans h_newv
        refine ⟨?_, ?_, ?_⟩
        · simp [rrun, aarch64_cbneMemcpyStore_rel, *, setWidth32_setWidth hn, sub_eq_zero_iff, pseudo]
        · simp [rrun, aarch64_cbneMemcpyStore_rel, *, setWidth32_setWidth hn, sub_eq_zero_iff, pseudo, cpyB_zero]
        · intro x hx
          simp [rregs] at hx
          have := i5 x hx.2 hx.1
          simp [rrun, aarch64_cbneMemcpyStore_rel, *, setWidth32_setWidth hn, sub_eq_zero_iff]
    · have he2 := Ne.symm he
      refine ⟨30, ?_, ?_, ?_⟩
      · simp [rrun, aarch64_cbneMemcpyStore_rel, *, setWidth32_setWidth hn, sub_eq_zero_iff, pseudo]
      · simp [rrun, aarch64_cbneMemcpyStore_rel, *, setWidth32_setWidth hn, sub_eq_zero_iff, pseudo]
      · intro x hx
        simp [rregs] at hx
        simp [rrun, aarch64_cbneMemcpyStore_rel, *, setWidth32_setWidth hn, sub_eq_zero_iff]
  · intro hne
    have hne2 := Ne.symm hne
    refine ⟨30, ?_, ?_, ?_⟩
    · simp [rrun, aarch64_cbneMemcpyStore_rel, *, setWidth32_setWidth hn, sub_eq_zero_iff]
    · simp [rrun, aarch64_cbneMemcpyStore_rel, *, setWidth32_setWidth hn, sub_eq_zero_iff]
    · intro x hx
      simp [rregs] at hx
      simp [rrun, aarch64_cbneMemcpyStore_rel, *, setWidth32_setWidth hn, sub_eq_zero_iff]

end Verif.Rseq

