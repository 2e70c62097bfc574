import Verif.RseqFoot
/-
Addresses touched by the memory-copy helper programs (one lemma per program).
-/

set_option linter.unusedVariables false
set_option linter.unusedSimpArgs false

namespace Verif.Rseq

variable {n : Nat}

theorem x86_64_cbneMemcpyStore_foot (hn : 4 ≤ n) (al : Opnd → Nat) (be : Bool)
    (csa v expect dst src len newv : W n) (ht : ∀ x, InRange dst len x → ¬ InWord v x)
    (hno : NoOverlap dst src len) (ho : OwnRegs al) :
    FootOK (x86_64_cbneMemcpyStore al be csa) [rax] false al
      (.cbneMemcpyStore v expect dst src len newv) := by
  intro cpu fv l m h
  have h_v := h.reg .v _ rfl
  have f_v := h.free .v _ rfl
  have h_expect := h.reg .expect _ rfl
  have f_expect := h.free .expect _ rfl
  have h_dst := h.reg .dst _ rfl
  have f_dst := h.free .dst _ rfl
  have h_src := h.reg .src _ rfl
  have f_src := h.free .src _ rfl
  have h_len := h.reg .len _ rfl
  have f_len := h.free .len _ rfl
  have h_newv := h.reg .newv _ rfl
  have f_newv := h.free .newv _ rfl
  have f0 := h.freeCpu
  have hp := h.pc
  have hc := h.cpuV
  obtain ⟨o1, o2, o3, o4, o5, o6, o7, o8, o9⟩ := ho
  have q1 := Ne.symm o1
  have q2 := Ne.symm o2
  have q3 := Ne.symm o3
  have q4 := Ne.symm o4
  have q5 := Ne.symm o5
  have q6 := Ne.symm o6
  have q7 := Ne.symm o7
  have q8 := Ne.symm o8
  have q9 := Ne.symm o9
  simp [rregs] at f0 f_v f_expect f_dst f_src f_len f_newv
  by_cases hfv : fv = cpu
  · subst hfv
    by_cases he : ldw be m v = expect
    · by_cases h0 : len = 0#(8 * n)
      · exact OKs.all (k := 20) (by simp [rrun, x86_64_cbneMemcpyStore, h_v, h_expect, h_dst, h_src, h_len, h_newv, f_v, f_expect, f_dst, f_src, f_len, f_newv, f0, hp, hc, o1, q1, o2, q2, o3, q3, o4, q4, o5, q5, o6, q6, o7, q7, o8, q8, o9, q9, he, h0] <;> grind)
      · have hpos : 0 < len.toNat := by
          have := mt (len_zero_iff len).2 h0; omega
        obtain ⟨k, hk1, hk⟩ := loopF (x86_64_cbneMemcpyStore al be csa) fv
          (.cbneMemcpyStore v expect dst src len newv) m
          (LoopF 10 16 (al .src) (al .dst) (al .len) [0] l.regs
            (upd (upd (upd l.slots 100 src) 101 dst) 102 len) src dst v src dst len) len.toNat
          (by
            rintro j ⟨⟨R, S, z, pc⟩, F⟩ hj ⟨i1, i2, i3, i4, i5, i6, i7⟩
            simp only [hj, if_true] at i1 i2 i3 i4 i5 i6 i7
            subst i1 i6
            have g1 := inRange_add src len j hj
            have g2 := inRange_add dst len j hj
            have g3 := dst_not_src hno hj
            have g4 : ¬ F (dst + BitVec.ofNat (8 * n) j) := by
              intro hF
              rcases i7 _ hF with h | h | h
              · exact ht _ g2.1 h
              · exact g3.1 h
              · omega
            refine ⟨6, ?_, ?_, ?_, ?_, ?_, ?_, ?_, ?_⟩
            · simp [rrun, x86_64_cbneMemcpyStore, h_v, h_expect, h_dst, h_src, h_len, h_newv, f_v, f_expect, f_dst, f_src, f_len, f_newv, f0, hp, hc, o1, q1, o2, q2, o3, q3, o4, q4, o5, q5, o6, q6, o7, q7, o8, q8, o9, q9, i2, i3, i4, step_up, step_up1, step_down, g1.1, g2.1, g3.2, g4]
            · simp [rrun, x86_64_cbneMemcpyStore, h_v, h_expect, h_dst, h_src, h_len, h_newv, f_v, f_expect, f_dst, f_src, f_len, f_newv, f0, hp, hc, o1, q1, o2, q2, o3, q3, o4, q4, o5, q5, o6, q6, o7, q7, o8, q8, o9, q9, i2, i3, i4, step_up, step_up1, step_down, left_zero len j hj]
              grind
            · simp [rrun, x86_64_cbneMemcpyStore, h_v, h_expect, h_dst, h_src, h_len, h_newv, f_v, f_expect, f_dst, f_src, f_len, f_newv, f0, hp, hc, o1, q1, o2, q2, o3, q3, o4, q4, o5, q5, o6, q6, o7, q7, o8, q8, o9, q9, i2, i3, i4, step_up, step_up1, step_down]
            · simp [rrun, x86_64_cbneMemcpyStore, h_v, h_expect, h_dst, h_src, h_len, h_newv, f_v, f_expect, f_dst, f_src, f_len, f_newv, f0, hp, hc, o1, q1, o2, q2, o3, q3, o4, q4, o5, q5, o6, q6, o7, q7, o8, q8, o9, q9, i2, i3, i4, step_up, step_up1, step_down]
            · simp [rrun, x86_64_cbneMemcpyStore, h_v, h_expect, h_dst, h_src, h_len, h_newv, f_v, f_expect, f_dst, f_src, f_len, f_newv, f0, hp, hc, o1, q1, o2, q2, o3, q3, o4, q4, o5, q5, o6, q6, o7, q7, o8, q8, o9, q9, i2, i3, i4, step_up, step_up1, step_down]
            · intro x x1 x2 x3 x4
              have := i5 x x1 x2 x3 x4
              simp at x4
              simp [rrun, x86_64_cbneMemcpyStore, h_v, h_expect, h_dst, h_src, h_len, h_newv, f_v, f_expect, f_dst, f_src, f_len, f_newv, f0, hp, hc, o1, q1, o2, q2, o3, q3, o4, q4, o5, q5, o6, q6, o7, q7, o8, q8, o9, q9, x1, x2, x3, x4, this]
            · simp [rrun, x86_64_cbneMemcpyStore]
            · intro x hx
              simp [rrun, x86_64_cbneMemcpyStore, h_v, h_expect, h_dst, h_src, h_len, h_newv, f_v, f_expect, f_dst, f_src, f_len, f_newv, f0, hp, hc, o1, q1, o2, q2, o3, q3, o4, q4, o5, q5, o6, q6, o7, q7, o8, q8, o9, q9, i2, i3, i4, step_up, step_up1, step_down] at hx
              grind)
          (l, fun _ => False) (by
            refine ⟨10, ?_, ?_, ?_, ?_, ?_, ?_, ?_, ?_⟩
            · simp [rrun, x86_64_cbneMemcpyStore, h_v, h_expect, h_dst, h_src, h_len, h_newv, f_v, f_expect, f_dst, f_src, f_len, f_newv, f0, hp, hc, o1, q1, o2, q2, o3, q3, o4, q4, o5, q5, o6, q6, o7, q7, o8, q8, o9, q9, he, h0]
              try grind
            · simp [rrun, x86_64_cbneMemcpyStore, h_v, h_expect, h_dst, h_src, h_len, h_newv, f_v, f_expect, f_dst, f_src, f_len, f_newv, f0, hp, hc, o1, q1, o2, q2, o3, q3, o4, q4, o5, q5, o6, q6, o7, q7, o8, q8, o9, q9, he, h0, hpos]
            · simp [rrun, x86_64_cbneMemcpyStore, h_v, h_expect, h_dst, h_src, h_len, h_newv, f_v, f_expect, f_dst, f_src, f_len, f_newv, f0, hp, hc, o1, q1, o2, q2, o3, q3, o4, q4, o5, q5, o6, q6, o7, q7, o8, q8, o9, q9, he, h0]
            · simp [rrun, x86_64_cbneMemcpyStore, h_v, h_expect, h_dst, h_src, h_len, h_newv, f_v, f_expect, f_dst, f_src, f_len, f_newv, f0, hp, hc, o1, q1, o2, q2, o3, q3, o4, q4, o5, q5, o6, q6, o7, q7, o8, q8, o9, q9, he, h0]
            · simp [rrun, x86_64_cbneMemcpyStore, h_v, h_expect, h_dst, h_src, h_len, h_newv, f_v, f_expect, f_dst, f_src, f_len, f_newv, f0, hp, hc, o1, q1, o2, q2, o3, q3, o4, q4, o5, q5, o6, q6, o7, q7, o8, q8, o9, q9, he, h0]
            · intro x x1 x2 x3 x4
              simp at x4
              simp [rrun, x86_64_cbneMemcpyStore, h_v, h_expect, h_dst, h_src, h_len, h_newv, f_v, f_expect, f_dst, f_src, f_len, f_newv, f0, hp, hc, o1, q1, o2, q2, o3, q3, o4, q4, o5, q5, o6, q6, o7, q7, o8, q8, o9, q9, he, h0, x1, x2, x3, x4]
            · simp [rrun, x86_64_cbneMemcpyStore, h_v, h_expect, h_dst, h_src, h_len, h_newv, f_v, f_expect, f_dst, f_src, f_len, f_newv, f0, hp, hc, o1, q1, o2, q2, o3, q3, o4, q4, o5, q5, o6, q6, o7, q7, o8, q8, o9, q9, he, h0]
            · intro x hx
              simp [rrun, x86_64_cbneMemcpyStore, h_v, h_expect, h_dst, h_src, h_len, h_newv, f_v, f_expect, f_dst, f_src, f_len, f_newv, f0, hp, hc, o1, q1, o2, q2, o3, q3, o4, q4, o5, q5, o6, q6, o7, q7, o8, q8, o9, q9, he, h0] at hx
              try grind)
        apply OKs.all (k := k + 6)
        refine hk1.finish ?_
        generalize cit (x86_64_cbneMemcpyStore al be csa) fv m k (l, fun _ => False) = s1 at hk
        obtain ⟨⟨R, S, z, pc⟩, F⟩ := s1
        obtain ⟨i1, i2, i3, i4, i5, i6, i7⟩ := hk
        simp only [Nat.lt_irrefl, if_false] at i1 i2 i3 i4 i5 i6 i7
        subst i1 i6
        have j1 : R (al .v) = v := (i5 (al .v) (by simp [*]) (by simp [*]) (by simp [*]) (by simp [*])).trans h_v
        have j2 : R (al .newv) = newv :=
          (i5 (al .newv) (by simp [*]) (by simp [*]) (by simp [*]) (by simp [*])).trans h_newv
        simp [rrun, x86_64_cbneMemcpyStore, h_v, h_expect, h_dst, h_src, h_len, h_newv, f_v, f_expect, f_dst, f_src, f_len, f_newv, f0, hp, hc, o1, q1, o2, q2, o3, q3, o4, q4, o5, q5, o6, q6, o7, q7, o8, q8, o9, q9, j1, j2]
        try grind
    · have he2 := Ne.symm he
      exact OKs.all (k := 20) (by simp [rrun, x86_64_cbneMemcpyStore, h_v, h_expect, h_dst, h_src, h_len, h_newv, f_v, f_expect, f_dst, f_src, f_len, f_newv, f0, hp, hc, o1, q1, o2, q2, o3, q3, o4, q4, o5, q5, o6, q6, o7, q7, o8, q8, o9, q9, he, he2] <;> grind)
  · have hne2 := Ne.symm hfv
    exact OKs.all (k := 20) (by simp [rrun, x86_64_cbneMemcpyStore, h_v, h_expect, h_dst, h_src, h_len, h_newv, f_v, f_expect, f_dst, f_src, f_len, f_newv, f0, hp, hc, o1, q1, o2, q2, o3, q3, o4, q4, o5, q5, o6, q6, o7, q7, o8, q8, o9, q9, hfv, hne2] <;> grind)

theorem i386_cbneMemcpyStore_foot (hn : 4 ≤ n) (al : Opnd → Nat) (be : Bool)
    (csa v expect dst src len newv : W n) (ht : ∀ x, InRange dst len x → ¬ InWord v x)
    (hno : NoOverlap dst src len) :
    FootOK (i386_cbneMemcpyStore al be csa) [rax, rbx, rcx, rdx] false al
      (.cbneMemcpyStore v expect dst src len newv) := by
  intro cpu fv l m h
  have h_v := h.reg .v _ rfl
  have f_v := h.free .v _ rfl
  have h_expect := h.reg .expect _ rfl
  have f_expect := h.free .expect _ rfl
  have s_expect := h.slot .expect _ rfl (by decide)
  simp only [slotOf] at s_expect
  have h_dst := h.reg .dst _ rfl
  have f_dst := h.free .dst _ rfl
  have s_dst := h.slot .dst _ rfl (by decide)
  simp only [slotOf] at s_dst
  have h_src := h.reg .src _ rfl
  have f_src := h.free .src _ rfl
  have s_src := h.slot .src _ rfl (by decide)
  simp only [slotOf] at s_src
  have h_len := h.reg .len _ rfl
  have f_len := h.free .len _ rfl
  have s_len := h.slot .len _ rfl (by decide)
  simp only [slotOf] at s_len
  have h_newv := h.reg .newv _ rfl
  have f_newv := h.free .newv _ rfl
  have s_newv := h.slot .newv _ rfl (by decide)
  simp only [slotOf] at s_newv
  have f0 := h.freeCpu
  have hp := h.pc
  have hc := h.cpuV
  simp [rregs] at f0 f_v f_expect f_dst f_src f_len f_newv
  by_cases hfv : fv = cpu
  · subst hfv
    by_cases he : ldw be m v = expect
    · by_cases h0 : len = 0#(8 * n)
      · exact OKs.all (k := 20) (by simp [rrun, i386_cbneMemcpyStore, slotOf, h_v, h_expect, h_dst, h_src, h_len, h_newv, f_v, f_expect, f_dst, f_src, f_len, f_newv, f0, hp, hc, s_expect, s_dst, s_src, s_len, s_newv, he, h0] <;> grind)
      · have hpos : 0 < len.toNat := by
          have := mt (len_zero_iff len).2 h0; omega
        obtain ⟨k, hk1, hk⟩ := loopF (i386_cbneMemcpyStore al be csa) fv
          (.cbneMemcpyStore v expect dst src len newv) m
          (LoopF 11 17 1 3 2 [0, 3, 1, 2] l.regs
            l.slots src dst v src dst len) len.toNat
          (by
            rintro j ⟨⟨R, S, z, pc⟩, F⟩ hj ⟨i1, i2, i3, i4, i5, i6, i7⟩
            simp only [hj, if_true] at i1 i2 i3 i4 i5 i6 i7
            subst i1 i6
            have g1 := inRange_add src len j hj
            have g2 := inRange_add dst len j hj
            have g3 := dst_not_src hno hj
            have g4 : ¬ F (dst + BitVec.ofNat (8 * n) j) := by
              intro hF
              rcases i7 _ hF with h | h | h
              · exact ht _ g2.1 h
              · exact g3.1 h
              · omega
            refine ⟨6, ?_, ?_, ?_, ?_, ?_, ?_, ?_, ?_⟩
            · simp [rrun, i386_cbneMemcpyStore, slotOf, h_v, h_expect, h_dst, h_src, h_len, h_newv, f_v, f_expect, f_dst, f_src, f_len, f_newv, f0, hp, hc, s_expect, s_dst, s_src, s_len, s_newv, i2, i3, i4, step_up, step_up1, step_down, g1.1, g2.1, g3.2, g4]
            · simp [rrun, i386_cbneMemcpyStore, slotOf, h_v, h_expect, h_dst, h_src, h_len, h_newv, f_v, f_expect, f_dst, f_src, f_len, f_newv, f0, hp, hc, s_expect, s_dst, s_src, s_len, s_newv, i2, i3, i4, step_up, step_up1, step_down, left_zero len j hj]
              grind
            · simp [rrun, i386_cbneMemcpyStore, slotOf, h_v, h_expect, h_dst, h_src, h_len, h_newv, f_v, f_expect, f_dst, f_src, f_len, f_newv, f0, hp, hc, s_expect, s_dst, s_src, s_len, s_newv, i2, i3, i4, step_up, step_up1, step_down]
            · simp [rrun, i386_cbneMemcpyStore, slotOf, h_v, h_expect, h_dst, h_src, h_len, h_newv, f_v, f_expect, f_dst, f_src, f_len, f_newv, f0, hp, hc, s_expect, s_dst, s_src, s_len, s_newv, i2, i3, i4, step_up, step_up1, step_down]
            · simp [rrun, i386_cbneMemcpyStore, slotOf, h_v, h_expect, h_dst, h_src, h_len, h_newv, f_v, f_expect, f_dst, f_src, f_len, f_newv, f0, hp, hc, s_expect, s_dst, s_src, s_len, s_newv, i2, i3, i4, step_up, step_up1, step_down]
            · intro x x1 x2 x3 x4
              have := i5 x x1 x2 x3 x4
              simp at x4
              simp [rrun, i386_cbneMemcpyStore, slotOf, h_v, h_expect, h_dst, h_src, h_len, h_newv, f_v, f_expect, f_dst, f_src, f_len, f_newv, f0, hp, hc, s_expect, s_dst, s_src, s_len, s_newv, x1, x2, x3, x4, this]
            · simp [rrun, i386_cbneMemcpyStore]
            · intro x hx
              simp [rrun, i386_cbneMemcpyStore, slotOf, h_v, h_expect, h_dst, h_src, h_len, h_newv, f_v, f_expect, f_dst, f_src, f_len, f_newv, f0, hp, hc, s_expect, s_dst, s_src, s_len, s_newv, i2, i3, i4, step_up, step_up1, step_down] at hx
              grind)
          (l, fun _ => False) (by
            refine ⟨11, ?_, ?_, ?_, ?_, ?_, ?_, ?_, ?_⟩
            · simp [rrun, i386_cbneMemcpyStore, slotOf, h_v, h_expect, h_dst, h_src, h_len, h_newv, f_v, f_expect, f_dst, f_src, f_len, f_newv, f0, hp, hc, s_expect, s_dst, s_src, s_len, s_newv, he, h0]
              try grind
            · simp [rrun, i386_cbneMemcpyStore, slotOf, h_v, h_expect, h_dst, h_src, h_len, h_newv, f_v, f_expect, f_dst, f_src, f_len, f_newv, f0, hp, hc, s_expect, s_dst, s_src, s_len, s_newv, he, h0, hpos]
            · simp [rrun, i386_cbneMemcpyStore, slotOf, h_v, h_expect, h_dst, h_src, h_len, h_newv, f_v, f_expect, f_dst, f_src, f_len, f_newv, f0, hp, hc, s_expect, s_dst, s_src, s_len, s_newv, he, h0]
            · simp [rrun, i386_cbneMemcpyStore, slotOf, h_v, h_expect, h_dst, h_src, h_len, h_newv, f_v, f_expect, f_dst, f_src, f_len, f_newv, f0, hp, hc, s_expect, s_dst, s_src, s_len, s_newv, he, h0]
            · simp [rrun, i386_cbneMemcpyStore, slotOf, h_v, h_expect, h_dst, h_src, h_len, h_newv, f_v, f_expect, f_dst, f_src, f_len, f_newv, f0, hp, hc, s_expect, s_dst, s_src, s_len, s_newv, he, h0]
            · intro x x1 x2 x3 x4
              simp at x4
              simp [rrun, i386_cbneMemcpyStore, slotOf, h_v, h_expect, h_dst, h_src, h_len, h_newv, f_v, f_expect, f_dst, f_src, f_len, f_newv, f0, hp, hc, s_expect, s_dst, s_src, s_len, s_newv, he, h0, x1, x2, x3, x4]
            · simp [rrun, i386_cbneMemcpyStore, slotOf, h_v, h_expect, h_dst, h_src, h_len, h_newv, f_v, f_expect, f_dst, f_src, f_len, f_newv, f0, hp, hc, s_expect, s_dst, s_src, s_len, s_newv, he, h0]
            · intro x hx
              simp [rrun, i386_cbneMemcpyStore, slotOf, h_v, h_expect, h_dst, h_src, h_len, h_newv, f_v, f_expect, f_dst, f_src, f_len, f_newv, f0, hp, hc, s_expect, s_dst, s_src, s_len, s_newv, he, h0] at hx
              try grind)
        apply OKs.all (k := k + 6)
        refine hk1.finish ?_
        generalize cit (i386_cbneMemcpyStore al be csa) fv m k (l, fun _ => False) = s1 at hk
        obtain ⟨⟨R, S, z, pc⟩, F⟩ := s1
        obtain ⟨i1, i2, i3, i4, i5, i6, i7⟩ := hk
        simp only [Nat.lt_irrefl, if_false] at i1 i2 i3 i4 i5 i6 i7
        subst i1 i6
        have j1 : R (al .v) = v := (i5 (al .v) (by simp [*]) (by simp [*]) (by simp [*]) (by simp [*])).trans h_v
        have j2 : R (al .newv) = newv :=
          (i5 (al .newv) (by simp [*]) (by simp [*]) (by simp [*]) (by simp [*])).trans h_newv
        simp [rrun, i386_cbneMemcpyStore, slotOf, h_v, h_expect, h_dst, h_src, h_len, h_newv, f_v, f_expect, f_dst, f_src, f_len, f_newv, f0, hp, hc, s_expect, s_dst, s_src, s_len, s_newv, j1, j2]
        try grind
    · have he2 := Ne.symm he
      exact OKs.all (k := 20) (by simp [rrun, i386_cbneMemcpyStore, slotOf, h_v, h_expect, h_dst, h_src, h_len, h_newv, f_v, f_expect, f_dst, f_src, f_len, f_newv, f0, hp, hc, s_expect, s_dst, s_src, s_len, s_newv, he, he2] <;> grind)
  · have hne2 := Ne.symm hfv
    exact OKs.all (k := 20) (by simp [rrun, i386_cbneMemcpyStore, slotOf, h_v, h_expect, h_dst, h_src, h_len, h_newv, f_v, f_expect, f_dst, f_src, f_len, f_newv, f0, hp, hc, s_expect, s_dst, s_src, s_len, s_newv, hfv, hne2] <;> grind)

theorem i386_cbneMemcpyStore_rel_foot (hn : 4 ≤ n) (al : Opnd → Nat) (be : Bool)
    (csa v expect dst src len newv : W n) (ht : ∀ x, InRange dst len x → ¬ InWord v x)
    (hno : NoOverlap dst src len) :
    FootOK (i386_cbneMemcpyStore_rel al be csa) [rax, rbx, rcx, rdx] false al
      (.cbneMemcpyStore v expect dst src len newv) := by
  intro cpu fv l m h
  have h_v := h.reg .v _ rfl
  have f_v := h.free .v _ rfl
  have h_expect := h.reg .expect _ rfl
  have f_expect := h.free .expect _ rfl
  have s_expect := h.slot .expect _ rfl (by decide)
  simp only [slotOf] at s_expect
  have h_dst := h.reg .dst _ rfl
  have f_dst := h.free .dst _ rfl
  have s_dst := h.slot .dst _ rfl (by decide)
  simp only [slotOf] at s_dst
  have h_src := h.reg .src _ rfl
  have f_src := h.free .src _ rfl
  have s_src := h.slot .src _ rfl (by decide)
  simp only [slotOf] at s_src
  have h_len := h.reg .len _ rfl
  have f_len := h.free .len _ rfl
  have s_len := h.slot .len _ rfl (by decide)
  simp only [slotOf] at s_len
  have h_newv := h.reg .newv _ rfl
  have f_newv := h.free .newv _ rfl
  have s_newv := h.slot .newv _ rfl (by decide)
  simp only [slotOf] at s_newv
  have f0 := h.freeCpu
  have hp := h.pc
  have hc := h.cpuV
  simp [rregs] at f0 f_v f_expect f_dst f_src f_len f_newv
  by_cases hfv : fv = cpu
  · subst hfv
    by_cases he : ldw be m v = expect
    · by_cases h0 : len = 0#(8 * n)
      · exact OKs.all (k := 20) (by simp [rrun, i386_cbneMemcpyStore_rel, slotOf, h_v, h_expect, h_dst, h_src, h_len, h_newv, f_v, f_expect, f_dst, f_src, f_len, f_newv, f0, hp, hc, s_expect, s_dst, s_src, s_len, s_newv, he, h0] <;> grind)
      · have hpos : 0 < len.toNat := by
          have := mt (len_zero_iff len).2 h0; omega
        obtain ⟨k, hk1, hk⟩ := loopF (i386_cbneMemcpyStore_rel al be csa) fv
          (.cbneMemcpyStore v expect dst src len newv) m
          (LoopF 11 17 1 3 2 [0, 3, 1, 2] l.regs
            l.slots src dst v src dst len) len.toNat
          (by
            rintro j ⟨⟨R, S, z, pc⟩, F⟩ hj ⟨i1, i2, i3, i4, i5, i6, i7⟩
            simp only [hj, if_true] at i1 i2 i3 i4 i5 i6 i7
            subst i1 i6
            have g1 := inRange_add src len j hj
            have g2 := inRange_add dst len j hj
            have g3 := dst_not_src hno hj
            have g4 : ¬ F (dst + BitVec.ofNat (8 * n) j) := by
              intro hF
              rcases i7 _ hF with h | h | h
              · exact ht _ g2.1 h
              · exact g3.1 h
              · omega
            refine ⟨6, ?_, ?_, ?_, ?_, ?_, ?_, ?_, ?_⟩
            · simp [rrun, i386_cbneMemcpyStore_rel, slotOf, h_v, h_expect, h_dst, h_src, h_len, h_newv, f_v, f_expect, f_dst, f_src, f_len, f_newv, f0, hp, hc, s_expect, s_dst, s_src, s_len, s_newv, i2, i3, i4, step_up, step_up1, step_down, g1.1, g2.1, g3.2, g4]
            · simp [rrun, i386_cbneMemcpyStore_rel, slotOf, h_v, h_expect, h_dst, h_src, h_len, h_newv, f_v, f_expect, f_dst, f_src, f_len, f_newv, f0, hp, hc, s_expect, s_dst, s_src, s_len, s_newv, i2, i3, i4, step_up, step_up1, step_down, left_zero len j hj]
              grind
            · simp [rrun, i386_cbneMemcpyStore_rel, slotOf, h_v, h_expect, h_dst, h_src, h_len, h_newv, f_v, f_expect, f_dst, f_src, f_len, f_newv, f0, hp, hc, s_expect, s_dst, s_src, s_len, s_newv, i2, i3, i4, step_up, step_up1, step_down]
            · simp [rrun, i386_cbneMemcpyStore_rel, slotOf, h_v, h_expect, h_dst, h_src, h_len, h_newv, f_v, f_expect, f_dst, f_src, f_len, f_newv, f0, hp, hc, s_expect, s_dst, s_src, s_len, s_newv, i2, i3, i4, step_up, step_up1, step_down]
            · simp [rrun, i386_cbneMemcpyStore_rel, slotOf, h_v, h_expect, h_dst, h_src, h_len, h_newv, f_v, f_expect, f_dst, f_src, f_len, f_newv, f0, hp, hc, s_expect, s_dst, s_src, s_len, s_newv, i2, i3, i4, step_up, step_up1, step_down]
            · intro x x1 x2 x3 x4
              have := i5 x x1 x2 x3 x4
              simp at x4
              simp [rrun, i386_cbneMemcpyStore_rel, slotOf, h_v, h_expect, h_dst, h_src, h_len, h_newv, f_v, f_expect, f_dst, f_src, f_len, f_newv, f0, hp, hc, s_expect, s_dst, s_src, s_len, s_newv, x1, x2, x3, x4, this]
            · simp [rrun, i386_cbneMemcpyStore_rel]
            · intro x hx
              simp [rrun, i386_cbneMemcpyStore_rel, slotOf, h_v, h_expect, h_dst, h_src, h_len, h_newv, f_v, f_expect, f_dst, f_src, f_len, f_newv, f0, hp, hc, s_expect, s_dst, s_src, s_len, s_newv, i2, i3, i4, step_up, step_up1, step_down] at hx
              grind)
          (l, fun _ => False) (by
            refine ⟨11, ?_, ?_, ?_, ?_, ?_, ?_, ?_, ?_⟩
            · simp [rrun, i386_cbneMemcpyStore_rel, slotOf, h_v, h_expect, h_dst, h_src, h_len, h_newv, f_v, f_expect, f_dst, f_src, f_len, f_newv, f0, hp, hc, s_expect, s_dst, s_src, s_len, s_newv, he, h0]
              try grind
            · simp [rrun, i386_cbneMemcpyStore_rel, slotOf, h_v, h_expect, h_dst, h_src, h_len, h_newv, f_v, f_expect, f_dst, f_src, f_len, f_newv, f0, hp, hc, s_expect, s_dst, s_src, s_len, s_newv, he, h0, hpos]
            · simp [rrun, i386_cbneMemcpyStore_rel, slotOf, h_v, h_expect, h_dst, h_src, h_len, h_newv, f_v, f_expect, f_dst, f_src, f_len, f_newv, f0, hp, hc, s_expect, s_dst, s_src, s_len, s_newv, he, h0]
            · simp [rrun, i386_cbneMemcpyStore_rel, slotOf, h_v, h_expect, h_dst, h_src, h_len, h_newv, f_v, f_expect, f_dst, f_src, f_len, f_newv, f0, hp, hc, s_expect, s_dst, s_src, s_len, s_newv, he, h0]
            · simp [rrun, i386_cbneMemcpyStore_rel, slotOf, h_v, h_expect, h_dst, h_src, h_len, h_newv, f_v, f_expect, f_dst, f_src, f_len, f_newv, f0, hp, hc, s_expect, s_dst, s_src, s_len, s_newv, he, h0]
            · intro x x1 x2 x3 x4
              simp at x4
              simp [rrun, i386_cbneMemcpyStore_rel, slotOf, h_v, h_expect, h_dst, h_src, h_len, h_newv, f_v, f_expect, f_dst, f_src, f_len, f_newv, f0, hp, hc, s_expect, s_dst, s_src, s_len, s_newv, he, h0, x1, x2, x3, x4]
            · simp [rrun, i386_cbneMemcpyStore_rel, slotOf, h_v, h_expect, h_dst, h_src, h_len, h_newv, f_v, f_expect, f_dst, f_src, f_len, f_newv, f0, hp, hc, s_expect, s_dst, s_src, s_len, s_newv, he, h0]
            · intro x hx
              simp [rrun, i386_cbneMemcpyStore_rel, slotOf, h_v, h_expect, h_dst, h_src, h_len, h_newv, f_v, f_expect, f_dst, f_src, f_len, f_newv, f0, hp, hc, s_expect, s_dst, s_src, s_len, s_newv, he, h0] at hx
              try grind)
        apply OKs.all (k := k + 6)
        refine hk1.finish ?_
        generalize cit (i386_cbneMemcpyStore_rel al be csa) fv m k (l, fun _ => False) = s1 at hk
        obtain ⟨⟨R, S, z, pc⟩, F⟩ := s1
        obtain ⟨i1, i2, i3, i4, i5, i6, i7⟩ := hk
        simp only [Nat.lt_irrefl, if_false] at i1 i2 i3 i4 i5 i6 i7
        subst i1 i6
        have j1 : R (al .v) = v := (i5 (al .v) (by simp [*]) (by simp [*]) (by simp [*]) (by simp [*])).trans h_v
        have j2 : R (al .newv) = newv :=
          (i5 (al .newv) (by simp [*]) (by simp [*]) (by simp [*]) (by simp [*])).trans h_newv
        simp [rrun, i386_cbneMemcpyStore_rel, slotOf, h_v, h_expect, h_dst, h_src, h_len, h_newv, f_v, f_expect, f_dst, f_src, f_len, f_newv, f0, hp, hc, s_expect, s_dst, s_src, s_len, s_newv, j1, j2]
        try grind
    · have he2 := Ne.symm he
      exact OKs.all (k := 20) (by simp [rrun, i386_cbneMemcpyStore_rel, slotOf, h_v, h_expect, h_dst, h_src, h_len, h_newv, f_v, f_expect, f_dst, f_src, f_len, f_newv, f0, hp, hc, s_expect, s_dst, s_src, s_len, s_newv, he, he2] <;> grind)
  · have hne2 := Ne.symm hfv
    exact OKs.all (k := 20) (by simp [rrun, i386_cbneMemcpyStore_rel, slotOf, h_v, h_expect, h_dst, h_src, h_len, h_newv, f_v, f_expect, f_dst, f_src, f_len, f_newv, f0, hp, hc, s_expect, s_dst, s_src, s_len, s_newv, hfv, hne2] <;> grind)

theorem aarch64_cbneMemcpyStore_foot (hn : 4 ≤ n) (al : Opnd → Nat) (be : Bool)
    (csa v expect dst src len newv : W n) (ht : ∀ x, InRange dst len x → ¬ InWord v x)
    (hno : NoOverlap dst src len) :
    FootOK (aarch64_cbneMemcpyStore al be csa) [x15, x14] false al
      (.cbneMemcpyStore v expect dst src len newv) := by
  intro cpu fv l m h
  have h_v := h.reg .v _ rfl
  have f_v := h.free .v _ rfl
  have h_expect := h.reg .expect _ rfl
  have f_expect := h.free .expect _ rfl
  have h_dst := h.reg .dst _ rfl
  have f_dst := h.free .dst _ rfl
  have h_src := h.reg .src _ rfl
  have f_src := h.free .src _ rfl
  have h_len := h.reg .len _ rfl
  have f_len := h.free .len _ rfl
  have h_newv := h.reg .newv _ rfl
  have f_newv := h.free .newv _ rfl
  have f0 := h.freeCpu
  have hp := h.pc
  have hc := h.cpuV
  simp [rregs] at f0 f_v f_expect f_dst f_src f_len f_newv
  by_cases hfv : fv = cpu
  · subst hfv
    by_cases he : ldw be m v = expect
    · by_cases h0 : len = 0#(8 * n)
      · exact OKs.all (k := 20) (by simp [rrun, aarch64_cbneMemcpyStore, setWidth32_setWidth hn, sub_eq_zero_iff, h_v, h_expect, h_dst, h_src, h_len, h_newv, f_v, f_expect, f_dst, f_src, f_len, f_newv, f0, hp, hc, he, h0] <;> grind)
      · have hpos : 0 < len.toNat := by
          have := mt (len_zero_iff len).2 h0; omega
        obtain ⟨k, hk1, hk⟩ := loopF (aarch64_cbneMemcpyStore al be csa) fv
          (.cbneMemcpyStore v expect dst src len newv) m
          (LoopFB 9 13 l.regs l.slots v src dst len) len.toNat
          (by
            rintro j ⟨⟨R, S, z, pc⟩, F⟩ hj ⟨i1, i2, i5, i6, i7⟩
            simp only [hj, if_true] at i1 i2 i5 i6 i7
            subst i1 i6
            obtain ⟨q, hq⟩ : ∃ q, len.toNat - j = q + 1 := ⟨len.toNat - j - 1, by omega⟩
            have hq2 : len.toNat - (j + 1) = q := by omega
            have hq3 : q < len.toNat := by omega
            have g1 := inRange_add src len q hq3
            have g2 := inRange_add dst len q hq3
            have g3 := dst_not_src hno hq3
            have g5 := ofNat_zero_iff len q hq3
            have g6 := i5 (al .src) (by simp [*]) (by simp [*])
            have g7 := i5 (al .dst) (by simp [*]) (by simp [*])
            rw [hq] at i2
            rw [hq] at i7
            have g4 : ¬ F (dst + BitVec.ofNat (8 * n) q) := by
              intro hF
              rcases i7 _ hF with h | h | h
              · exact ht _ g2.1 h
              · exact g3.1 h
              · omega
            refine ⟨4, ?_, ?_, ?_, ?_, ?_, ?_⟩
            · simp [rrun, aarch64_cbneMemcpyStore, setWidth32_setWidth hn, sub_eq_zero_iff, h_v, h_expect, h_dst, h_src, h_len, h_newv, f_v, f_expect, f_dst, f_src, f_len, f_newv, f0, hp, hc, i2, g6, g7, ofNat_pred, g1.1, g2.1, g3.2, g4]
            · by_cases hz : q = 0
              · have : ¬ (j + 1 < len.toNat) := by omega
                subst hz
                simp [rrun, aarch64_cbneMemcpyStore, setWidth32_setWidth hn, sub_eq_zero_iff, h_v, h_expect, h_dst, h_src, h_len, h_newv, f_v, f_expect, f_dst, f_src, f_len, f_newv, f0, hp, hc, i2, g6, g7, ofNat_pred, this]
              · have : j + 1 < len.toNat := by omega
                simp [rrun, aarch64_cbneMemcpyStore, setWidth32_setWidth hn, sub_eq_zero_iff, h_v, h_expect, h_dst, h_src, h_len, h_newv, f_v, f_expect, f_dst, f_src, f_len, f_newv, f0, hp, hc, i2, g6, g7, ofNat_pred, g5, hz, this]
            · simp [rrun, aarch64_cbneMemcpyStore, setWidth32_setWidth hn, sub_eq_zero_iff, h_v, h_expect, h_dst, h_src, h_len, h_newv, f_v, f_expect, f_dst, f_src, f_len, f_newv, f0, hp, hc, i2, g6, g7, ofNat_pred, hq2]
            · intro x x1 x2
              have := i5 x x1 x2
              simp [rrun, aarch64_cbneMemcpyStore, setWidth32_setWidth hn, sub_eq_zero_iff, h_v, h_expect, h_dst, h_src, h_len, h_newv, f_v, f_expect, f_dst, f_src, f_len, f_newv, f0, hp, hc, this, x1, x2]
            · simp [rrun, aarch64_cbneMemcpyStore]
            · intro x hx
              simp [rrun, aarch64_cbneMemcpyStore, setWidth32_setWidth hn, sub_eq_zero_iff, h_v, h_expect, h_dst, h_src, h_len, h_newv, f_v, f_expect, f_dst, f_src, f_len, f_newv, f0, hp, hc, i2, g6, g7, ofNat_pred] at hx
              grind)
          (l, fun _ => False) (by
            refine ⟨9, ?_, ?_, ?_, ?_, ?_, ?_⟩
            · simp [rrun, aarch64_cbneMemcpyStore, setWidth32_setWidth hn, sub_eq_zero_iff, h_v, h_expect, h_dst, h_src, h_len, h_newv, f_v, f_expect, f_dst, f_src, f_len, f_newv, f0, hp, hc, he, h0]
              try grind
            · simp [rrun, aarch64_cbneMemcpyStore, setWidth32_setWidth hn, sub_eq_zero_iff, h_v, h_expect, h_dst, h_src, h_len, h_newv, f_v, f_expect, f_dst, f_src, f_len, f_newv, f0, hp, hc, he, h0, hpos]
            · simp [rrun, aarch64_cbneMemcpyStore, setWidth32_setWidth hn, sub_eq_zero_iff, h_v, h_expect, h_dst, h_src, h_len, h_newv, f_v, f_expect, f_dst, f_src, f_len, f_newv, f0, hp, hc, he, h0]
            · intro x x1 x2
              simp [rrun, aarch64_cbneMemcpyStore, setWidth32_setWidth hn, sub_eq_zero_iff, h_v, h_expect, h_dst, h_src, h_len, h_newv, f_v, f_expect, f_dst, f_src, f_len, f_newv, f0, hp, hc, he, h0, x1, x2]
            · simp [rrun, aarch64_cbneMemcpyStore, setWidth32_setWidth hn, sub_eq_zero_iff, h_v, h_expect, h_dst, h_src, h_len, h_newv, f_v, f_expect, f_dst, f_src, f_len, f_newv, f0, hp, hc, he, h0]
            · intro x hx
              simp [rrun, aarch64_cbneMemcpyStore, setWidth32_setWidth hn, sub_eq_zero_iff, h_v, h_expect, h_dst, h_src, h_len, h_newv, f_v, f_expect, f_dst, f_src, f_len, f_newv, f0, hp, hc, he, h0] at hx
              try grind)
        apply OKs.all (k := k + 6)
        refine hk1.finish ?_
        generalize cit (aarch64_cbneMemcpyStore al be csa) fv m k (l, fun _ => False) = s1 at hk
        obtain ⟨⟨R, S, z, pc⟩, F⟩ := s1
        obtain ⟨i1, i2, i5, i6, i7⟩ := hk
        simp only [Nat.lt_irrefl, if_false] at i1 i2 i5 i6 i7
        subst i1 i6
        have j1 : R (al .v) = v := (i5 (al .v) (by simp [*]) (by simp [*])).trans h_v
        have j2 : R (al .newv) = newv := (i5 (al .newv) (by simp [*]) (by simp [*])).trans h_newv
        simp [rrun, aarch64_cbneMemcpyStore, setWidth32_setWidth hn, sub_eq_zero_iff, h_v, h_expect, h_dst, h_src, h_len, h_newv, f_v, f_expect, f_dst, f_src, f_len, f_newv, f0, hp, hc, j1, j2]
        try grind
    · have he2 := Ne.symm he
      exact OKs.all (k := 20) (by simp [rrun, aarch64_cbneMemcpyStore, setWidth32_setWidth hn, sub_eq_zero_iff, h_v, h_expect, h_dst, h_src, h_len, h_newv, f_v, f_expect, f_dst, f_src, f_len, f_newv, f0, hp, hc, he, he2] <;> grind)
  · have hne2 := Ne.symm hfv
    exact OKs.all (k := 20) (by simp [rrun, aarch64_cbneMemcpyStore, setWidth32_setWidth hn, sub_eq_zero_iff, h_v, h_expect, h_dst, h_src, h_len, h_newv, f_v, f_expect, f_dst, f_src, f_len, f_newv, f0, hp, hc, hfv, hne2] <;> grind)

theorem aarch64_cbneMemcpyStore_rel_foot (hn : 4 ≤ n) (al : Opnd → Nat) (be : Bool)
    (csa v expect dst src len newv : W n) (ht : ∀ x, InRange dst len x → ¬ InWord v x)
    (hno : NoOverlap dst src len) :
    FootOK (aarch64_cbneMemcpyStore_rel al be csa) [x15, x14] false al
      (.cbneMemcpyStore v expect dst src len newv) := by
  intro cpu fv l m h
  have h_v := h.reg .v _ rfl
  have f_v := h.free .v _ rfl
  have h_expect := h.reg .expect _ rfl
  have f_expect := h.free .expect _ rfl
  have h_dst := h.reg .dst _ rfl
  have f_dst := h.free .dst _ rfl
  have h_src := h.reg .src _ rfl
  have f_src := h.free .src _ rfl
  have h_len := h.reg .len _ rfl
  have f_len := h.free .len _ rfl
  have h_newv := h.reg .newv _ rfl
  have f_newv := h.free .newv _ rfl
  have f0 := h.freeCpu
  have hp := h.pc
  have hc := h.cpuV
  simp [rregs] at f0 f_v f_expect f_dst f_src f_len f_newv
  by_cases hfv : fv = cpu
  · subst hfv
    by_cases he : ldw be m v = expect
    · by_cases h0 : len = 0#(8 * n)
      · exact OKs.all (k := 20) (by simp [rrun, aarch64_cbneMemcpyStore_rel, setWidth32_setWidth hn, sub_eq_zero_iff, h_v, h_expect, h_dst, h_src, h_len, h_newv, f_v, f_expect, f_dst, f_src, f_len, f_newv, f0, hp, hc, he, h0] <;> grind)
      · have hpos : 0 < len.toNat := by
          have := mt (len_zero_iff len).2 h0; omega
        obtain ⟨k, hk1, hk⟩ := loopF (aarch64_cbneMemcpyStore_rel al be csa) fv
          (.cbneMemcpyStore v expect dst src len newv) m
          (LoopFB 9 13 l.regs l.slots v src dst len) len.toNat
          (by
            rintro j ⟨⟨R, S, z, pc⟩, F⟩ hj ⟨i1, i2, i5, i6, i7⟩
            simp only [hj, if_true] at i1 i2 i5 i6 i7
            subst i1 i6
            obtain ⟨q, hq⟩ : ∃ q, len.toNat - j = q + 1 := ⟨len.toNat - j - 1, by omega⟩
            have hq2 : len.toNat - (j + 1) = q := by omega
            have hq3 : q < len.toNat := by omega
            have g1 := inRange_add src len q hq3
            have g2 := inRange_add dst len q hq3
            have g3 := dst_not_src hno hq3
            have g5 := ofNat_zero_iff len q hq3
            have g6 := i5 (al .src) (by simp [*]) (by simp [*])
            have g7 := i5 (al .dst) (by simp [*]) (by simp [*])
            rw [hq] at i2
            rw [hq] at i7
            have g4 : ¬ F (dst + BitVec.ofNat (8 * n) q) := by
              intro hF
              rcases i7 _ hF with h | h | h
              · exact ht _ g2.1 h
              · exact g3.1 h
              · omega
            refine ⟨4, ?_, ?_, ?_, ?_, ?_, ?_⟩
            · simp [rrun, aarch64_cbneMemcpyStore_rel, setWidth32_setWidth hn, sub_eq_zero_iff, h_v, h_expect, h_dst, h_src, h_len, h_newv, f_v, f_expect, f_dst, f_src, f_len, f_newv, f0, hp, hc, i2, g6, g7, ofNat_pred, g1.1, g2.1, g3.2, g4]
            · by_cases hz : q = 0
              · have : ¬ (j + 1 < len.toNat) := by omega
                subst hz
                simp [rrun, aarch64_cbneMemcpyStore_rel, setWidth32_setWidth hn, sub_eq_zero_iff, h_v, h_expect, h_dst, h_src, h_len, h_newv, f_v, f_expect, f_dst, f_src, f_len, f_newv, f0, hp, hc, i2, g6, g7, ofNat_pred, this]
              · have : j + 1 < len.toNat := by omega
                simp [rrun, aarch64_cbneMemcpyStore_rel, setWidth32_setWidth hn, sub_eq_zero_iff, h_v, h_expect, h_dst, h_src, h_len, h_newv, f_v, f_expect, f_dst, f_src, f_len, f_newv, f0, hp, hc, i2, g6, g7, ofNat_pred, g5, hz, this]
            · simp [rrun, aarch64_cbneMemcpyStore_rel, setWidth32_setWidth hn, sub_eq_zero_iff, h_v, h_expect, h_dst, h_src, h_len, h_newv, f_v, f_expect, f_dst, f_src, f_len, f_newv, f0, hp, hc, i2, g6, g7, ofNat_pred, hq2]
            · intro x x1 x2
              have := i5 x x1 x2
              simp [rrun, aarch64_cbneMemcpyStore_rel, setWidth32_setWidth hn, sub_eq_zero_iff, h_v, h_expect, h_dst, h_src, h_len, h_newv, f_v, f_expect, f_dst, f_src, f_len, f_newv, f0, hp, hc, this, x1, x2]
            · simp [rrun, aarch64_cbneMemcpyStore_rel]
            · intro x hx
              simp [rrun, aarch64_cbneMemcpyStore_rel, setWidth32_setWidth hn, sub_eq_zero_iff, h_v, h_expect, h_dst, h_src, h_len, h_newv, f_v, f_expect, f_dst, f_src, f_len, f_newv, f0, hp, hc, i2, g6, g7, ofNat_pred] at hx
              grind)
          (l, fun _ => False) (by
            refine ⟨9, ?_, ?_, ?_, ?_, ?_, ?_⟩
            · simp [rrun, aarch64_cbneMemcpyStore_rel, setWidth32_setWidth hn, sub_eq_zero_iff, h_v, h_expect, h_dst, h_src, h_len, h_newv, f_v, f_expect, f_dst, f_src, f_len, f_newv, f0, hp, hc, he, h0]
              try grind
            · simp [rrun, aarch64_cbneMemcpyStore_rel, setWidth32_setWidth hn, sub_eq_zero_iff, h_v, h_expect, h_dst, h_src, h_len, h_newv, f_v, f_expect, f_dst, f_src, f_len, f_newv, f0, hp, hc, he, h0, hpos]
            · simp [rrun, aarch64_cbneMemcpyStore_rel, setWidth32_setWidth hn, sub_eq_zero_iff, h_v, h_expect, h_dst, h_src, h_len, h_newv, f_v, f_expect, f_dst, f_src, f_len, f_newv, f0, hp, hc, he, h0]
            · intro x x1 x2
              simp [rrun, aarch64_cbneMemcpyStore_rel, setWidth32_setWidth hn, sub_eq_zero_iff, h_v, h_expect, h_dst, h_src, h_len, h_newv, f_v, f_expect, f_dst, f_src, f_len, f_newv, f0, hp, hc, he, h0, x1, x2]
            · simp [rrun, aarch64_cbneMemcpyStore_rel, setWidth32_setWidth hn, sub_eq_zero_iff, h_v, h_expect, h_dst, h_src, h_len, h_newv, f_v, f_expect, f_dst, f_src, f_len, f_newv, f0, hp, hc, he, h0]
            · intro x hx
              simp [rrun, aarch64_cbneMemcpyStore_rel, setWidth32_setWidth hn, sub_eq_zero_iff, h_v, h_expect, h_dst, h_src, h_len, h_newv, f_v, f_expect, f_dst, f_src, f_len, f_newv, f0, hp, hc, he, h0] at hx
              try grind)
        apply OKs.all (k := k + 6)
        refine hk1.finish ?_
        generalize cit (aarch64_cbneMemcpyStore_rel al be csa) fv m k (l, fun _ => False) = s1 at hk
        obtain ⟨⟨R, S, z, pc⟩, F⟩ := s1
        obtain ⟨i1, i2, i5, i6, i7⟩ := hk
        simp only [Nat.lt_irrefl, if_false] at i1 i2 i5 i6 i7
        subst i1 i6
        have j1 : R (al .v) = v := (i5 (al .v) (by simp [*]) (by simp [*])).trans h_v
        have j2 : R (al .newv) = newv := (i5 (al .newv) (by simp [*]) (by simp [*])).trans h_newv
        simp [rrun, aarch64_cbneMemcpyStore_rel, setWidth32_setWidth hn, sub_eq_zero_iff, h_v, h_expect, h_dst, h_src, h_len, h_newv, f_v, f_expect, f_dst, f_src, f_len, f_newv, f0, hp, hc, j1, j2]
        try grind
    · have he2 := Ne.symm he
      exact OKs.all (k := 20) (by simp [rrun, aarch64_cbneMemcpyStore_rel, setWidth32_setWidth hn, sub_eq_zero_iff, h_v, h_expect, h_dst, h_src, h_len, h_newv, f_v, f_expect, f_dst, f_src, f_len, f_newv, f0, hp, hc, he, he2] <;> grind)
  · have hne2 := Ne.symm hfv
    exact OKs.all (k := 20) (by simp [rrun, aarch64_cbneMemcpyStore_rel, setWidth32_setWidth hn, sub_eq_zero_iff, h_v, h_expect, h_dst, h_src, h_len, h_newv, f_v, f_expect, f_dst, f_src, f_len, f_newv, f0, hp, hc, hfv, hne2] <;> grind)

theorem riscv_cbneMemcpyStore_foot (hn : 4 ≤ n) (al : Opnd → Nat) (be : Bool)
    (csa v expect dst src len newv : W n) (ht : ∀ x, InRange dst len x → ¬ InWord v x)
    (hno : NoOverlap dst src len) :
    FootOK (riscv_cbneMemcpyStore al be csa) [t6, t5, t4, t3] true al
      (.cbneMemcpyStore v expect dst src len newv) := by
  intro cpu fv l m h
  have h_v := h.reg .v _ rfl
  have f_v := h.free .v _ rfl
  have h_expect := h.reg .expect _ rfl
  have f_expect := h.free .expect _ rfl
  have h_dst := h.reg .dst _ rfl
  have f_dst := h.free .dst _ rfl
  have h_src := h.reg .src _ rfl
  have f_src := h.free .src _ rfl
  have h_len := h.reg .len _ rfl
  have f_len := h.free .len _ rfl
  have h_newv := h.reg .newv _ rfl
  have f_newv := h.free .newv _ rfl
  have f0 := h.freeCpu
  have hp := h.pc
  have hc := h.cpuS rfl
  simp [rregs] at f0 f_v f_expect f_dst f_src f_len f_newv
  by_cases hfv : fv = cpu
  · subst hfv
    by_cases he : ldw be m v = expect
    · by_cases h0 : len = 0#(8 * n)
      · exact OKs.all (k := 20) (by simp [rrun, riscv_cbneMemcpyStore, signExtend_inj hn, h_v, h_expect, h_dst, h_src, h_len, h_newv, f_v, f_expect, f_dst, f_src, f_len, f_newv, f0, hp, hc, he, h0] <;> grind)
      · have hpos : 0 < len.toNat := by
          have := mt (len_zero_iff len).2 h0; omega
        obtain ⟨k, hk1, hk⟩ := loopF (riscv_cbneMemcpyStore al be csa) fv
          (.cbneMemcpyStore v expect dst src len newv) m
          (LoopF 9 15 30 29 31 [31, 30, 29, 28] l.regs
            l.slots src dst v src dst len) len.toNat
          (by
            rintro j ⟨⟨R, S, z, pc⟩, F⟩ hj ⟨i1, i2, i3, i4, i5, i6, i7⟩
            simp only [hj, if_true] at i1 i2 i3 i4 i5 i6 i7
            subst i1 i6
            have g1 := inRange_add src len j hj
            have g2 := inRange_add dst len j hj
            have g3 := dst_not_src hno hj
            have g4 : ¬ F (dst + BitVec.ofNat (8 * n) j) := by
              intro hF
              rcases i7 _ hF with h | h | h
              · exact ht _ g2.1 h
              · exact g3.1 h
              · omega
            refine ⟨6, ?_, ?_, ?_, ?_, ?_, ?_, ?_, ?_⟩
            · simp [rrun, riscv_cbneMemcpyStore, signExtend_inj hn, h_v, h_expect, h_dst, h_src, h_len, h_newv, f_v, f_expect, f_dst, f_src, f_len, f_newv, f0, hp, hc, i2, i3, i4, step_up, step_up1, step_down, g1.1, g2.1, g3.2, g4]
            · simp [rrun, riscv_cbneMemcpyStore, signExtend_inj hn, h_v, h_expect, h_dst, h_src, h_len, h_newv, f_v, f_expect, f_dst, f_src, f_len, f_newv, f0, hp, hc, i2, i3, i4, step_up, step_up1, step_down, left_zero len j hj]
              grind
            · simp [rrun, riscv_cbneMemcpyStore, signExtend_inj hn, h_v, h_expect, h_dst, h_src, h_len, h_newv, f_v, f_expect, f_dst, f_src, f_len, f_newv, f0, hp, hc, i2, i3, i4, step_up, step_up1, step_down]
            · simp [rrun, riscv_cbneMemcpyStore, signExtend_inj hn, h_v, h_expect, h_dst, h_src, h_len, h_newv, f_v, f_expect, f_dst, f_src, f_len, f_newv, f0, hp, hc, i2, i3, i4, step_up, step_up1, step_down]
            · simp [rrun, riscv_cbneMemcpyStore, signExtend_inj hn, h_v, h_expect, h_dst, h_src, h_len, h_newv, f_v, f_expect, f_dst, f_src, f_len, f_newv, f0, hp, hc, i2, i3, i4, step_up, step_up1, step_down]
            · intro x x1 x2 x3 x4
              have := i5 x x1 x2 x3 x4
              simp at x4
              simp [rrun, riscv_cbneMemcpyStore, signExtend_inj hn, h_v, h_expect, h_dst, h_src, h_len, h_newv, f_v, f_expect, f_dst, f_src, f_len, f_newv, f0, hp, hc, x1, x2, x3, x4, this]
            · simp [rrun, riscv_cbneMemcpyStore]
            · intro x hx
              simp [rrun, riscv_cbneMemcpyStore, signExtend_inj hn, h_v, h_expect, h_dst, h_src, h_len, h_newv, f_v, f_expect, f_dst, f_src, f_len, f_newv, f0, hp, hc, i2, i3, i4, step_up, step_up1, step_down] at hx
              grind)
          (l, fun _ => False) (by
            refine ⟨9, ?_, ?_, ?_, ?_, ?_, ?_, ?_, ?_⟩
            · simp [rrun, riscv_cbneMemcpyStore, signExtend_inj hn, h_v, h_expect, h_dst, h_src, h_len, h_newv, f_v, f_expect, f_dst, f_src, f_len, f_newv, f0, hp, hc, he, h0]
              try grind
            · simp [rrun, riscv_cbneMemcpyStore, signExtend_inj hn, h_v, h_expect, h_dst, h_src, h_len, h_newv, f_v, f_expect, f_dst, f_src, f_len, f_newv, f0, hp, hc, he, h0, hpos]
            · simp [rrun, riscv_cbneMemcpyStore, signExtend_inj hn, h_v, h_expect, h_dst, h_src, h_len, h_newv, f_v, f_expect, f_dst, f_src, f_len, f_newv, f0, hp, hc, he, h0]
            · simp [rrun, riscv_cbneMemcpyStore, signExtend_inj hn, h_v, h_expect, h_dst, h_src, h_len, h_newv, f_v, f_expect, f_dst, f_src, f_len, f_newv, f0, hp, hc, he, h0]
            · simp [rrun, riscv_cbneMemcpyStore, signExtend_inj hn, h_v, h_expect, h_dst, h_src, h_len, h_newv, f_v, f_expect, f_dst, f_src, f_len, f_newv, f0, hp, hc, he, h0]
            · intro x x1 x2 x3 x4
              simp at x4
              simp [rrun, riscv_cbneMemcpyStore, signExtend_inj hn, h_v, h_expect, h_dst, h_src, h_len, h_newv, f_v, f_expect, f_dst, f_src, f_len, f_newv, f0, hp, hc, he, h0, x1, x2, x3, x4]
            · simp [rrun, riscv_cbneMemcpyStore, signExtend_inj hn, h_v, h_expect, h_dst, h_src, h_len, h_newv, f_v, f_expect, f_dst, f_src, f_len, f_newv, f0, hp, hc, he, h0]
            · intro x hx
              simp [rrun, riscv_cbneMemcpyStore, signExtend_inj hn, h_v, h_expect, h_dst, h_src, h_len, h_newv, f_v, f_expect, f_dst, f_src, f_len, f_newv, f0, hp, hc, he, h0] at hx
              try grind)
        apply OKs.all (k := k + 6)
        refine hk1.finish ?_
        generalize cit (riscv_cbneMemcpyStore al be csa) fv m k (l, fun _ => False) = s1 at hk
        obtain ⟨⟨R, S, z, pc⟩, F⟩ := s1
        obtain ⟨i1, i2, i3, i4, i5, i6, i7⟩ := hk
        simp only [Nat.lt_irrefl, if_false] at i1 i2 i3 i4 i5 i6 i7
        subst i1 i6
        have j1 : R (al .v) = v := (i5 (al .v) (by simp [*]) (by simp [*]) (by simp [*]) (by simp [*])).trans h_v
        have j2 : R (al .newv) = newv :=
          (i5 (al .newv) (by simp [*]) (by simp [*]) (by simp [*]) (by simp [*])).trans h_newv
        simp [rrun, riscv_cbneMemcpyStore, signExtend_inj hn, h_v, h_expect, h_dst, h_src, h_len, h_newv, f_v, f_expect, f_dst, f_src, f_len, f_newv, f0, hp, hc, j1, j2]
        try grind
    · have he2 := Ne.symm he
      exact OKs.all (k := 20) (by simp [rrun, riscv_cbneMemcpyStore, signExtend_inj hn, h_v, h_expect, h_dst, h_src, h_len, h_newv, f_v, f_expect, f_dst, f_src, f_len, f_newv, f0, hp, hc, he, he2] <;> grind)
  · have hne2 := Ne.symm hfv
    exact OKs.all (k := 20) (by simp [rrun, riscv_cbneMemcpyStore, signExtend_inj hn, h_v, h_expect, h_dst, h_src, h_len, h_newv, f_v, f_expect, f_dst, f_src, f_len, f_newv, f0, hp, hc, hfv, hne2] <;> grind)

theorem riscv_cbneMemcpyStore_rel_foot (hn : 4 ≤ n) (al : Opnd → Nat) (be : Bool)
    (csa v expect dst src len newv : W n) (ht : ∀ x, InRange dst len x → ¬ InWord v x)
    (hno : NoOverlap dst src len) :
    FootOK (riscv_cbneMemcpyStore_rel al be csa) [t6, t5, t4, t3] true al
      (.cbneMemcpyStore v expect dst src len newv) := by
  intro cpu fv l m h
  have h_v := h.reg .v _ rfl
  have f_v := h.free .v _ rfl
  have h_expect := h.reg .expect _ rfl
  have f_expect := h.free .expect _ rfl
  have h_dst := h.reg .dst _ rfl
  have f_dst := h.free .dst _ rfl
  have h_src := h.reg .src _ rfl
  have f_src := h.free .src _ rfl
  have h_len := h.reg .len _ rfl
  have f_len := h.free .len _ rfl
  have h_newv := h.reg .newv _ rfl
  have f_newv := h.free .newv _ rfl
  have f0 := h.freeCpu
  have hp := h.pc
  have hc := h.cpuS rfl
  simp [rregs] at f0 f_v f_expect f_dst f_src f_len f_newv
  by_cases hfv : fv = cpu
  · subst hfv
    by_cases he : ldw be m v = expect
    · by_cases h0 : len = 0#(8 * n)
      · exact OKs.all (k := 20) (by simp [rrun, riscv_cbneMemcpyStore_rel, signExtend_inj hn, h_v, h_expect, h_dst, h_src, h_len, h_newv, f_v, f_expect, f_dst, f_src, f_len, f_newv, f0, hp, hc, he, h0] <;> grind)
      · have hpos : 0 < len.toNat := by
          have := mt (len_zero_iff len).2 h0; omega
        obtain ⟨k, hk1, hk⟩ := loopF (riscv_cbneMemcpyStore_rel al be csa) fv
          (.cbneMemcpyStore v expect dst src len newv) m
          (LoopF 9 15 30 29 31 [31, 30, 29, 28] l.regs
            l.slots src dst v src dst len) len.toNat
          (by
            rintro j ⟨⟨R, S, z, pc⟩, F⟩ hj ⟨i1, i2, i3, i4, i5, i6, i7⟩
            simp only [hj, if_true] at i1 i2 i3 i4 i5 i6 i7
            subst i1 i6
            have g1 := inRange_add src len j hj
            have g2 := inRange_add dst len j hj
            have g3 := dst_not_src hno hj
            have g4 : ¬ F (dst + BitVec.ofNat (8 * n) j) := by
              intro hF
              rcases i7 _ hF with h | h | h
              · exact ht _ g2.1 h
              · exact g3.1 h
              · omega
            refine ⟨6, ?_, ?_, ?_, ?_, ?_, ?_, ?_, ?_⟩
            · simp [rrun, riscv_cbneMemcpyStore_rel, signExtend_inj hn, h_v, h_expect, h_dst, h_src, h_len, h_newv, f_v, f_expect, f_dst, f_src, f_len, f_newv, f0, hp, hc, i2, i3, i4, step_up, step_up1, step_down, g1.1, g2.1, g3.2, g4]
            · simp [rrun, riscv_cbneMemcpyStore_rel, signExtend_inj hn, h_v, h_expect, h_dst, h_src, h_len, h_newv, f_v, f_expect, f_dst, f_src, f_len, f_newv, f0, hp, hc, i2, i3, i4, step_up, step_up1, step_down, left_zero len j hj]
              grind
            · simp [rrun, riscv_cbneMemcpyStore_rel, signExtend_inj hn, h_v, h_expect, h_dst, h_src, h_len, h_newv, f_v, f_expect, f_dst, f_src, f_len, f_newv, f0, hp, hc, i2, i3, i4, step_up, step_up1, step_down]
            · simp [rrun, riscv_cbneMemcpyStore_rel, signExtend_inj hn, h_v, h_expect, h_dst, h_src, h_len, h_newv, f_v, f_expect, f_dst, f_src, f_len, f_newv, f0, hp, hc, i2, i3, i4, step_up, step_up1, step_down]
            · simp [rrun, riscv_cbneMemcpyStore_rel, signExtend_inj hn, h_v, h_expect, h_dst, h_src, h_len, h_newv, f_v, f_expect, f_dst, f_src, f_len, f_newv, f0, hp, hc, i2, i3, i4, step_up, step_up1, step_down]
            · intro x x1 x2 x3 x4
              have := i5 x x1 x2 x3 x4
              simp at x4
              simp [rrun, riscv_cbneMemcpyStore_rel, signExtend_inj hn, h_v, h_expect, h_dst, h_src, h_len, h_newv, f_v, f_expect, f_dst, f_src, f_len, f_newv, f0, hp, hc, x1, x2, x3, x4, this]
            · simp [rrun, riscv_cbneMemcpyStore_rel]
            · intro x hx
              simp [rrun, riscv_cbneMemcpyStore_rel, signExtend_inj hn, h_v, h_expect, h_dst, h_src, h_len, h_newv, f_v, f_expect, f_dst, f_src, f_len, f_newv, f0, hp, hc, i2, i3, i4, step_up, step_up1, step_down] at hx
              grind)
          (l, fun _ => False) (by
            refine ⟨9, ?_, ?_, ?_, ?_, ?_, ?_, ?_, ?_⟩
            · simp [rrun, riscv_cbneMemcpyStore_rel, signExtend_inj hn, h_v, h_expect, h_dst, h_src, h_len, h_newv, f_v, f_expect, f_dst, f_src, f_len, f_newv, f0, hp, hc, he, h0]
              try grind
            · simp [rrun, riscv_cbneMemcpyStore_rel, signExtend_inj hn, h_v, h_expect, h_dst, h_src, h_len, h_newv, f_v, f_expect, f_dst, f_src, f_len, f_newv, f0, hp, hc, he, h0, hpos]
            · simp [rrun, riscv_cbneMemcpyStore_rel, signExtend_inj hn, h_v, h_expect, h_dst, h_src, h_len, h_newv, f_v, f_expect, f_dst, f_src, f_len, f_newv, f0, hp, hc, he, h0]
            · simp [rrun, riscv_cbneMemcpyStore_rel, signExtend_inj hn, h_v, h_expect, h_dst, h_src, h_len, h_newv, f_v, f_expect, f_dst, f_src, f_len, f_newv, f0, hp, hc, he, h0]
            · simp [rrun, riscv_cbneMemcpyStore_rel, signExtend_inj hn, h_v, h_expect, h_dst, h_src, h_len, h_newv, f_v, f_expect, f_dst, f_src, f_len, f_newv, f0, hp, hc, he, h0]
            · intro x x1 x2 x3 x4
              simp at x4
              simp [rrun, riscv_cbneMemcpyStore_rel, signExtend_inj hn, h_v, h_expect, h_dst, h_src, h_len, h_newv, f_v, f_expect, f_dst, f_src, f_len, f_newv, f0, hp, hc, he, h0, x1, x2, x3, x4]
            · simp [rrun, riscv_cbneMemcpyStore_rel, signExtend_inj hn, h_v, h_expect, h_dst, h_src, h_len, h_newv, f_v, f_expect, f_dst, f_src, f_len, f_newv, f0, hp, hc, he, h0]
            · intro x hx
              simp [rrun, riscv_cbneMemcpyStore_rel, signExtend_inj hn, h_v, h_expect, h_dst, h_src, h_len, h_newv, f_v, f_expect, f_dst, f_src, f_len, f_newv, f0, hp, hc, he, h0] at hx
              try grind)
        apply OKs.all (k := k + 6)
        refine hk1.finish ?_
        generalize cit (riscv_cbneMemcpyStore_rel al be csa) fv m k (l, fun _ => False) = s1 at hk
        obtain ⟨⟨R, S, z, pc⟩, F⟩ := s1
        obtain ⟨i1, i2, i3, i4, i5, i6, i7⟩ := hk
        simp only [Nat.lt_irrefl, if_false] at i1 i2 i3 i4 i5 i6 i7
        subst i1 i6
        have j1 : R (al .v) = v := (i5 (al .v) (by simp [*]) (by simp [*]) (by simp [*]) (by simp [*])).trans h_v
        have j2 : R (al .newv) = newv :=
          (i5 (al .newv) (by simp [*]) (by simp [*]) (by simp [*]) (by simp [*])).trans h_newv
        simp [rrun, riscv_cbneMemcpyStore_rel, signExtend_inj hn, h_v, h_expect, h_dst, h_src, h_len, h_newv, f_v, f_expect, f_dst, f_src, f_len, f_newv, f0, hp, hc, j1, j2]
        try grind
    · have he2 := Ne.symm he
      exact OKs.all (k := 20) (by simp [rrun, riscv_cbneMemcpyStore_rel, signExtend_inj hn, h_v, h_expect, h_dst, h_src, h_len, h_newv, f_v, f_expect, f_dst, f_src, f_len, f_newv, f0, hp, hc, he, he2] <;> grind)
  · have hne2 := Ne.symm hfv
    exact OKs.all (k := 20) (by simp [rrun, riscv_cbneMemcpyStore_rel, signExtend_inj hn, h_v, h_expect, h_dst, h_src, h_len, h_newv, f_v, f_expect, f_dst, f_src, f_len, f_newv, f0, hp, hc, hfv, hne2] <;> grind)

theorem ppc_cbneMemcpyStore_foot (hn : 4 ≤ n) (al : Opnd → Nat) (be : Bool)
    (csa v expect dst src len newv : W n) (ht : ∀ x, InRange dst len x → ¬ InWord v x)
    (hno : NoOverlap dst src len) :
    FootOK (ppc_cbneMemcpyStore al be csa) [r17, r18, r19, r20, r21] false al
      (.cbneMemcpyStore v expect dst src len newv) := by
  intro cpu fv l m h
  have h_v := h.reg .v _ rfl
  have f_v := h.free .v _ rfl
  have h_expect := h.reg .expect _ rfl
  have f_expect := h.free .expect _ rfl
  have h_dst := h.reg .dst _ rfl
  have f_dst := h.free .dst _ rfl
  have h_src := h.reg .src _ rfl
  have f_src := h.free .src _ rfl
  have h_len := h.reg .len _ rfl
  have f_len := h.free .len _ rfl
  have h_newv := h.reg .newv _ rfl
  have f_newv := h.free .newv _ rfl
  have f0 := h.freeCpu
  have hp := h.pc
  have hc := h.cpuV
  simp [rregs] at f0 f_v f_expect f_dst f_src f_len f_newv
  by_cases hfv : fv = cpu
  · subst hfv
    by_cases he : ldw be m v = expect
    · by_cases h0 : len = 0#(8 * n)
      · exact OKs.all (k := 20) (by simp [rrun, ppc_cbneMemcpyStore, setWidth32_setWidth hn, h_v, h_expect, h_dst, h_src, h_len, h_newv, f_v, f_expect, f_dst, f_src, f_len, f_newv, f0, hp, hc, he, h0] <;> grind)
      · have hpos : 0 < len.toNat := by
          have := mt (len_zero_iff len).2 h0; omega
        obtain ⟨k, hk1, hk⟩ := loopF (ppc_cbneMemcpyStore al be csa) fv
          (.cbneMemcpyStore v expect dst src len newv) m
          (LoopF 14 19 20 21 19 [17, 18, 19, 20, 21] l.regs
            l.slots (src + BitVec.ofInt (8 * n) (-1)) (dst + BitVec.ofInt (8 * n) (-1)) v src dst len) len.toNat
          (by
            rintro j ⟨⟨R, S, z, pc⟩, F⟩ hj ⟨i1, i2, i3, i4, i5, i6, i7⟩
            simp only [hj, if_true] at i1 i2 i3 i4 i5 i6 i7
            subst i1 i6
            have g1 := inRange_add src len j hj
            have g2 := inRange_add dst len j hj
            have g3 := dst_not_src hno hj
            have g4 : ¬ F (dst + BitVec.ofNat (8 * n) j) := by
              intro hF
              rcases i7 _ hF with h | h | h
              · exact ht _ g2.1 h
              · exact g3.1 h
              · omega
            refine ⟨5, ?_, ?_, ?_, ?_, ?_, ?_, ?_, ?_⟩
            · simp [rrun, ppc_cbneMemcpyStore, setWidth32_setWidth hn, h_v, h_expect, h_dst, h_src, h_len, h_newv, f_v, f_expect, f_dst, f_src, f_len, f_newv, f0, hp, hc, i2, i3, i4, step_up, step_up1, step_down, pred_up1, g1.1, g2.1, g3.2, g4]
            · simp [rrun, ppc_cbneMemcpyStore, setWidth32_setWidth hn, h_v, h_expect, h_dst, h_src, h_len, h_newv, f_v, f_expect, f_dst, f_src, f_len, f_newv, f0, hp, hc, i2, i3, i4, step_up, step_up1, step_down, pred_up1, left_zero len j hj]
              grind
            · simp [rrun, ppc_cbneMemcpyStore, setWidth32_setWidth hn, h_v, h_expect, h_dst, h_src, h_len, h_newv, f_v, f_expect, f_dst, f_src, f_len, f_newv, f0, hp, hc, i2, i3, i4, step_up, step_up1, step_down, pred_up1]
            · simp [rrun, ppc_cbneMemcpyStore, setWidth32_setWidth hn, h_v, h_expect, h_dst, h_src, h_len, h_newv, f_v, f_expect, f_dst, f_src, f_len, f_newv, f0, hp, hc, i2, i3, i4, step_up, step_up1, step_down, pred_up1]
            · simp [rrun, ppc_cbneMemcpyStore, setWidth32_setWidth hn, h_v, h_expect, h_dst, h_src, h_len, h_newv, f_v, f_expect, f_dst, f_src, f_len, f_newv, f0, hp, hc, i2, i3, i4, step_up, step_up1, step_down, pred_up1]
            · intro x x1 x2 x3 x4
              have := i5 x x1 x2 x3 x4
              simp at x4
              simp [rrun, ppc_cbneMemcpyStore, setWidth32_setWidth hn, h_v, h_expect, h_dst, h_src, h_len, h_newv, f_v, f_expect, f_dst, f_src, f_len, f_newv, f0, hp, hc, x1, x2, x3, x4, this]
            · simp [rrun, ppc_cbneMemcpyStore]
            · intro x hx
              simp [rrun, ppc_cbneMemcpyStore, setWidth32_setWidth hn, h_v, h_expect, h_dst, h_src, h_len, h_newv, f_v, f_expect, f_dst, f_src, f_len, f_newv, f0, hp, hc, i2, i3, i4, step_up, step_up1, step_down, pred_up1] at hx
              grind)
          (l, fun _ => False) (by
            refine ⟨14, ?_, ?_, ?_, ?_, ?_, ?_, ?_, ?_⟩
            · simp [rrun, ppc_cbneMemcpyStore, setWidth32_setWidth hn, h_v, h_expect, h_dst, h_src, h_len, h_newv, f_v, f_expect, f_dst, f_src, f_len, f_newv, f0, hp, hc, he, h0]
              try grind
            · simp [rrun, ppc_cbneMemcpyStore, setWidth32_setWidth hn, h_v, h_expect, h_dst, h_src, h_len, h_newv, f_v, f_expect, f_dst, f_src, f_len, f_newv, f0, hp, hc, he, h0, hpos]
            · simp [rrun, ppc_cbneMemcpyStore, setWidth32_setWidth hn, h_v, h_expect, h_dst, h_src, h_len, h_newv, f_v, f_expect, f_dst, f_src, f_len, f_newv, f0, hp, hc, he, h0]
            · simp [rrun, ppc_cbneMemcpyStore, setWidth32_setWidth hn, h_v, h_expect, h_dst, h_src, h_len, h_newv, f_v, f_expect, f_dst, f_src, f_len, f_newv, f0, hp, hc, he, h0]
            · simp [rrun, ppc_cbneMemcpyStore, setWidth32_setWidth hn, h_v, h_expect, h_dst, h_src, h_len, h_newv, f_v, f_expect, f_dst, f_src, f_len, f_newv, f0, hp, hc, he, h0]
            · intro x x1 x2 x3 x4
              simp at x4
              simp [rrun, ppc_cbneMemcpyStore, setWidth32_setWidth hn, h_v, h_expect, h_dst, h_src, h_len, h_newv, f_v, f_expect, f_dst, f_src, f_len, f_newv, f0, hp, hc, he, h0, x1, x2, x3, x4]
            · simp [rrun, ppc_cbneMemcpyStore, setWidth32_setWidth hn, h_v, h_expect, h_dst, h_src, h_len, h_newv, f_v, f_expect, f_dst, f_src, f_len, f_newv, f0, hp, hc, he, h0]
            · intro x hx
              simp [rrun, ppc_cbneMemcpyStore, setWidth32_setWidth hn, h_v, h_expect, h_dst, h_src, h_len, h_newv, f_v, f_expect, f_dst, f_src, f_len, f_newv, f0, hp, hc, he, h0] at hx
              try grind)
        apply OKs.all (k := k + 6)
        refine hk1.finish ?_
        generalize cit (ppc_cbneMemcpyStore al be csa) fv m k (l, fun _ => False) = s1 at hk
        obtain ⟨⟨R, S, z, pc⟩, F⟩ := s1
        obtain ⟨i1, i2, i3, i4, i5, i6, i7⟩ := hk
        simp only [Nat.lt_irrefl, if_false] at i1 i2 i3 i4 i5 i6 i7
        subst i1 i6
        have j1 : R (al .v) = v := (i5 (al .v) (by simp [*]) (by simp [*]) (by simp [*]) (by simp [*])).trans h_v
        have j2 : R (al .newv) = newv :=
          (i5 (al .newv) (by simp [*]) (by simp [*]) (by simp [*]) (by simp [*])).trans h_newv
        simp [rrun, ppc_cbneMemcpyStore, setWidth32_setWidth hn, h_v, h_expect, h_dst, h_src, h_len, h_newv, f_v, f_expect, f_dst, f_src, f_len, f_newv, f0, hp, hc, j1, j2]
        try grind
    · have he2 := Ne.symm he
      exact OKs.all (k := 20) (by simp [rrun, ppc_cbneMemcpyStore, setWidth32_setWidth hn, h_v, h_expect, h_dst, h_src, h_len, h_newv, f_v, f_expect, f_dst, f_src, f_len, f_newv, f0, hp, hc, he, he2] <;> grind)
  · have hne2 := Ne.symm hfv
    exact OKs.all (k := 20) (by simp [rrun, ppc_cbneMemcpyStore, setWidth32_setWidth hn, h_v, h_expect, h_dst, h_src, h_len, h_newv, f_v, f_expect, f_dst, f_src, f_len, f_newv, f0, hp, hc, hfv, hne2] <;> grind)

theorem ppc_cbneMemcpyStore_rel_foot (hn : 4 ≤ n) (al : Opnd → Nat) (be : Bool)
    (csa v expect dst src len newv : W n) (ht : ∀ x, InRange dst len x → ¬ InWord v x)
    (hno : NoOverlap dst src len) :
    FootOK (ppc_cbneMemcpyStore_rel al be csa) [r17, r18, r19, r20, r21] false al
      (.cbneMemcpyStore v expect dst src len newv) := by
  intro cpu fv l m h
  have h_v := h.reg .v _ rfl
  have f_v := h.free .v _ rfl
  have h_expect := h.reg .expect _ rfl
  have f_expect := h.free .expect _ rfl
  have h_dst := h.reg .dst _ rfl
  have f_dst := h.free .dst _ rfl
  have h_src := h.reg .src _ rfl
  have f_src := h.free .src _ rfl
  have h_len := h.reg .len _ rfl
  have f_len := h.free .len _ rfl
  have h_newv := h.reg .newv _ rfl
  have f_newv := h.free .newv _ rfl
  have f0 := h.freeCpu
  have hp := h.pc
  have hc := h.cpuV
  simp [rregs] at f0 f_v f_expect f_dst f_src f_len f_newv
  by_cases hfv : fv = cpu
  · subst hfv
    by_cases he : ldw be m v = expect
    · by_cases h0 : len = 0#(8 * n)
      · exact OKs.all (k := 20) (by simp [rrun, ppc_cbneMemcpyStore_rel, setWidth32_setWidth hn, h_v, h_expect, h_dst, h_src, h_len, h_newv, f_v, f_expect, f_dst, f_src, f_len, f_newv, f0, hp, hc, he, h0] <;> grind)
      · have hpos : 0 < len.toNat := by
          have := mt (len_zero_iff len).2 h0; omega
        obtain ⟨k, hk1, hk⟩ := loopF (ppc_cbneMemcpyStore_rel al be csa) fv
          (.cbneMemcpyStore v expect dst src len newv) m
          (LoopF 14 19 20 21 19 [17, 18, 19, 20, 21] l.regs
            l.slots (src + BitVec.ofInt (8 * n) (-1)) (dst + BitVec.ofInt (8 * n) (-1)) v src dst len) len.toNat
          (by
            rintro j ⟨⟨R, S, z, pc⟩, F⟩ hj ⟨i1, i2, i3, i4, i5, i6, i7⟩
            simp only [hj, if_true] at i1 i2 i3 i4 i5 i6 i7
            subst i1 i6
            have g1 := inRange_add src len j hj
            have g2 := inRange_add dst len j hj
            have g3 := dst_not_src hno hj
            have g4 : ¬ F (dst + BitVec.ofNat (8 * n) j) := by
              intro hF
              rcases i7 _ hF with h | h | h
              · exact ht _ g2.1 h
              · exact g3.1 h
              · omega
            refine ⟨5, ?_, ?_, ?_, ?_, ?_, ?_, ?_, ?_⟩
            · simp [rrun, ppc_cbneMemcpyStore_rel, setWidth32_setWidth hn, h_v, h_expect, h_dst, h_src, h_len, h_newv, f_v, f_expect, f_dst, f_src, f_len, f_newv, f0, hp, hc, i2, i3, i4, step_up, step_up1, step_down, pred_up1, g1.1, g2.1, g3.2, g4]
            · simp [rrun, ppc_cbneMemcpyStore_rel, setWidth32_setWidth hn, h_v, h_expect, h_dst, h_src, h_len, h_newv, f_v, f_expect, f_dst, f_src, f_len, f_newv, f0, hp, hc, i2, i3, i4, step_up, step_up1, step_down, pred_up1, left_zero len j hj]
              grind
            · simp [rrun, ppc_cbneMemcpyStore_rel, setWidth32_setWidth hn, h_v, h_expect, h_dst, h_src, h_len, h_newv, f_v, f_expect, f_dst, f_src, f_len, f_newv, f0, hp, hc, i2, i3, i4, step_up, step_up1, step_down, pred_up1]
            · simp [rrun, ppc_cbneMemcpyStore_rel, setWidth32_setWidth hn, h_v, h_expect, h_dst, h_src, h_len, h_newv, f_v, f_expect, f_dst, f_src, f_len, f_newv, f0, hp, hc, i2, i3, i4, step_up, step_up1, step_down, pred_up1]
            · simp [rrun, ppc_cbneMemcpyStore_rel, setWidth32_setWidth hn, h_v, h_expect, h_dst, h_src, h_len, h_newv, f_v, f_expect, f_dst, f_src, f_len, f_newv, f0, hp, hc, i2, i3, i4, step_up, step_up1, step_down, pred_up1]
            · intro x x1 x2 x3 x4
              have := i5 x x1 x2 x3 x4
              simp at x4
              simp [rrun, ppc_cbneMemcpyStore_rel, setWidth32_setWidth hn, h_v, h_expect, h_dst, h_src, h_len, h_newv, f_v, f_expect, f_dst, f_src, f_len, f_newv, f0, hp, hc, x1, x2, x3, x4, this]
            · simp [rrun, ppc_cbneMemcpyStore_rel]
            · intro x hx
              simp [rrun, ppc_cbneMemcpyStore_rel, setWidth32_setWidth hn, h_v, h_expect, h_dst, h_src, h_len, h_newv, f_v, f_expect, f_dst, f_src, f_len, f_newv, f0, hp, hc, i2, i3, i4, step_up, step_up1, step_down, pred_up1] at hx
              grind)
          (l, fun _ => False) (by
            refine ⟨14, ?_, ?_, ?_, ?_, ?_, ?_, ?_, ?_⟩
            · simp [rrun, ppc_cbneMemcpyStore_rel, setWidth32_setWidth hn, h_v, h_expect, h_dst, h_src, h_len, h_newv, f_v, f_expect, f_dst, f_src, f_len, f_newv, f0, hp, hc, he, h0]
              try grind
            · simp [rrun, ppc_cbneMemcpyStore_rel, setWidth32_setWidth hn, h_v, h_expect, h_dst, h_src, h_len, h_newv, f_v, f_expect, f_dst, f_src, f_len, f_newv, f0, hp, hc, he, h0, hpos]
            · simp [rrun, ppc_cbneMemcpyStore_rel, setWidth32_setWidth hn, h_v, h_expect, h_dst, h_src, h_len, h_newv, f_v, f_expect, f_dst, f_src, f_len, f_newv, f0, hp, hc, he, h0]
            · simp [rrun, ppc_cbneMemcpyStore_rel, setWidth32_setWidth hn, h_v, h_expect, h_dst, h_src, h_len, h_newv, f_v, f_expect, f_dst, f_src, f_len, f_newv, f0, hp, hc, he, h0]
            · simp [rrun, ppc_cbneMemcpyStore_rel, setWidth32_setWidth hn, h_v, h_expect, h_dst, h_src, h_len, h_newv, f_v, f_expect, f_dst, f_src, f_len, f_newv, f0, hp, hc, he, h0]
            · intro x x1 x2 x3 x4
              simp at x4
              simp [rrun, ppc_cbneMemcpyStore_rel, setWidth32_setWidth hn, h_v, h_expect, h_dst, h_src, h_len, h_newv, f_v, f_expect, f_dst, f_src, f_len, f_newv, f0, hp, hc, he, h0, x1, x2, x3, x4]
            · simp [rrun, ppc_cbneMemcpyStore_rel, setWidth32_setWidth hn, h_v, h_expect, h_dst, h_src, h_len, h_newv, f_v, f_expect, f_dst, f_src, f_len, f_newv, f0, hp, hc, he, h0]
            · intro x hx
              simp [rrun, ppc_cbneMemcpyStore_rel, setWidth32_setWidth hn, h_v, h_expect, h_dst, h_src, h_len, h_newv, f_v, f_expect, f_dst, f_src, f_len, f_newv, f0, hp, hc, he, h0] at hx
              try grind)
        apply OKs.all (k := k + 6)
        refine hk1.finish ?_
        generalize cit (ppc_cbneMemcpyStore_rel al be csa) fv m k (l, fun _ => False) = s1 at hk
        obtain ⟨⟨R, S, z, pc⟩, F⟩ := s1
        obtain ⟨i1, i2, i3, i4, i5, i6, i7⟩ := hk
        simp only [Nat.lt_irrefl, if_false] at i1 i2 i3 i4 i5 i6 i7
        subst i1 i6
        have j1 : R (al .v) = v := (i5 (al .v) (by simp [*]) (by simp [*]) (by simp [*]) (by simp [*])).trans h_v
        have j2 : R (al .newv) = newv :=
          (i5 (al .newv) (by simp [*]) (by simp [*]) (by simp [*]) (by simp [*])).trans h_newv
        simp [rrun, ppc_cbneMemcpyStore_rel, setWidth32_setWidth hn, h_v, h_expect, h_dst, h_src, h_len, h_newv, f_v, f_expect, f_dst, f_src, f_len, f_newv, f0, hp, hc, j1, j2]
        try grind
    · have he2 := Ne.symm he
      exact OKs.all (k := 20) (by simp [rrun, ppc_cbneMemcpyStore_rel, setWidth32_setWidth hn, h_v, h_expect, h_dst, h_src, h_len, h_newv, f_v, f_expect, f_dst, f_src, f_len, f_newv, f0, hp, hc, he, he2] <;> grind)
  · have hne2 := Ne.symm hfv
    exact OKs.all (k := 20) (by simp [rrun, ppc_cbneMemcpyStore_rel, setWidth32_setWidth hn, h_v, h_expect, h_dst, h_src, h_len, h_newv, f_v, f_expect, f_dst, f_src, f_len, f_newv, f0, hp, hc, hfv, hne2] <;> grind)

theorem s390_cbneMemcpyStore_foot (hn : 4 ≤ n) (al : Opnd → Nat) (be : Bool)
    (csa v expect dst src len newv : W n) (ht : ∀ x, InRange dst len x → ¬ InWord v x)
    (hno : NoOverlap dst src len) (ho : OwnRegs al) :
    FootOK (s390_cbneMemcpyStore al be csa) [g0] false al
      (.cbneMemcpyStore v expect dst src len newv) := by
  intro cpu fv l m h
  have h_v := h.reg .v _ rfl
  have f_v := h.free .v _ rfl
  have h_expect := h.reg .expect _ rfl
  have f_expect := h.free .expect _ rfl
  have h_dst := h.reg .dst _ rfl
  have f_dst := h.free .dst _ rfl
  have h_src := h.reg .src _ rfl
  have f_src := h.free .src _ rfl
  have h_len := h.reg .len _ rfl
  have f_len := h.free .len _ rfl
  have h_newv := h.reg .newv _ rfl
  have f_newv := h.free .newv _ rfl
  have f0 := h.freeCpu
  have hp := h.pc
  have hc := h.cpuV
  obtain ⟨o1, o2, o3, o4, o5, o6, o7, o8, o9⟩ := ho
  have q1 := Ne.symm o1
  have q2 := Ne.symm o2
  have q3 := Ne.symm o3
  have q4 := Ne.symm o4
  have q5 := Ne.symm o5
  have q6 := Ne.symm o6
  have q7 := Ne.symm o7
  have q8 := Ne.symm o8
  have q9 := Ne.symm o9
  simp [rregs] at f0 f_v f_expect f_dst f_src f_len f_newv
  by_cases hfv : fv = cpu
  · subst hfv
    by_cases he : ldw be m v = expect
    · by_cases h0 : len = 0#(8 * n)
      · exact OKs.all (k := 20) (by simp [rrun, s390_cbneMemcpyStore, h_v, h_expect, h_dst, h_src, h_len, h_newv, f_v, f_expect, f_dst, f_src, f_len, f_newv, f0, hp, hc, o1, q1, o2, q2, o3, q3, o4, q4, o5, q5, o6, q6, o7, q7, o8, q8, o9, q9, he, h0] <;> grind)
      · have hpos : 0 < len.toNat := by
          have := mt (len_zero_iff len).2 h0; omega
        obtain ⟨k, hk1, hk⟩ := loopF (s390_cbneMemcpyStore al be csa) fv
          (.cbneMemcpyStore v expect dst src len newv) m
          (LoopF 10 16 (al .src) (al .dst) (al .len) [0] l.regs
            (upd (upd (upd l.slots 100 src) 101 dst) 102 len) src dst v src dst len) len.toNat
          (by
            rintro j ⟨⟨R, S, z, pc⟩, F⟩ hj ⟨i1, i2, i3, i4, i5, i6, i7⟩
            simp only [hj, if_true] at i1 i2 i3 i4 i5 i6 i7
            subst i1 i6
            have g1 := inRange_add src len j hj
            have g2 := inRange_add dst len j hj
            have g3 := dst_not_src hno hj
            have g4 : ¬ F (dst + BitVec.ofNat (8 * n) j) := by
              intro hF
              rcases i7 _ hF with h | h | h
              · exact ht _ g2.1 h
              · exact g3.1 h
              · omega
            refine ⟨6, ?_, ?_, ?_, ?_, ?_, ?_, ?_, ?_⟩
            · simp [rrun, s390_cbneMemcpyStore, h_v, h_expect, h_dst, h_src, h_len, h_newv, f_v, f_expect, f_dst, f_src, f_len, f_newv, f0, hp, hc, o1, q1, o2, q2, o3, q3, o4, q4, o5, q5, o6, q6, o7, q7, o8, q8, o9, q9, i2, i3, i4, step_up, step_up1, step_down, g1.1, g2.1, g3.2, g4]
            · simp [rrun, s390_cbneMemcpyStore, h_v, h_expect, h_dst, h_src, h_len, h_newv, f_v, f_expect, f_dst, f_src, f_len, f_newv, f0, hp, hc, o1, q1, o2, q2, o3, q3, o4, q4, o5, q5, o6, q6, o7, q7, o8, q8, o9, q9, i2, i3, i4, step_up, step_up1, step_down, left_zero len j hj]
              grind
            · simp [rrun, s390_cbneMemcpyStore, h_v, h_expect, h_dst, h_src, h_len, h_newv, f_v, f_expect, f_dst, f_src, f_len, f_newv, f0, hp, hc, o1, q1, o2, q2, o3, q3, o4, q4, o5, q5, o6, q6, o7, q7, o8, q8, o9, q9, i2, i3, i4, step_up, step_up1, step_down]
            · simp [rrun, s390_cbneMemcpyStore, h_v, h_expect, h_dst, h_src, h_len, h_newv, f_v, f_expect, f_dst, f_src, f_len, f_newv, f0, hp, hc, o1, q1, o2, q2, o3, q3, o4, q4, o5, q5, o6, q6, o7, q7, o8, q8, o9, q9, i2, i3, i4, step_up, step_up1, step_down]
            · simp [rrun, s390_cbneMemcpyStore, h_v, h_expect, h_dst, h_src, h_len, h_newv, f_v, f_expect, f_dst, f_src, f_len, f_newv, f0, hp, hc, o1, q1, o2, q2, o3, q3, o4, q4, o5, q5, o6, q6, o7, q7, o8, q8, o9, q9, i2, i3, i4, step_up, step_up1, step_down]
            · intro x x1 x2 x3 x4
              have := i5 x x1 x2 x3 x4
              simp at x4
              simp [rrun, s390_cbneMemcpyStore, h_v, h_expect, h_dst, h_src, h_len, h_newv, f_v, f_expect, f_dst, f_src, f_len, f_newv, f0, hp, hc, o1, q1, o2, q2, o3, q3, o4, q4, o5, q5, o6, q6, o7, q7, o8, q8, o9, q9, x1, x2, x3, x4, this]
            · simp [rrun, s390_cbneMemcpyStore]
            · intro x hx
              simp [rrun, s390_cbneMemcpyStore, h_v, h_expect, h_dst, h_src, h_len, h_newv, f_v, f_expect, f_dst, f_src, f_len, f_newv, f0, hp, hc, o1, q1, o2, q2, o3, q3, o4, q4, o5, q5, o6, q6, o7, q7, o8, q8, o9, q9, i2, i3, i4, step_up, step_up1, step_down] at hx
              grind)
          (l, fun _ => False) (by
            refine ⟨10, ?_, ?_, ?_, ?_, ?_, ?_, ?_, ?_⟩
            · simp [rrun, s390_cbneMemcpyStore, h_v, h_expect, h_dst, h_src, h_len, h_newv, f_v, f_expect, f_dst, f_src, f_len, f_newv, f0, hp, hc, o1, q1, o2, q2, o3, q3, o4, q4, o5, q5, o6, q6, o7, q7, o8, q8, o9, q9, he, h0]
              try grind
            · simp [rrun, s390_cbneMemcpyStore, h_v, h_expect, h_dst, h_src, h_len, h_newv, f_v, f_expect, f_dst, f_src, f_len, f_newv, f0, hp, hc, o1, q1, o2, q2, o3, q3, o4, q4, o5, q5, o6, q6, o7, q7, o8, q8, o9, q9, he, h0, hpos]
            · simp [rrun, s390_cbneMemcpyStore, h_v, h_expect, h_dst, h_src, h_len, h_newv, f_v, f_expect, f_dst, f_src, f_len, f_newv, f0, hp, hc, o1, q1, o2, q2, o3, q3, o4, q4, o5, q5, o6, q6, o7, q7, o8, q8, o9, q9, he, h0]
            · simp [rrun, s390_cbneMemcpyStore, h_v, h_expect, h_dst, h_src, h_len, h_newv, f_v, f_expect, f_dst, f_src, f_len, f_newv, f0, hp, hc, o1, q1, o2, q2, o3, q3, o4, q4, o5, q5, o6, q6, o7, q7, o8, q8, o9, q9, he, h0]
            · simp [rrun, s390_cbneMemcpyStore, h_v, h_expect, h_dst, h_src, h_len, h_newv, f_v, f_expect, f_dst, f_src, f_len, f_newv, f0, hp, hc, o1, q1, o2, q2, o3, q3, o4, q4, o5, q5, o6, q6, o7, q7, o8, q8, o9, q9, he, h0]
            · intro x x1 x2 x3 x4
              simp at x4
              simp [rrun, s390_cbneMemcpyStore, h_v, h_expect, h_dst, h_src, h_len, h_newv, f_v, f_expect, f_dst, f_src, f_len, f_newv, f0, hp, hc, o1, q1, o2, q2, o3, q3, o4, q4, o5, q5, o6, q6, o7, q7, o8, q8, o9, q9, he, h0, x1, x2, x3, x4]
            · simp [rrun, s390_cbneMemcpyStore, h_v, h_expect, h_dst, h_src, h_len, h_newv, f_v, f_expect, f_dst, f_src, f_len, f_newv, f0, hp, hc, o1, q1, o2, q2, o3, q3, o4, q4, o5, q5, o6, q6, o7, q7, o8, q8, o9, q9, he, h0]
            · intro x hx
              simp [rrun, s390_cbneMemcpyStore, h_v, h_expect, h_dst, h_src, h_len, h_newv, f_v, f_expect, f_dst, f_src, f_len, f_newv, f0, hp, hc, o1, q1, o2, q2, o3, q3, o4, q4, o5, q5, o6, q6, o7, q7, o8, q8, o9, q9, he, h0] at hx
              try grind)
        apply OKs.all (k := k + 6)
        refine hk1.finish ?_
        generalize cit (s390_cbneMemcpyStore al be csa) fv m k (l, fun _ => False) = s1 at hk
        obtain ⟨⟨R, S, z, pc⟩, F⟩ := s1
        obtain ⟨i1, i2, i3, i4, i5, i6, i7⟩ := hk
        simp only [Nat.lt_irrefl, if_false] at i1 i2 i3 i4 i5 i6 i7
        subst i1 i6
        have j1 : R (al .v) = v := (i5 (al .v) (by simp [*]) (by simp [*]) (by simp [*]) (by simp [*])).trans h_v
        have j2 : R (al .newv) = newv :=
          (i5 (al .newv) (by simp [*]) (by simp [*]) (by simp [*]) (by simp [*])).trans h_newv
        simp [rrun, s390_cbneMemcpyStore, h_v, h_expect, h_dst, h_src, h_len, h_newv, f_v, f_expect, f_dst, f_src, f_len, f_newv, f0, hp, hc, o1, q1, o2, q2, o3, q3, o4, q4, o5, q5, o6, q6, o7, q7, o8, q8, o9, q9, j1, j2]
        try grind
    · have he2 := Ne.symm he
      exact OKs.all (k := 20) (by simp [rrun, s390_cbneMemcpyStore, h_v, h_expect, h_dst, h_src, h_len, h_newv, f_v, f_expect, f_dst, f_src, f_len, f_newv, f0, hp, hc, o1, q1, o2, q2, o3, q3, o4, q4, o5, q5, o6, q6, o7, q7, o8, q8, o9, q9, he, he2] <;> grind)
  · have hne2 := Ne.symm hfv
    exact OKs.all (k := 20) (by simp [rrun, s390_cbneMemcpyStore, h_v, h_expect, h_dst, h_src, h_len, h_newv, f_v, f_expect, f_dst, f_src, f_len, f_newv, f0, hp, hc, o1, q1, o2, q2, o3, q3, o4, q4, o5, q5, o6, q6, o7, q7, o8, q8, o9, q9, hfv, hne2] <;> grind)

theorem mips_cbneMemcpyStore_foot (hn : 4 ≤ n) (al : Opnd → Nat) (be : Bool)
    (csa v expect dst src len newv : W n) (ht : ∀ x, InRange dst len x → ¬ InWord v x)
    (hno : NoOverlap dst src len) (ho : OwnRegs al) :
    FootOK (mips_cbneMemcpyStore al be csa) [m4] true al
      (.cbneMemcpyStore v expect dst src len newv) := by
  intro cpu fv l m h
  have h_v := h.reg .v _ rfl
  have f_v := h.free .v _ rfl
  have h_expect := h.reg .expect _ rfl
  have f_expect := h.free .expect _ rfl
  have h_dst := h.reg .dst _ rfl
  have f_dst := h.free .dst _ rfl
  have h_src := h.reg .src _ rfl
  have f_src := h.free .src _ rfl
  have h_len := h.reg .len _ rfl
  have f_len := h.free .len _ rfl
  have h_newv := h.reg .newv _ rfl
  have f_newv := h.free .newv _ rfl
  have f0 := h.freeCpu
  have hp := h.pc
  have hc := h.cpuS rfl
  obtain ⟨o1, o2, o3, o4, o5, o6, o7, o8, o9⟩ := ho
  have q1 := Ne.symm o1
  have q2 := Ne.symm o2
  have q3 := Ne.symm o3
  have q4 := Ne.symm o4
  have q5 := Ne.symm o5
  have q6 := Ne.symm o6
  have q7 := Ne.symm o7
  have q8 := Ne.symm o8
  have q9 := Ne.symm o9
  simp [rregs] at f0 f_v f_expect f_dst f_src f_len f_newv
  by_cases hfv : fv = cpu
  · subst hfv
    by_cases he : ldw be m v = expect
    · by_cases h0 : len = 0#(8 * n)
      · exact OKs.all (k := 20) (by simp [rrun, mips_cbneMemcpyStore, signExtend_inj hn, h_v, h_expect, h_dst, h_src, h_len, h_newv, f_v, f_expect, f_dst, f_src, f_len, f_newv, f0, hp, hc, o1, q1, o2, q2, o3, q3, o4, q4, o5, q5, o6, q6, o7, q7, o8, q8, o9, q9, he, h0] <;> grind)
      · have hpos : 0 < len.toNat := by
          have := mt (len_zero_iff len).2 h0; omega
        obtain ⟨k, hk1, hk⟩ := loopF (mips_cbneMemcpyStore al be csa) fv
          (.cbneMemcpyStore v expect dst src len newv) m
          (LoopF 9 15 (al .src) (al .dst) (al .len) [4] l.regs
            (upd (upd (upd l.slots 100 src) 101 dst) 102 len) src dst v src dst len) len.toNat
          (by
            rintro j ⟨⟨R, S, z, pc⟩, F⟩ hj ⟨i1, i2, i3, i4, i5, i6, i7⟩
            simp only [hj, if_true] at i1 i2 i3 i4 i5 i6 i7
            subst i1 i6
            have g1 := inRange_add src len j hj
            have g2 := inRange_add dst len j hj
            have g3 := dst_not_src hno hj
            have g4 : ¬ F (dst + BitVec.ofNat (8 * n) j) := by
              intro hF
              rcases i7 _ hF with h | h | h
              · exact ht _ g2.1 h
              · exact g3.1 h
              · omega
            refine ⟨6, ?_, ?_, ?_, ?_, ?_, ?_, ?_, ?_⟩
            · simp [rrun, mips_cbneMemcpyStore, signExtend_inj hn, h_v, h_expect, h_dst, h_src, h_len, h_newv, f_v, f_expect, f_dst, f_src, f_len, f_newv, f0, hp, hc, o1, q1, o2, q2, o3, q3, o4, q4, o5, q5, o6, q6, o7, q7, o8, q8, o9, q9, i2, i3, i4, step_up, step_up1, step_down, g1.1, g2.1, g3.2, g4]
            · simp [rrun, mips_cbneMemcpyStore, signExtend_inj hn, h_v, h_expect, h_dst, h_src, h_len, h_newv, f_v, f_expect, f_dst, f_src, f_len, f_newv, f0, hp, hc, o1, q1, o2, q2, o3, q3, o4, q4, o5, q5, o6, q6, o7, q7, o8, q8, o9, q9, i2, i3, i4, step_up, step_up1, step_down, left_zero len j hj]
              grind
            · simp [rrun, mips_cbneMemcpyStore, signExtend_inj hn, h_v, h_expect, h_dst, h_src, h_len, h_newv, f_v, f_expect, f_dst, f_src, f_len, f_newv, f0, hp, hc, o1, q1, o2, q2, o3, q3, o4, q4, o5, q5, o6, q6, o7, q7, o8, q8, o9, q9, i2, i3, i4, step_up, step_up1, step_down]
            · simp [rrun, mips_cbneMemcpyStore, signExtend_inj hn, h_v, h_expect, h_dst, h_src, h_len, h_newv, f_v, f_expect, f_dst, f_src, f_len, f_newv, f0, hp, hc, o1, q1, o2, q2, o3, q3, o4, q4, o5, q5, o6, q6, o7, q7, o8, q8, o9, q9, i2, i3, i4, step_up, step_up1, step_down]
            · simp [rrun, mips_cbneMemcpyStore, signExtend_inj hn, h_v, h_expect, h_dst, h_src, h_len, h_newv, f_v, f_expect, f_dst, f_src, f_len, f_newv, f0, hp, hc, o1, q1, o2, q2, o3, q3, o4, q4, o5, q5, o6, q6, o7, q7, o8, q8, o9, q9, i2, i3, i4, step_up, step_up1, step_down]
            · intro x x1 x2 x3 x4
              have := i5 x x1 x2 x3 x4
              simp at x4
              simp [rrun, mips_cbneMemcpyStore, signExtend_inj hn, h_v, h_expect, h_dst, h_src, h_len, h_newv, f_v, f_expect, f_dst, f_src, f_len, f_newv, f0, hp, hc, o1, q1, o2, q2, o3, q3, o4, q4, o5, q5, o6, q6, o7, q7, o8, q8, o9, q9, x1, x2, x3, x4, this]
            · simp [rrun, mips_cbneMemcpyStore]
            · intro x hx
              simp [rrun, mips_cbneMemcpyStore, signExtend_inj hn, h_v, h_expect, h_dst, h_src, h_len, h_newv, f_v, f_expect, f_dst, f_src, f_len, f_newv, f0, hp, hc, o1, q1, o2, q2, o3, q3, o4, q4, o5, q5, o6, q6, o7, q7, o8, q8, o9, q9, i2, i3, i4, step_up, step_up1, step_down] at hx
              grind)
          (l, fun _ => False) (by
            refine ⟨9, ?_, ?_, ?_, ?_, ?_, ?_, ?_, ?_⟩
            · simp [rrun, mips_cbneMemcpyStore, signExtend_inj hn, h_v, h_expect, h_dst, h_src, h_len, h_newv, f_v, f_expect, f_dst, f_src, f_len, f_newv, f0, hp, hc, o1, q1, o2, q2, o3, q3, o4, q4, o5, q5, o6, q6, o7, q7, o8, q8, o9, q9, he, h0]
              try grind
            · simp [rrun, mips_cbneMemcpyStore, signExtend_inj hn, h_v, h_expect, h_dst, h_src, h_len, h_newv, f_v, f_expect, f_dst, f_src, f_len, f_newv, f0, hp, hc, o1, q1, o2, q2, o3, q3, o4, q4, o5, q5, o6, q6, o7, q7, o8, q8, o9, q9, he, h0, hpos]
            · simp [rrun, mips_cbneMemcpyStore, signExtend_inj hn, h_v, h_expect, h_dst, h_src, h_len, h_newv, f_v, f_expect, f_dst, f_src, f_len, f_newv, f0, hp, hc, o1, q1, o2, q2, o3, q3, o4, q4, o5, q5, o6, q6, o7, q7, o8, q8, o9, q9, he, h0]
            · simp [rrun, mips_cbneMemcpyStore, signExtend_inj hn, h_v, h_expect, h_dst, h_src, h_len, h_newv, f_v, f_expect, f_dst, f_src, f_len, f_newv, f0, hp, hc, o1, q1, o2, q2, o3, q3, o4, q4, o5, q5, o6, q6, o7, q7, o8, q8, o9, q9, he, h0]
            · simp [rrun, mips_cbneMemcpyStore, signExtend_inj hn, h_v, h_expect, h_dst, h_src, h_len, h_newv, f_v, f_expect, f_dst, f_src, f_len, f_newv, f0, hp, hc, o1, q1, o2, q2, o3, q3, o4, q4, o5, q5, o6, q6, o7, q7, o8, q8, o9, q9, he, h0]
            · intro x x1 x2 x3 x4
              simp at x4
              simp [rrun, mips_cbneMemcpyStore, signExtend_inj hn, h_v, h_expect, h_dst, h_src, h_len, h_newv, f_v, f_expect, f_dst, f_src, f_len, f_newv, f0, hp, hc, o1, q1, o2, q2, o3, q3, o4, q4, o5, q5, o6, q6, o7, q7, o8, q8, o9, q9, he, h0, x1, x2, x3, x4]
            · simp [rrun, mips_cbneMemcpyStore, signExtend_inj hn, h_v, h_expect, h_dst, h_src, h_len, h_newv, f_v, f_expect, f_dst, f_src, f_len, f_newv, f0, hp, hc, o1, q1, o2, q2, o3, q3, o4, q4, o5, q5, o6, q6, o7, q7, o8, q8, o9, q9, he, h0]
            · intro x hx
              simp [rrun, mips_cbneMemcpyStore, signExtend_inj hn, h_v, h_expect, h_dst, h_src, h_len, h_newv, f_v, f_expect, f_dst, f_src, f_len, f_newv, f0, hp, hc, o1, q1, o2, q2, o3, q3, o4, q4, o5, q5, o6, q6, o7, q7, o8, q8, o9, q9, he, h0] at hx
              try grind)
        apply OKs.all (k := k + 6)
        refine hk1.finish ?_
        generalize cit (mips_cbneMemcpyStore al be csa) fv m k (l, fun _ => False) = s1 at hk
        obtain ⟨⟨R, S, z, pc⟩, F⟩ := s1
        obtain ⟨i1, i2, i3, i4, i5, i6, i7⟩ := hk
        simp only [Nat.lt_irrefl, if_false] at i1 i2 i3 i4 i5 i6 i7
        subst i1 i6
        have j1 : R (al .v) = v := (i5 (al .v) (by simp [*]) (by simp [*]) (by simp [*]) (by simp [*])).trans h_v
        have j2 : R (al .newv) = newv :=
          (i5 (al .newv) (by simp [*]) (by simp [*]) (by simp [*]) (by simp [*])).trans h_newv
        simp [rrun, mips_cbneMemcpyStore, signExtend_inj hn, h_v, h_expect, h_dst, h_src, h_len, h_newv, f_v, f_expect, f_dst, f_src, f_len, f_newv, f0, hp, hc, o1, q1, o2, q2, o3, q3, o4, q4, o5, q5, o6, q6, o7, q7, o8, q8, o9, q9, j1, j2]
        try grind
    · have he2 := Ne.symm he
      exact OKs.all (k := 20) (by simp [rrun, mips_cbneMemcpyStore, signExtend_inj hn, h_v, h_expect, h_dst, h_src, h_len, h_newv, f_v, f_expect, f_dst, f_src, f_len, f_newv, f0, hp, hc, o1, q1, o2, q2, o3, q3, o4, q4, o5, q5, o6, q6, o7, q7, o8, q8, o9, q9, he, he2] <;> grind)
  · have hne2 := Ne.symm hfv
    exact OKs.all (k := 20) (by simp [rrun, mips_cbneMemcpyStore, signExtend_inj hn, h_v, h_expect, h_dst, h_src, h_len, h_newv, f_v, f_expect, f_dst, f_src, f_len, f_newv, f0, hp, hc, o1, q1, o2, q2, o3, q3, o4, q4, o5, q5, o6, q6, o7, q7, o8, q8, o9, q9, hfv, hne2] <;> grind)

theorem mips_cbneMemcpyStore_rel_foot (hn : 4 ≤ n) (al : Opnd → Nat) (be : Bool)
    (csa v expect dst src len newv : W n) (ht : ∀ x, InRange dst len x → ¬ InWord v x)
    (hno : NoOverlap dst src len) (ho : OwnRegs al) :
    FootOK (mips_cbneMemcpyStore_rel al be csa) [m4] true al
      (.cbneMemcpyStore v expect dst src len newv) := by
  intro cpu fv l m h
  have h_v := h.reg .v _ rfl
  have f_v := h.free .v _ rfl
  have h_expect := h.reg .expect _ rfl
  have f_expect := h.free .expect _ rfl
  have h_dst := h.reg .dst _ rfl
  have f_dst := h.free .dst _ rfl
  have h_src := h.reg .src _ rfl
  have f_src := h.free .src _ rfl
  have h_len := h.reg .len _ rfl
  have f_len := h.free .len _ rfl
  have h_newv := h.reg .newv _ rfl
  have f_newv := h.free .newv _ rfl
  have f0 := h.freeCpu
  have hp := h.pc
  have hc := h.cpuS rfl
  obtain ⟨o1, o2, o3, o4, o5, o6, o7, o8, o9⟩ := ho
  have q1 := Ne.symm o1
  have q2 := Ne.symm o2
  have q3 := Ne.symm o3
  have q4 := Ne.symm o4
  have q5 := Ne.symm o5
  have q6 := Ne.symm o6
  have q7 := Ne.symm o7
  have q8 := Ne.symm o8
  have q9 := Ne.symm o9
  simp [rregs] at f0 f_v f_expect f_dst f_src f_len f_newv
  by_cases hfv : fv = cpu
  · subst hfv
    by_cases he : ldw be m v = expect
    · by_cases h0 : len = 0#(8 * n)
      · exact OKs.all (k := 20) (by simp [rrun, mips_cbneMemcpyStore_rel, signExtend_inj hn, h_v, h_expect, h_dst, h_src, h_len, h_newv, f_v, f_expect, f_dst, f_src, f_len, f_newv, f0, hp, hc, o1, q1, o2, q2, o3, q3, o4, q4, o5, q5, o6, q6, o7, q7, o8, q8, o9, q9, he, h0] <;> grind)
      · have hpos : 0 < len.toNat := by
          have := mt (len_zero_iff len).2 h0; omega
        obtain ⟨k, hk1, hk⟩ := loopF (mips_cbneMemcpyStore_rel al be csa) fv
          (.cbneMemcpyStore v expect dst src len newv) m
          (LoopF 9 15 (al .src) (al .dst) (al .len) [4] l.regs
            (upd (upd (upd l.slots 100 src) 101 dst) 102 len) src dst v src dst len) len.toNat
          (by
            rintro j ⟨⟨R, S, z, pc⟩, F⟩ hj ⟨i1, i2, i3, i4, i5, i6, i7⟩
            simp only [hj, if_true] at i1 i2 i3 i4 i5 i6 i7
            subst i1 i6
            have g1 := inRange_add src len j hj
            have g2 := inRange_add dst len j hj
            have g3 := dst_not_src hno hj
            have g4 : ¬ F (dst + BitVec.ofNat (8 * n) j) := by
              intro hF
              rcases i7 _ hF with h | h | h
              · exact ht _ g2.1 h
              · exact g3.1 h
              · omega
            refine ⟨6, ?_, ?_, ?_, ?_, ?_, ?_, ?_, ?_⟩
            · simp [rrun, mips_cbneMemcpyStore_rel, signExtend_inj hn, h_v, h_expect, h_dst, h_src, h_len, h_newv, f_v, f_expect, f_dst, f_src, f_len, f_newv, f0, hp, hc, o1, q1, o2, q2, o3, q3, o4, q4, o5, q5, o6, q6, o7, q7, o8, q8, o9, q9, i2, i3, i4, step_up, step_up1, step_down, g1.1, g2.1, g3.2, g4]
            · simp [rrun, mips_cbneMemcpyStore_rel, signExtend_inj hn, h_v, h_expect, h_dst, h_src, h_len, h_newv, f_v, f_expect, f_dst, f_src, f_len, f_newv, f0, hp, hc, o1, q1, o2, q2, o3, q3, o4, q4, o5, q5, o6, q6, o7, q7, o8, q8, o9, q9, i2, i3, i4, step_up, step_up1, step_down, left_zero len j hj]
              grind
            · simp [rrun, mips_cbneMemcpyStore_rel, signExtend_inj hn, h_v, h_expect, h_dst, h_src, h_len, h_newv, f_v, f_expect, f_dst, f_src, f_len, f_newv, f0, hp, hc, o1, q1, o2, q2, o3, q3, o4, q4, o5, q5, o6, q6, o7, q7, o8, q8, o9, q9, i2, i3, i4, step_up, step_up1, step_down]
            · simp [rrun, mips_cbneMemcpyStore_rel, signExtend_inj hn, h_v, h_expect, h_dst, h_src, h_len, h_newv, f_v, f_expect, f_dst, f_src, f_len, f_newv, f0, hp, hc, o1, q1, o2, q2, o3, q3, o4, q4, o5, q5, o6, q6, o7, q7, o8, q8, o9, q9, i2, i3, i4, step_up, step_up1, step_down]
            · simp [rrun, mips_cbneMemcpyStore_rel, signExtend_inj hn, h_v, h_expect, h_dst, h_src, h_len, h_newv, f_v, f_expect, f_dst, f_src, f_len, f_newv, f0, hp, hc, o1, q1, o2, q2, o3, q3, o4, q4, o5, q5, o6, q6, o7, q7, o8, q8, o9, q9, i2, i3, i4, step_up, step_up1, step_down]
            · intro x x1 x2 x3 x4
              have := i5 x x1 x2 x3 x4
              simp at x4
              simp [rrun, mips_cbneMemcpyStore_rel, signExtend_inj hn, h_v, h_expect, h_dst, h_src, h_len, h_newv, f_v, f_expect, f_dst, f_src, f_len, f_newv, f0, hp, hc, o1, q1, o2, q2, o3, q3, o4, q4, o5, q5, o6, q6, o7, q7, o8, q8, o9, q9, x1, x2, x3, x4, this]
            · simp [rrun, mips_cbneMemcpyStore_rel]
            · intro x hx
              simp [rrun, mips_cbneMemcpyStore_rel, signExtend_inj hn, h_v, h_expect, h_dst, h_src, h_len, h_newv, f_v, f_expect, f_dst, f_src, f_len, f_newv, f0, hp, hc, o1, q1, o2, q2, o3, q3, o4, q4, o5, q5, o6, q6, o7, q7, o8, q8, o9, q9, i2, i3, i4, step_up, step_up1, step_down] at hx
              grind)
          (l, fun _ => False) (by
            refine ⟨9, ?_, ?_, ?_, ?_, ?_, ?_, ?_, ?_⟩
            · simp [rrun, mips_cbneMemcpyStore_rel, signExtend_inj hn, h_v, h_expect, h_dst, h_src, h_len, h_newv, f_v, f_expect, f_dst, f_src, f_len, f_newv, f0, hp, hc, o1, q1, o2, q2, o3, q3, o4, q4, o5, q5, o6, q6, o7, q7, o8, q8, o9, q9, he, h0]
              try grind
            · simp [rrun, mips_cbneMemcpyStore_rel, signExtend_inj hn, h_v, h_expect, h_dst, h_src, h_len, h_newv, f_v, f_expect, f_dst, f_src, f_len, f_newv, f0, hp, hc, o1, q1, o2, q2, o3, q3, o4, q4, o5, q5, o6, q6, o7, q7, o8, q8, o9, q9, he, h0, hpos]
            · simp [rrun, mips_cbneMemcpyStore_rel, signExtend_inj hn, h_v, h_expect, h_dst, h_src, h_len, h_newv, f_v, f_expect, f_dst, f_src, f_len, f_newv, f0, hp, hc, o1, q1, o2, q2, o3, q3, o4, q4, o5, q5, o6, q6, o7, q7, o8, q8, o9, q9, he, h0]
            · simp [rrun, mips_cbneMemcpyStore_rel, signExtend_inj hn, h_v, h_expect, h_dst, h_src, h_len, h_newv, f_v, f_expect, f_dst, f_src, f_len, f_newv, f0, hp, hc, o1, q1, o2, q2, o3, q3, o4, q4, o5, q5, o6, q6, o7, q7, o8, q8, o9, q9, he, h0]
            · simp [rrun, mips_cbneMemcpyStore_rel, signExtend_inj hn, h_v, h_expect, h_dst, h_src, h_len, h_newv, f_v, f_expect, f_dst, f_src, f_len, f_newv, f0, hp, hc, o1, q1, o2, q2, o3, q3, o4, q4, o5, q5, o6, q6, o7, q7, o8, q8, o9, q9, he, h0]
            · intro x x1 x2 x3 x4
              simp at x4
              simp [rrun, mips_cbneMemcpyStore_rel, signExtend_inj hn, h_v, h_expect, h_dst, h_src, h_len, h_newv, f_v, f_expect, f_dst, f_src, f_len, f_newv, f0, hp, hc, o1, q1, o2, q2, o3, q3, o4, q4, o5, q5, o6, q6, o7, q7, o8, q8, o9, q9, he, h0, x1, x2, x3, x4]
            · simp [rrun, mips_cbneMemcpyStore_rel, signExtend_inj hn, h_v, h_expect, h_dst, h_src, h_len, h_newv, f_v, f_expect, f_dst, f_src, f_len, f_newv, f0, hp, hc, o1, q1, o2, q2, o3, q3, o4, q4, o5, q5, o6, q6, o7, q7, o8, q8, o9, q9, he, h0]
            · intro x hx
              simp [rrun, mips_cbneMemcpyStore_rel, signExtend_inj hn, h_v, h_expect, h_dst, h_src, h_len, h_newv, f_v, f_expect, f_dst, f_src, f_len, f_newv, f0, hp, hc, o1, q1, o2, q2, o3, q3, o4, q4, o5, q5, o6, q6, o7, q7, o8, q8, o9, q9, he, h0] at hx
              try grind)
        apply OKs.all (k := k + 6)
        refine hk1.finish ?_
        generalize cit (mips_cbneMemcpyStore_rel al be csa) fv m k (l, fun _ => False) = s1 at hk
        obtain ⟨⟨R, S, z, pc⟩, F⟩ := s1
        obtain ⟨i1, i2, i3, i4, i5, i6, i7⟩ := hk
        simp only [Nat.lt_irrefl, if_false] at i1 i2 i3 i4 i5 i6 i7
        subst i1 i6
        have j1 : R (al .v) = v := (i5 (al .v) (by simp [*]) (by simp [*]) (by simp [*]) (by simp [*])).trans h_v
        have j2 : R (al .newv) = newv :=
          (i5 (al .newv) (by simp [*]) (by simp [*]) (by simp [*]) (by simp [*])).trans h_newv
        simp [rrun, mips_cbneMemcpyStore_rel, signExtend_inj hn, h_v, h_expect, h_dst, h_src, h_len, h_newv, f_v, f_expect, f_dst, f_src, f_len, f_newv, f0, hp, hc, o1, q1, o2, q2, o3, q3, o4, q4, o5, q5, o6, q6, o7, q7, o8, q8, o9, q9, j1, j2]
        try grind
    · have he2 := Ne.symm he
      exact OKs.all (k := 20) (by simp [rrun, mips_cbneMemcpyStore_rel, signExtend_inj hn, h_v, h_expect, h_dst, h_src, h_len, h_newv, f_v, f_expect, f_dst, f_src, f_len, f_newv, f0, hp, hc, o1, q1, o2, q2, o3, q3, o4, q4, o5, q5, o6, q6, o7, q7, o8, q8, o9, q9, he, he2] <;> grind)
  · have hne2 := Ne.symm hfv
    exact OKs.all (k := 20) (by simp [rrun, mips_cbneMemcpyStore_rel, signExtend_inj hn, h_v, h_expect, h_dst, h_src, h_len, h_newv, f_v, f_expect, f_dst, f_src, f_len, f_newv, f0, hp, hc, o1, q1, o2, q2, o3, q3, o4, q4, o5, q5, o6, q6, o7, q7, o8, q8, o9, q9, hfv, hne2] <;> grind)

theorem loongarch_cbneMemcpyStore_foot (hn : 4 ≤ n) (al : Opnd → Nat) (be : Bool)
    (csa v expect dst src len newv : W n) (ht : ∀ x, InRange dst len x → ¬ InWord v x)
    (hno : NoOverlap dst src len) (ho : OwnRegs al) :
    FootOK (loongarch_cbneMemcpyStore al be csa) [m4] true al
      (.cbneMemcpyStore v expect dst src len newv) := by
  intro cpu fv l m h
  have h_v := h.reg .v _ rfl
  have f_v := h.free .v _ rfl
  have h_expect := h.reg .expect _ rfl
  have f_expect := h.free .expect _ rfl
  have h_dst := h.reg .dst _ rfl
  have f_dst := h.free .dst _ rfl
  have h_src := h.reg .src _ rfl
  have f_src := h.free .src _ rfl
  have h_len := h.reg .len _ rfl
  have f_len := h.free .len _ rfl
  have h_newv := h.reg .newv _ rfl
  have f_newv := h.free .newv _ rfl
  have f0 := h.freeCpu
  have hp := h.pc
  have hc := h.cpuS rfl
  obtain ⟨o1, o2, o3, o4, o5, o6, o7, o8, o9⟩ := ho
  have q1 := Ne.symm o1
  have q2 := Ne.symm o2
  have q3 := Ne.symm o3
  have q4 := Ne.symm o4
  have q5 := Ne.symm o5
  have q6 := Ne.symm o6
  have q7 := Ne.symm o7
  have q8 := Ne.symm o8
  have q9 := Ne.symm o9
  simp [rregs] at f0 f_v f_expect f_dst f_src f_len f_newv
  by_cases hfv : fv = cpu
  · subst hfv
    by_cases he : ldw be m v = expect
    · by_cases h0 : len = 0#(8 * n)
      · exact OKs.all (k := 20) (by simp [rrun, loongarch_cbneMemcpyStore, signExtend_inj hn, h_v, h_expect, h_dst, h_src, h_len, h_newv, f_v, f_expect, f_dst, f_src, f_len, f_newv, f0, hp, hc, o1, q1, o2, q2, o3, q3, o4, q4, o5, q5, o6, q6, o7, q7, o8, q8, o9, q9, he, h0] <;> grind)
      · have hpos : 0 < len.toNat := by
          have := mt (len_zero_iff len).2 h0; omega
        obtain ⟨k, hk1, hk⟩ := loopF (loongarch_cbneMemcpyStore al be csa) fv
          (.cbneMemcpyStore v expect dst src len newv) m
          (LoopF 9 15 (al .src) (al .dst) (al .len) [4] l.regs
            (upd (upd (upd l.slots 100 src) 101 dst) 102 len) src dst v src dst len) len.toNat
          (by
            rintro j ⟨⟨R, S, z, pc⟩, F⟩ hj ⟨i1, i2, i3, i4, i5, i6, i7⟩
            simp only [hj, if_true] at i1 i2 i3 i4 i5 i6 i7
            subst i1 i6
            have g1 := inRange_add src len j hj
            have g2 := inRange_add dst len j hj
            have g3 := dst_not_src hno hj
            have g4 : ¬ F (dst + BitVec.ofNat (8 * n) j) := by
              intro hF
              rcases i7 _ hF with h | h | h
              · exact ht _ g2.1 h
              · exact g3.1 h
              · omega
            refine ⟨6, ?_, ?_, ?_, ?_, ?_, ?_, ?_, ?_⟩
            · simp [rrun, loongarch_cbneMemcpyStore, signExtend_inj hn, h_v, h_expect, h_dst, h_src, h_len, h_newv, f_v, f_expect, f_dst, f_src, f_len, f_newv, f0, hp, hc, o1, q1, o2, q2, o3, q3, o4, q4, o5, q5, o6, q6, o7, q7, o8, q8, o9, q9, i2, i3, i4, step_up, step_up1, step_down, g1.1, g2.1, g3.2, g4]
            · simp [rrun, loongarch_cbneMemcpyStore, signExtend_inj hn, h_v, h_expect, h_dst, h_src, h_len, h_newv, f_v, f_expect, f_dst, f_src, f_len, f_newv, f0, hp, hc, o1, q1, o2, q2, o3, q3, o4, q4, o5, q5, o6, q6, o7, q7, o8, q8, o9, q9, i2, i3, i4, step_up, step_up1, step_down, left_zero len j hj]
              grind
            · simp [rrun, loongarch_cbneMemcpyStore, signExtend_inj hn, h_v, h_expect, h_dst, h_src, h_len, h_newv, f_v, f_expect, f_dst, f_src, f_len, f_newv, f0, hp, hc, o1, q1, o2, q2, o3, q3, o4, q4, o5, q5, o6, q6, o7, q7, o8, q8, o9, q9, i2, i3, i4, step_up, step_up1, step_down]
            · simp [rrun, loongarch_cbneMemcpyStore, signExtend_inj hn, h_v, h_expect, h_dst, h_src, h_len, h_newv, f_v, f_expect, f_dst, f_src, f_len, f_newv, f0, hp, hc, o1, q1, o2, q2, o3, q3, o4, q4, o5, q5, o6, q6, o7, q7, o8, q8, o9, q9, i2, i3, i4, step_up, step_up1, step_down]
            · simp [rrun, loongarch_cbneMemcpyStore, signExtend_inj hn, h_v, h_expect, h_dst, h_src, h_len, h_newv, f_v, f_expect, f_dst, f_src, f_len, f_newv, f0, hp, hc, o1, q1, o2, q2, o3, q3, o4, q4, o5, q5, o6, q6, o7, q7, o8, q8, o9, q9, i2, i3, i4, step_up, step_up1, step_down]
            · intro x x1 x2 x3 x4
              have := i5 x x1 x2 x3 x4
              simp at x4
              simp [rrun, loongarch_cbneMemcpyStore, signExtend_inj hn, h_v, h_expect, h_dst, h_src, h_len, h_newv, f_v, f_expect, f_dst, f_src, f_len, f_newv, f0, hp, hc, o1, q1, o2, q2, o3, q3, o4, q4, o5, q5, o6, q6, o7, q7, o8, q8, o9, q9, x1, x2, x3, x4, this]
            · simp [rrun, loongarch_cbneMemcpyStore]
            · intro x hx
              simp [rrun, loongarch_cbneMemcpyStore, signExtend_inj hn, h_v, h_expect, h_dst, h_src, h_len, h_newv, f_v, f_expect, f_dst, f_src, f_len, f_newv, f0, hp, hc, o1, q1, o2, q2, o3, q3, o4, q4, o5, q5, o6, q6, o7, q7, o8, q8, o9, q9, i2, i3, i4, step_up, step_up1, step_down] at hx
              grind)
          (l, fun _ => False) (by
            refine ⟨9, ?_, ?_, ?_, ?_, ?_, ?_, ?_, ?_⟩
            · simp [rrun, loongarch_cbneMemcpyStore, signExtend_inj hn, h_v, h_expect, h_dst, h_src, h_len, h_newv, f_v, f_expect, f_dst, f_src, f_len, f_newv, f0, hp, hc, o1, q1, o2, q2, o3, q3, o4, q4, o5, q5, o6, q6, o7, q7, o8, q8, o9, q9, he, h0]
              try grind
            · simp [rrun, loongarch_cbneMemcpyStore, signExtend_inj hn, h_v, h_expect, h_dst, h_src, h_len, h_newv, f_v, f_expect, f_dst, f_src, f_len, f_newv, f0, hp, hc, o1, q1, o2, q2, o3, q3, o4, q4, o5, q5, o6, q6, o7, q7, o8, q8, o9, q9, he, h0, hpos]
            · simp [rrun, loongarch_cbneMemcpyStore, signExtend_inj hn, h_v, h_expect, h_dst, h_src, h_len, h_newv, f_v, f_expect, f_dst, f_src, f_len, f_newv, f0, hp, hc, o1, q1, o2, q2, o3, q3, o4, q4, o5, q5, o6, q6, o7, q7, o8, q8, o9, q9, he, h0]
            · simp [rrun, loongarch_cbneMemcpyStore, signExtend_inj hn, h_v, h_expect, h_dst, h_src, h_len, h_newv, f_v, f_expect, f_dst, f_src, f_len, f_newv, f0, hp, hc, o1, q1, o2, q2, o3, q3, o4, q4, o5, q5, o6, q6, o7, q7, o8, q8, o9, q9, he, h0]
            · simp [rrun, loongarch_cbneMemcpyStore, signExtend_inj hn, h_v, h_expect, h_dst, h_src, h_len, h_newv, f_v, f_expect, f_dst, f_src, f_len, f_newv, f0, hp, hc, o1, q1, o2, q2, o3, q3, o4, q4, o5, q5, o6, q6, o7, q7, o8, q8, o9, q9, he, h0]
            · intro x x1 x2 x3 x4
              simp at x4
              simp [rrun, loongarch_cbneMemcpyStore, signExtend_inj hn, h_v, h_expect, h_dst, h_src, h_len, h_newv, f_v, f_expect, f_dst, f_src, f_len, f_newv, f0, hp, hc, o1, q1, o2, q2, o3, q3, o4, q4, o5, q5, o6, q6, o7, q7, o8, q8, o9, q9, he, h0, x1, x2, x3, x4]
            · simp [rrun, loongarch_cbneMemcpyStore, signExtend_inj hn, h_v, h_expect, h_dst, h_src, h_len, h_newv, f_v, f_expect, f_dst, f_src, f_len, f_newv, f0, hp, hc, o1, q1, o2, q2, o3, q3, o4, q4, o5, q5, o6, q6, o7, q7, o8, q8, o9, q9, he, h0]
            · intro x hx
              simp [rrun, loongarch_cbneMemcpyStore, signExtend_inj hn, h_v, h_expect, h_dst, h_src, h_len, h_newv, f_v, f_expect, f_dst, f_src, f_len, f_newv, f0, hp, hc, o1, q1, o2, q2, o3, q3, o4, q4, o5, q5, o6, q6, o7, q7, o8, q8, o9, q9, he, h0] at hx
              try grind)
        apply OKs.all (k := k + 6)
        refine hk1.finish ?_
        generalize cit (loongarch_cbneMemcpyStore al be csa) fv m k (l, fun _ => False) = s1 at hk
        obtain ⟨⟨R, S, z, pc⟩, F⟩ := s1
        obtain ⟨i1, i2, i3, i4, i5, i6, i7⟩ := hk
        simp only [Nat.lt_irrefl, if_false] at i1 i2 i3 i4 i5 i6 i7
        subst i1 i6
        have j1 : R (al .v) = v := (i5 (al .v) (by simp [*]) (by simp [*]) (by simp [*]) (by simp [*])).trans h_v
        have j2 : R (al .newv) = newv :=
          (i5 (al .newv) (by simp [*]) (by simp [*]) (by simp [*]) (by simp [*])).trans h_newv
        simp [rrun, loongarch_cbneMemcpyStore, signExtend_inj hn, h_v, h_expect, h_dst, h_src, h_len, h_newv, f_v, f_expect, f_dst, f_src, f_len, f_newv, f0, hp, hc, o1, q1, o2, q2, o3, q3, o4, q4, o5, q5, o6, q6, o7, q7, o8, q8, o9, q9, j1, j2]
        try grind
    · have he2 := Ne.symm he
      exact OKs.all (k := 20) (by simp [rrun, loongarch_cbneMemcpyStore, signExtend_inj hn, h_v, h_expect, h_dst, h_src, h_len, h_newv, f_v, f_expect, f_dst, f_src, f_len, f_newv, f0, hp, hc, o1, q1, o2, q2, o3, q3, o4, q4, o5, q5, o6, q6, o7, q7, o8, q8, o9, q9, he, he2] <;> grind)
  · have hne2 := Ne.symm hfv
    exact OKs.all (k := 20) (by simp [rrun, loongarch_cbneMemcpyStore, signExtend_inj hn, h_v, h_expect, h_dst, h_src, h_len, h_newv, f_v, f_expect, f_dst, f_src, f_len, f_newv, f0, hp, hc, o1, q1, o2, q2, o3, q3, o4, q4, o5, q5, o6, q6, o7, q7, o8, q8, o9, q9, hfv, hne2] <;> grind)

theorem loongarch_cbneMemcpyStore_rel_foot (hn : 4 ≤ n) (al : Opnd → Nat) (be : Bool)
    (csa v expect dst src len newv : W n) (ht : ∀ x, InRange dst len x → ¬ InWord v x)
    (hno : NoOverlap dst src len) (ho : OwnRegs al) :
    FootOK (loongarch_cbneMemcpyStore_rel al be csa) [m4] true al
      (.cbneMemcpyStore v expect dst src len newv) := by
  intro cpu fv l m h
  have h_v := h.reg .v _ rfl
  have f_v := h.free .v _ rfl
  have h_expect := h.reg .expect _ rfl
  have f_expect := h.free .expect _ rfl
  have h_dst := h.reg .dst _ rfl
  have f_dst := h.free .dst _ rfl
  have h_src := h.reg .src _ rfl
  have f_src := h.free .src _ rfl
  have h_len := h.reg .len _ rfl
  have f_len := h.free .len _ rfl
  have h_newv := h.reg .newv _ rfl
  have f_newv := h.free .newv _ rfl
  have f0 := h.freeCpu
  have hp := h.pc
  have hc := h.cpuS rfl
  obtain ⟨o1, o2, o3, o4, o5, o6, o7, o8, o9⟩ := ho
  have q1 := Ne.symm o1
  have q2 := Ne.symm o2
  have q3 := Ne.symm o3
  have q4 := Ne.symm o4
  have q5 := Ne.symm o5
  have q6 := Ne.symm o6
  have q7 := Ne.symm o7
  have q8 := Ne.symm o8
  have q9 := Ne.symm o9
  simp [rregs] at f0 f_v f_expect f_dst f_src f_len f_newv
  by_cases hfv : fv = cpu
  · subst hfv
    by_cases he : ldw be m v = expect
    · by_cases h0 : len = 0#(8 * n)
      · exact OKs.all (k := 20) (by simp [rrun, loongarch_cbneMemcpyStore_rel, signExtend_inj hn, h_v, h_expect, h_dst, h_src, h_len, h_newv, f_v, f_expect, f_dst, f_src, f_len, f_newv, f0, hp, hc, o1, q1, o2, q2, o3, q3, o4, q4, o5, q5, o6, q6, o7, q7, o8, q8, o9, q9, he, h0] <;> grind)
      · have hpos : 0 < len.toNat := by
          have := mt (len_zero_iff len).2 h0; omega
        obtain ⟨k, hk1, hk⟩ := loopF (loongarch_cbneMemcpyStore_rel al be csa) fv
          (.cbneMemcpyStore v expect dst src len newv) m
          (LoopF 9 15 (al .src) (al .dst) (al .len) [4] l.regs
            (upd (upd (upd l.slots 100 src) 101 dst) 102 len) src dst v src dst len) len.toNat
          (by
            rintro j ⟨⟨R, S, z, pc⟩, F⟩ hj ⟨i1, i2, i3, i4, i5, i6, i7⟩
            simp only [hj, if_true] at i1 i2 i3 i4 i5 i6 i7
            subst i1 i6
            have g1 := inRange_add src len j hj
            have g2 := inRange_add dst len j hj
            have g3 := dst_not_src hno hj
            have g4 : ¬ F (dst + BitVec.ofNat (8 * n) j) := by
              intro hF
              rcases i7 _ hF with h | h | h
              · exact ht _ g2.1 h
              · exact g3.1 h
              · omega
            refine ⟨6, ?_, ?_, ?_, ?_, ?_, ?_, ?_, ?_⟩
            · simp [rrun, loongarch_cbneMemcpyStore_rel, signExtend_inj hn, h_v, h_expect, h_dst, h_src, h_len, h_newv, f_v, f_expect, f_dst, f_src, f_len, f_newv, f0, hp, hc, o1, q1, o2, q2, o3, q3, o4, q4, o5, q5, o6, q6, o7, q7, o8, q8, o9, q9, i2, i3, i4, step_up, step_up1, step_down, g1.1, g2.1, g3.2, g4]
            · simp [rrun, loongarch_cbneMemcpyStore_rel, signExtend_inj hn, h_v, h_expect, h_dst, h_src, h_len, h_newv, f_v, f_expect, f_dst, f_src, f_len, f_newv, f0, hp, hc, o1, q1, o2, q2, o3, q3, o4, q4, o5, q5, o6, q6, o7, q7, o8, q8, o9, q9, i2, i3, i4, step_up, step_up1, step_down, left_zero len j hj]
              grind
            · simp [rrun, loongarch_cbneMemcpyStore_rel, signExtend_inj hn, h_v, h_expect, h_dst, h_src, h_len, h_newv, f_v, f_expect, f_dst, f_src, f_len, f_newv, f0, hp, hc, o1, q1, o2, q2, o3, q3, o4, q4, o5, q5, o6, q6, o7, q7, o8, q8, o9, q9, i2, i3, i4, step_up, step_up1, step_down]
            · simp [rrun, loongarch_cbneMemcpyStore_rel, signExtend_inj hn, h_v, h_expect, h_dst, h_src, h_len, h_newv, f_v, f_expect, f_dst, f_src, f_len, f_newv, f0, hp, hc, o1, q1, o2, q2, o3, q3, o4, q4, o5, q5, o6, q6, o7, q7, o8, q8, o9, q9, i2, i3, i4, step_up, step_up1, step_down]
            · simp [rrun, loongarch_cbneMemcpyStore_rel, signExtend_inj hn, h_v, h_expect, h_dst, h_src, h_len, h_newv, f_v, f_expect, f_dst, f_src, f_len, f_newv, f0, hp, hc, o1, q1, o2, q2, o3, q3, o4, q4, o5, q5, o6, q6, o7, q7, o8, q8, o9, q9, i2, i3, i4, step_up, step_up1, step_down]
            · intro x x1 x2 x3 x4
              have := i5 x x1 x2 x3 x4
              simp at x4
              simp [rrun, loongarch_cbneMemcpyStore_rel, signExtend_inj hn, h_v, h_expect, h_dst, h_src, h_len, h_newv, f_v, f_expect, f_dst, f_src, f_len, f_newv, f0, hp, hc, o1, q1, o2, q2, o3, q3, o4, q4, o5, q5, o6, q6, o7, q7, o8, q8, o9, q9, x1, x2, x3, x4, this]
            · simp [rrun, loongarch_cbneMemcpyStore_rel]
            · intro x hx
              simp [rrun, loongarch_cbneMemcpyStore_rel, signExtend_inj hn, h_v, h_expect, h_dst, h_src, h_len, h_newv, f_v, f_expect, f_dst, f_src, f_len, f_newv, f0, hp, hc, o1, q1, o2, q2, o3, q3, o4, q4, o5, q5, o6, q6, o7, q7, o8, q8, o9, q9, i2, i3, i4, step_up, step_up1, step_down] at hx
              grind)
          (l, fun _ => False) (by
            refine ⟨9, ?_, ?_, ?_, ?_, ?_, ?_, ?_, ?_⟩
            · simp [rrun, loongarch_cbneMemcpyStore_rel, signExtend_inj hn, h_v, h_expect, h_dst, h_src, h_len, h_newv, f_v, f_expect, f_dst, f_src, f_len, f_newv, f0, hp, hc, o1, q1, o2, q2, o3, q3, o4, q4, o5, q5, o6, q6, o7, q7, o8, q8, o9, q9, he, h0]
              try grind
            · simp [rrun, loongarch_cbneMemcpyStore_rel, signExtend_inj hn, h_v, h_expect, h_dst, h_src, h_len, h_newv, f_v, f_expect, f_dst, f_src, f_len, f_newv, f0, hp, hc, o1, q1, o2, q2, o3, q3, o4, q4, o5, q5, o6, q6, o7, q7, o8, q8, o9, q9, he, h0, hpos]
            · simp [rrun, loongarch_cbneMemcpyStore_rel, signExtend_inj hn, h_v, h_expect, h_dst, h_src, h_len, h_newv, f_v, f_expect, f_dst, f_src, f_len, f_newv, f0, hp, hc, o1, q1, o2, q2, o3, q3, o4, q4, o5, q5, o6, q6, o7, q7, o8, q8, o9, q9, he, h0]
            · simp [rrun, loongarch_cbneMemcpyStore_rel, signExtend_inj hn, h_v, h_expect, h_dst, h_src, h_len, h_newv, f_v, f_expect, f_dst, f_src, f_len, f_newv, f0, hp, hc, o1, q1, o2, q2, o3, q3, o4, q4, o5, q5, o6, q6, o7, q7, o8, q8, o9, q9, he, h0]
            · simp [rrun, loongarch_cbneMemcpyStore_rel, signExtend_inj hn, h_v, h_expect, h_dst, h_src, h_len, h_newv, f_v, f_expect, f_dst, f_src, f_len, f_newv, f0, hp, hc, o1, q1, o2, q2, o3, q3, o4, q4, o5, q5, o6, q6, o7, q7, o8, q8, o9, q9, he, h0]
            · intro x x1 x2 x3 x4
              simp at x4
              simp [rrun, loongarch_cbneMemcpyStore_rel, signExtend_inj hn, h_v, h_expect, h_dst, h_src, h_len, h_newv, f_v, f_expect, f_dst, f_src, f_len, f_newv, f0, hp, hc, o1, q1, o2, q2, o3, q3, o4, q4, o5, q5, o6, q6, o7, q7, o8, q8, o9, q9, he, h0, x1, x2, x3, x4]
            · simp [rrun, loongarch_cbneMemcpyStore_rel, signExtend_inj hn, h_v, h_expect, h_dst, h_src, h_len, h_newv, f_v, f_expect, f_dst, f_src, f_len, f_newv, f0, hp, hc, o1, q1, o2, q2, o3, q3, o4, q4, o5, q5, o6, q6, o7, q7, o8, q8, o9, q9, he, h0]
            · intro x hx
              simp [rrun, loongarch_cbneMemcpyStore_rel, signExtend_inj hn, h_v, h_expect, h_dst, h_src, h_len, h_newv, f_v, f_expect, f_dst, f_src, f_len, f_newv, f0, hp, hc, o1, q1, o2, q2, o3, q3, o4, q4, o5, q5, o6, q6, o7, q7, o8, q8, o9, q9, he, h0] at hx
              try grind)
        apply OKs.all (k := k + 6)
        refine hk1.finish ?_
        generalize cit (loongarch_cbneMemcpyStore_rel al be csa) fv m k (l, fun _ => False) = s1 at hk
        obtain ⟨⟨R, S, z, pc⟩, F⟩ := s1
        obtain ⟨i1, i2, i3, i4, i5, i6, i7⟩ := hk
        simp only [Nat.lt_irrefl, if_false] at i1 i2 i3 i4 i5 i6 i7
        subst i1 i6
        have j1 : R (al .v) = v := (i5 (al .v) (by simp [*]) (by simp [*]) (by simp [*]) (by simp [*])).trans h_v
        have j2 : R (al .newv) = newv :=
          (i5 (al .newv) (by simp [*]) (by simp [*]) (by simp [*]) (by simp [*])).trans h_newv
        simp [rrun, loongarch_cbneMemcpyStore_rel, signExtend_inj hn, h_v, h_expect, h_dst, h_src, h_len, h_newv, f_v, f_expect, f_dst, f_src, f_len, f_newv, f0, hp, hc, o1, q1, o2, q2, o3, q3, o4, q4, o5, q5, o6, q6, o7, q7, o8, q8, o9, q9, j1, j2]
        try grind
    · have he2 := Ne.symm he
      exact OKs.all (k := 20) (by simp [rrun, loongarch_cbneMemcpyStore_rel, signExtend_inj hn, h_v, h_expect, h_dst, h_src, h_len, h_newv, f_v, f_expect, f_dst, f_src, f_len, f_newv, f0, hp, hc, o1, q1, o2, q2, o3, q3, o4, q4, o5, q5, o6, q6, o7, q7, o8, q8, o9, q9, he, he2] <;> grind)
  · have hne2 := Ne.symm hfv
    exact OKs.all (k := 20) (by simp [rrun, loongarch_cbneMemcpyStore_rel, signExtend_inj hn, h_v, h_expect, h_dst, h_src, h_len, h_newv, f_v, f_expect, f_dst, f_src, f_len, f_newv, f0, hp, hc, o1, q1, o2, q2, o3, q3, o4, q4, o5, q5, o6, q6, o7, q7, o8, q8, o9, q9, hfv, hne2] <;> grind)

theorem arm_cbneMemcpyStore_foot (hn : 4 ≤ n) (al : Opnd → Nat) (be : Bool)
    (csa v expect dst src len newv : W n) (ht : ∀ x, InRange dst len x → ¬ InWord v x)
    (hno : NoOverlap dst src len) :
    FootOK (arm_cbneMemcpyStore al be csa) [a0, a5, a6, a7] false al
      (.cbneMemcpyStore v expect dst src len newv) := by
  intro cpu fv l m h
  have h_v := h.reg .v _ rfl
  have f_v := h.free .v _ rfl
  have h_expect := h.reg .expect _ rfl
  have f_expect := h.free .expect _ rfl
  have s_expect := h.slot .expect _ rfl (by decide)
  simp only [slotOf] at s_expect
  have h_dst := h.reg .dst _ rfl
  have f_dst := h.free .dst _ rfl
  have s_dst := h.slot .dst _ rfl (by decide)
  simp only [slotOf] at s_dst
  have h_src := h.reg .src _ rfl
  have f_src := h.free .src _ rfl
  have s_src := h.slot .src _ rfl (by decide)
  simp only [slotOf] at s_src
  have h_len := h.reg .len _ rfl
  have f_len := h.free .len _ rfl
  have s_len := h.slot .len _ rfl (by decide)
  simp only [slotOf] at s_len
  have h_newv := h.reg .newv _ rfl
  have f_newv := h.free .newv _ rfl
  have s_newv := h.slot .newv _ rfl (by decide)
  simp only [slotOf] at s_newv
  have f0 := h.freeCpu
  have hp := h.pc
  have hc := h.cpuV
  simp [rregs] at f0 f_v f_expect f_dst f_src f_len f_newv
  by_cases hfv : fv = cpu
  · subst hfv
    by_cases he : ldw be m v = expect
    · by_cases h0 : len = 0#(8 * n)
      · exact OKs.all (k := 20) (by simp [rrun, arm_cbneMemcpyStore, slotOf, setWidth32_setWidth hn, h_v, h_expect, h_dst, h_src, h_len, h_newv, f_v, f_expect, f_dst, f_src, f_len, f_newv, f0, hp, hc, s_expect, s_dst, s_src, s_len, s_newv, he, h0] <;> grind)
      · have hpos : 0 < len.toNat := by
          have := mt (len_zero_iff len).2 h0; omega
        obtain ⟨k, hk1, hk⟩ := loopF (arm_cbneMemcpyStore al be csa) fv
          (.cbneMemcpyStore v expect dst src len newv) m
          (LoopF 13 19 6 5 7 [0, 5, 6, 7] l.regs
            l.slots src dst v src dst len) len.toNat
          (by
            rintro j ⟨⟨R, S, z, pc⟩, F⟩ hj ⟨i1, i2, i3, i4, i5, i6, i7⟩
            simp only [hj, if_true] at i1 i2 i3 i4 i5 i6 i7
            subst i1 i6
            have g1 := inRange_add src len j hj
            have g2 := inRange_add dst len j hj
            have g3 := dst_not_src hno hj
            have g4 : ¬ F (dst + BitVec.ofNat (8 * n) j) := by
              intro hF
              rcases i7 _ hF with h | h | h
              · exact ht _ g2.1 h
              · exact g3.1 h
              · omega
            refine ⟨6, ?_, ?_, ?_, ?_, ?_, ?_, ?_, ?_⟩
            · simp [rrun, arm_cbneMemcpyStore, slotOf, setWidth32_setWidth hn, h_v, h_expect, h_dst, h_src, h_len, h_newv, f_v, f_expect, f_dst, f_src, f_len, f_newv, f0, hp, hc, s_expect, s_dst, s_src, s_len, s_newv, i2, i3, i4, step_up, step_up1, step_down, g1.1, g2.1, g3.2, g4]
            · simp [rrun, arm_cbneMemcpyStore, slotOf, setWidth32_setWidth hn, h_v, h_expect, h_dst, h_src, h_len, h_newv, f_v, f_expect, f_dst, f_src, f_len, f_newv, f0, hp, hc, s_expect, s_dst, s_src, s_len, s_newv, i2, i3, i4, step_up, step_up1, step_down, left_zero len j hj]
              grind
            · simp [rrun, arm_cbneMemcpyStore, slotOf, setWidth32_setWidth hn, h_v, h_expect, h_dst, h_src, h_len, h_newv, f_v, f_expect, f_dst, f_src, f_len, f_newv, f0, hp, hc, s_expect, s_dst, s_src, s_len, s_newv, i2, i3, i4, step_up, step_up1, step_down]
            · simp [rrun, arm_cbneMemcpyStore, slotOf, setWidth32_setWidth hn, h_v, h_expect, h_dst, h_src, h_len, h_newv, f_v, f_expect, f_dst, f_src, f_len, f_newv, f0, hp, hc, s_expect, s_dst, s_src, s_len, s_newv, i2, i3, i4, step_up, step_up1, step_down]
            · simp [rrun, arm_cbneMemcpyStore, slotOf, setWidth32_setWidth hn, h_v, h_expect, h_dst, h_src, h_len, h_newv, f_v, f_expect, f_dst, f_src, f_len, f_newv, f0, hp, hc, s_expect, s_dst, s_src, s_len, s_newv, i2, i3, i4, step_up, step_up1, step_down]
            · intro x x1 x2 x3 x4
              have := i5 x x1 x2 x3 x4
              simp at x4
              simp [rrun, arm_cbneMemcpyStore, slotOf, setWidth32_setWidth hn, h_v, h_expect, h_dst, h_src, h_len, h_newv, f_v, f_expect, f_dst, f_src, f_len, f_newv, f0, hp, hc, s_expect, s_dst, s_src, s_len, s_newv, x1, x2, x3, x4, this]
            · simp [rrun, arm_cbneMemcpyStore]
            · intro x hx
              simp [rrun, arm_cbneMemcpyStore, slotOf, setWidth32_setWidth hn, h_v, h_expect, h_dst, h_src, h_len, h_newv, f_v, f_expect, f_dst, f_src, f_len, f_newv, f0, hp, hc, s_expect, s_dst, s_src, s_len, s_newv, i2, i3, i4, step_up, step_up1, step_down] at hx
              grind)
          (l, fun _ => False) (by
            refine ⟨13, ?_, ?_, ?_, ?_, ?_, ?_, ?_, ?_⟩
            · simp [rrun, arm_cbneMemcpyStore, slotOf, setWidth32_setWidth hn, h_v, h_expect, h_dst, h_src, h_len, h_newv, f_v, f_expect, f_dst, f_src, f_len, f_newv, f0, hp, hc, s_expect, s_dst, s_src, s_len, s_newv, he, h0]
              try grind
            · simp [rrun, arm_cbneMemcpyStore, slotOf, setWidth32_setWidth hn, h_v, h_expect, h_dst, h_src, h_len, h_newv, f_v, f_expect, f_dst, f_src, f_len, f_newv, f0, hp, hc, s_expect, s_dst, s_src, s_len, s_newv, he, h0, hpos]
            · simp [rrun, arm_cbneMemcpyStore, slotOf, setWidth32_setWidth hn, h_v, h_expect, h_dst, h_src, h_len, h_newv, f_v, f_expect, f_dst, f_src, f_len, f_newv, f0, hp, hc, s_expect, s_dst, s_src, s_len, s_newv, he, h0]
            · simp [rrun, arm_cbneMemcpyStore, slotOf, setWidth32_setWidth hn, h_v, h_expect, h_dst, h_src, h_len, h_newv, f_v, f_expect, f_dst, f_src, f_len, f_newv, f0, hp, hc, s_expect, s_dst, s_src, s_len, s_newv, he, h0]
            · simp [rrun, arm_cbneMemcpyStore, slotOf, setWidth32_setWidth hn, h_v, h_expect, h_dst, h_src, h_len, h_newv, f_v, f_expect, f_dst, f_src, f_len, f_newv, f0, hp, hc, s_expect, s_dst, s_src, s_len, s_newv, he, h0]
            · intro x x1 x2 x3 x4
              simp at x4
              simp [rrun, arm_cbneMemcpyStore, slotOf, setWidth32_setWidth hn, h_v, h_expect, h_dst, h_src, h_len, h_newv, f_v, f_expect, f_dst, f_src, f_len, f_newv, f0, hp, hc, s_expect, s_dst, s_src, s_len, s_newv, he, h0, x1, x2, x3, x4]
            · simp [rrun, arm_cbneMemcpyStore, slotOf, setWidth32_setWidth hn, h_v, h_expect, h_dst, h_src, h_len, h_newv, f_v, f_expect, f_dst, f_src, f_len, f_newv, f0, hp, hc, s_expect, s_dst, s_src, s_len, s_newv, he, h0]
            · intro x hx
              simp [rrun, arm_cbneMemcpyStore, slotOf, setWidth32_setWidth hn, h_v, h_expect, h_dst, h_src, h_len, h_newv, f_v, f_expect, f_dst, f_src, f_len, f_newv, f0, hp, hc, s_expect, s_dst, s_src, s_len, s_newv, he, h0] at hx
              try grind)
        apply OKs.all (k := k + 6)
        refine hk1.finish ?_
        generalize cit (arm_cbneMemcpyStore al be csa) fv m k (l, fun _ => False) = s1 at hk
        obtain ⟨⟨R, S, z, pc⟩, F⟩ := s1
        obtain ⟨i1, i2, i3, i4, i5, i6, i7⟩ := hk
        simp only [Nat.lt_irrefl, if_false] at i1 i2 i3 i4 i5 i6 i7
        subst i1 i6
        have j1 : R (al .v) = v := (i5 (al .v) (by simp [*]) (by simp [*]) (by simp [*]) (by simp [*])).trans h_v
        have j2 : R (al .newv) = newv :=
          (i5 (al .newv) (by simp [*]) (by simp [*]) (by simp [*]) (by simp [*])).trans h_newv
        simp [rrun, arm_cbneMemcpyStore, slotOf, setWidth32_setWidth hn, h_v, h_expect, h_dst, h_src, h_len, h_newv, f_v, f_expect, f_dst, f_src, f_len, f_newv, f0, hp, hc, s_expect, s_dst, s_src, s_len, s_newv, j1, j2]
        try grind
    · have he2 := Ne.symm he
      exact OKs.all (k := 20) (by simp [rrun, arm_cbneMemcpyStore, slotOf, setWidth32_setWidth hn, h_v, h_expect, h_dst, h_src, h_len, h_newv, f_v, f_expect, f_dst, f_src, f_len, f_newv, f0, hp, hc, s_expect, s_dst, s_src, s_len, s_newv, he, he2] <;> grind)
  · have hne2 := Ne.symm hfv
    exact OKs.all (k := 20) (by simp [rrun, arm_cbneMemcpyStore, slotOf, setWidth32_setWidth hn, h_v, h_expect, h_dst, h_src, h_len, h_newv, f_v, f_expect, f_dst, f_src, f_len, f_newv, f0, hp, hc, s_expect, s_dst, s_src, s_len, s_newv, hfv, hne2] <;> grind)

theorem arm_cbneMemcpyStore_rel_foot (hn : 4 ≤ n) (al : Opnd → Nat) (be : Bool)
    (csa v expect dst src len newv : W n) (ht : ∀ x, InRange dst len x → ¬ InWord v x)
    (hno : NoOverlap dst src len) :
    FootOK (arm_cbneMemcpyStore_rel al be csa) [a0, a5, a6, a7] false al
      (.cbneMemcpyStore v expect dst src len newv) := by
  intro cpu fv l m h
  have h_v := h.reg .v _ rfl
  have f_v := h.free .v _ rfl
  have h_expect := h.reg .expect _ rfl
  have f_expect := h.free .expect _ rfl
  have s_expect := h.slot .expect _ rfl (by decide)
  simp only [slotOf] at s_expect
  have h_dst := h.reg .dst _ rfl
  have f_dst := h.free .dst _ rfl
  have s_dst := h.slot .dst _ rfl (by decide)
  simp only [slotOf] at s_dst
  have h_src := h.reg .src _ rfl
  have f_src := h.free .src _ rfl
  have s_src := h.slot .src _ rfl (by decide)
  simp only [slotOf] at s_src
  have h_len := h.reg .len _ rfl
  have f_len := h.free .len _ rfl
  have s_len := h.slot .len _ rfl (by decide)
  simp only [slotOf] at s_len
  have h_newv := h.reg .newv _ rfl
  have f_newv := h.free .newv _ rfl
  have s_newv := h.slot .newv _ rfl (by decide)
  simp only [slotOf] at s_newv
  have f0 := h.freeCpu
  have hp := h.pc
  have hc := h.cpuV
  simp [rregs] at f0 f_v f_expect f_dst f_src f_len f_newv
  by_cases hfv : fv = cpu
  · subst hfv
    by_cases he : ldw be m v = expect
    · by_cases h0 : len = 0#(8 * n)
      · exact OKs.all (k := 20) (by simp [rrun, arm_cbneMemcpyStore_rel, slotOf, setWidth32_setWidth hn, h_v, h_expect, h_dst, h_src, h_len, h_newv, f_v, f_expect, f_dst, f_src, f_len, f_newv, f0, hp, hc, s_expect, s_dst, s_src, s_len, s_newv, he, h0] <;> grind)
      · have hpos : 0 < len.toNat := by
          have := mt (len_zero_iff len).2 h0; omega
        obtain ⟨k, hk1, hk⟩ := loopF (arm_cbneMemcpyStore_rel al be csa) fv
          (.cbneMemcpyStore v expect dst src len newv) m
          (LoopF 13 19 6 5 7 [0, 5, 6, 7] l.regs
            l.slots src dst v src dst len) len.toNat
          (by
            rintro j ⟨⟨R, S, z, pc⟩, F⟩ hj ⟨i1, i2, i3, i4, i5, i6, i7⟩
            simp only [hj, if_true] at i1 i2 i3 i4 i5 i6 i7
            subst i1 i6
            have g1 := inRange_add src len j hj
            have g2 := inRange_add dst len j hj
            have g3 := dst_not_src hno hj
            have g4 : ¬ F (dst + BitVec.ofNat (8 * n) j) := by
              intro hF
              rcases i7 _ hF with h | h | h
              · exact ht _ g2.1 h
              · exact g3.1 h
              · omega
            refine ⟨6, ?_, ?_, ?_, ?_, ?_, ?_, ?_, ?_⟩
            · simp [rrun, arm_cbneMemcpyStore_rel, slotOf, setWidth32_setWidth hn, h_v, h_expect, h_dst, h_src, h_len, h_newv, f_v, f_expect, f_dst, f_src, f_len, f_newv, f0, hp, hc, s_expect, s_dst, s_src, s_len, s_newv, i2, i3, i4, step_up, step_up1, step_down, g1.1, g2.1, g3.2, g4]
            · simp [rrun, arm_cbneMemcpyStore_rel, slotOf, setWidth32_setWidth hn, h_v, h_expect, h_dst, h_src, h_len, h_newv, f_v, f_expect, f_dst, f_src, f_len, f_newv, f0, hp, hc, s_expect, s_dst, s_src, s_len, s_newv, i2, i3, i4, step_up, step_up1, step_down, left_zero len j hj]
              grind
            · simp [rrun, arm_cbneMemcpyStore_rel, slotOf, setWidth32_setWidth hn, h_v, h_expect, h_dst, h_src, h_len, h_newv, f_v, f_expect, f_dst, f_src, f_len, f_newv, f0, hp, hc, s_expect, s_dst, s_src, s_len, s_newv, i2, i3, i4, step_up, step_up1, step_down]
            · simp [rrun, arm_cbneMemcpyStore_rel, slotOf, setWidth32_setWidth hn, h_v, h_expect, h_dst, h_src, h_len, h_newv, f_v, f_expect, f_dst, f_src, f_len, f_newv, f0, hp, hc, s_expect, s_dst, s_src, s_len, s_newv, i2, i3, i4, step_up, step_up1, step_down]
            · simp [rrun, arm_cbneMemcpyStore_rel, slotOf, setWidth32_setWidth hn, h_v, h_expect, h_dst, h_src, h_len, h_newv, f_v, f_expect, f_dst, f_src, f_len, f_newv, f0, hp, hc, s_expect, s_dst, s_src, s_len, s_newv, i2, i3, i4, step_up, step_up1, step_down]
            · intro x x1 x2 x3 x4
              have := i5 x x1 x2 x3 x4
              simp at x4
              simp [rrun, arm_cbneMemcpyStore_rel, slotOf, setWidth32_setWidth hn, h_v, h_expect, h_dst, h_src, h_len, h_newv, f_v, f_expect, f_dst, f_src, f_len, f_newv, f0, hp, hc, s_expect, s_dst, s_src, s_len, s_newv, x1, x2, x3, x4, this]
            · simp [rrun, arm_cbneMemcpyStore_rel]
            · intro x hx
              simp [rrun, arm_cbneMemcpyStore_rel, slotOf, setWidth32_setWidth hn, h_v, h_expect, h_dst, h_src, h_len, h_newv, f_v, f_expect, f_dst, f_src, f_len, f_newv, f0, hp, hc, s_expect, s_dst, s_src, s_len, s_newv, i2, i3, i4, step_up, step_up1, step_down] at hx
              grind)
          (l, fun _ => False) (by
            refine ⟨13, ?_, ?_, ?_, ?_, ?_, ?_, ?_, ?_⟩
            · simp [rrun, arm_cbneMemcpyStore_rel, slotOf, setWidth32_setWidth hn, h_v, h_expect, h_dst, h_src, h_len, h_newv, f_v, f_expect, f_dst, f_src, f_len, f_newv, f0, hp, hc, s_expect, s_dst, s_src, s_len, s_newv, he, h0]
              try grind
            · simp [rrun, arm_cbneMemcpyStore_rel, slotOf, setWidth32_setWidth hn, h_v, h_expect, h_dst, h_src, h_len, h_newv, f_v, f_expect, f_dst, f_src, f_len, f_newv, f0, hp, hc, s_expect, s_dst, s_src, s_len, s_newv, he, h0, hpos]
            · simp [rrun, arm_cbneMemcpyStore_rel, slotOf, setWidth32_setWidth hn, h_v, h_expect, h_dst, h_src, h_len, h_newv, f_v, f_expect, f_dst, f_src, f_len, f_newv, f0, hp, hc, s_expect, s_dst, s_src, s_len, s_newv, he, h0]
            · simp [rrun, arm_cbneMemcpyStore_rel, slotOf, setWidth32_setWidth hn, h_v, h_expect, h_dst, h_src, h_len, h_newv, f_v, f_expect, f_dst, f_src, f_len, f_newv, f0, hp, hc, s_expect, s_dst, s_src, s_len, s_newv, he, h0]
            · simp [rrun, arm_cbneMemcpyStore_rel, slotOf, setWidth32_setWidth hn, h_v, h_expect, h_dst, h_src, h_len, h_newv, f_v, f_expect, f_dst, f_src, f_len, f_newv, f0, hp, hc, s_expect, s_dst, s_src, s_len, s_newv, he, h0]
            · intro x x1 x2 x3 x4
              simp at x4
              simp [rrun, arm_cbneMemcpyStore_rel, slotOf, setWidth32_setWidth hn, h_v, h_expect, h_dst, h_src, h_len, h_newv, f_v, f_expect, f_dst, f_src, f_len, f_newv, f0, hp, hc, s_expect, s_dst, s_src, s_len, s_newv, he, h0, x1, x2, x3, x4]
            · simp [rrun, arm_cbneMemcpyStore_rel, slotOf, setWidth32_setWidth hn, h_v, h_expect, h_dst, h_src, h_len, h_newv, f_v, f_expect, f_dst, f_src, f_len, f_newv, f0, hp, hc, s_expect, s_dst, s_src, s_len, s_newv, he, h0]
            · intro x hx
              simp [rrun, arm_cbneMemcpyStore_rel, slotOf, setWidth32_setWidth hn, h_v, h_expect, h_dst, h_src, h_len, h_newv, f_v, f_expect, f_dst, f_src, f_len, f_newv, f0, hp, hc, s_expect, s_dst, s_src, s_len, s_newv, he, h0] at hx
              try grind)
        apply OKs.all (k := k + 6)
        refine hk1.finish ?_
        generalize cit (arm_cbneMemcpyStore_rel al be csa) fv m k (l, fun _ => False) = s1 at hk
        obtain ⟨⟨R, S, z, pc⟩, F⟩ := s1
        obtain ⟨i1, i2, i3, i4, i5, i6, i7⟩ := hk
        simp only [Nat.lt_irrefl, if_false] at i1 i2 i3 i4 i5 i6 i7
        subst i1 i6
        have j1 : R (al .v) = v := (i5 (al .v) (by simp [*]) (by simp [*]) (by simp [*]) (by simp [*])).trans h_v
        have j2 : R (al .newv) = newv :=
          (i5 (al .newv) (by simp [*]) (by simp [*]) (by simp [*]) (by simp [*])).trans h_newv
        simp [rrun, arm_cbneMemcpyStore_rel, slotOf, setWidth32_setWidth hn, h_v, h_expect, h_dst, h_src, h_len, h_newv, f_v, f_expect, f_dst, f_src, f_len, f_newv, f0, hp, hc, s_expect, s_dst, s_src, s_len, s_newv, j1, j2]
        try grind
    · have he2 := Ne.symm he
      exact OKs.all (k := 20) (by simp [rrun, arm_cbneMemcpyStore_rel, slotOf, setWidth32_setWidth hn, h_v, h_expect, h_dst, h_src, h_len, h_newv, f_v, f_expect, f_dst, f_src, f_len, f_newv, f0, hp, hc, s_expect, s_dst, s_src, s_len, s_newv, he, he2] <;> grind)
  · have hne2 := Ne.symm hfv
    exact OKs.all (k := 20) (by simp [rrun, arm_cbneMemcpyStore_rel, slotOf, setWidth32_setWidth hn, h_v, h_expect, h_dst, h_src, h_len, h_newv, f_v, f_expect, f_dst, f_src, f_len, f_newv, f0, hp, hc, s_expect, s_dst, s_src, s_len, s_newv, hfv, hne2] <;> grind)

end Verif.Rseq

