import Verif.RseqTac
/-
Each straight-line helper program implements its pseudo-code (one lemma per program; the memory-copy
helpers, which loop, are in `RseqMemcpy.lean`).
-/

set_option linter.unusedVariables false
set_option linter.unusedSimpArgs false

namespace Verif.Rseq

variable {n : Nat}

theorem x86_64_cbneStore_ok (hn : 4 ≤ n) (al : Opnd → Nat) (be : Bool) (csa v expect newv : W n) :
    Implements (x86_64_cbneStore al be csa) [rax] false al (.cbneStore v expect newv) := by
  intro cpu fv l m h
  have h_v := h.reg .v _ rfl
  have f_v := h.free .v _ rfl
  have h_expect := h.reg .expect _ rfl
  have f_expect := h.free .expect _ rfl
  have h_newv := h.reg .newv _ rfl
  have f_newv := h.free .newv _ rfl
  have f0 := h.freeCpu
  have hp := h.pc
  have hc := h.cpuV
  simp [rregs] at f0 f_v f_expect f_newv
  refine ⟨?_, ?_⟩
  · intro hfv; subst hfv
    by_cases he : ldw be m v = expect
    · exact ⟨30, by simp +contextual [rrun, x86_64_cbneStore, hp, hc, h_v, h_expect, h_newv, f0, f_v, f_expect, f_newv, pseudo, he]⟩
    · have hn1 := Ne.symm he; exact ⟨30, by simp +contextual [rrun, x86_64_cbneStore, hp, hc, h_v, h_expect, h_newv, f0, f_v, f_expect, f_newv, pseudo, he, hn1]⟩
  · intro hne
    have hne2 := Ne.symm hne
    exact ⟨30, by simp +contextual [rrun, x86_64_cbneStore, hp, hc, h_v, h_expect, h_newv, f0, f_v, f_expect, f_newv, pseudo, hne, hne2]⟩

theorem x86_64_cbeqStoreAddLoadStore_ok (hn : 4 ≤ n) (al : Opnd → Nat) (be : Bool) (csa v expectnot voffp load : W n) :
    Implements (x86_64_cbeqStoreAddLoadStore al be csa) [rax, rbx] false al (.cbeqStoreAddLoadStore v expectnot voffp load) := by
  intro cpu fv l m h
  have h_v := h.reg .v _ rfl
  have f_v := h.free .v _ rfl
  have h_expectnot := h.reg .expectnot _ rfl
  have f_expectnot := h.free .expectnot _ rfl
  have h_voffp := h.reg .voffp _ rfl
  have f_voffp := h.free .voffp _ rfl
  have h_load := h.reg .load _ rfl
  have f_load := h.free .load _ rfl
  have f0 := h.freeCpu
  have hp := h.pc
  have hc := h.cpuV
  simp [rregs] at f0 f_v f_expectnot f_voffp f_load
  refine ⟨?_, ?_⟩
  · intro hfv; subst hfv
    by_cases he : ldw be m v = expectnot
    · exact ⟨30, by simp +contextual [rrun, x86_64_cbeqStoreAddLoadStore, hp, hc, h_v, h_expectnot, h_voffp, h_load, f0, f_v, f_expectnot, f_voffp, f_load, pseudo, he]⟩
    · have hn1 := Ne.symm he; exact ⟨30, by simp +contextual [rrun, x86_64_cbeqStoreAddLoadStore, hp, hc, h_v, h_expectnot, h_voffp, h_load, f0, f_v, f_expectnot, f_voffp, f_load, pseudo, he, hn1, BitVec.add_comm]⟩
  · intro hne
    have hne2 := Ne.symm hne
    exact ⟨30, by simp +contextual [rrun, x86_64_cbeqStoreAddLoadStore, hp, hc, h_v, h_expectnot, h_voffp, h_load, f0, f_v, f_expectnot, f_voffp, f_load, pseudo, hne, hne2]⟩

theorem x86_64_addStore_ok (hn : 4 ≤ n) (al : Opnd → Nat) (be : Bool) (csa v count : W n) :
    Implements (x86_64_addStore al be csa) [rax] false al (.addStore v count) := by
  intro cpu fv l m h
  have h_v := h.reg .v _ rfl
  have f_v := h.free .v _ rfl
  have h_count := h.reg .count _ rfl
  have f_count := h.free .count _ rfl
  have f0 := h.freeCpu
  have hp := h.pc
  have hc := h.cpuV
  simp [rregs] at f0 f_v f_count
  refine ⟨?_, ?_⟩
  · intro hfv; subst hfv
    exact ⟨30, by simp +contextual [rrun, x86_64_addStore, hp, hc, h_v, h_count, f0, f_v, f_count, pseudo, BitVec.add_comm]⟩
  · intro hne
    have hne2 := Ne.symm hne
    exact ⟨30, by simp +contextual [rrun, x86_64_addStore, hp, hc, h_v, h_count, f0, f_v, f_count, pseudo, hne, hne2]⟩

theorem x86_64_addLoadLoadAddStore_ok (hn : 4 ≤ n) (al : Opnd → Nat) (be : Bool) (csa ptr off inc : W n) :
    Implements (x86_64_addLoadLoadAddStore al be csa) [rax, rbx, rcx] false al (.addLoadLoadAddStore ptr off inc) := by
  intro cpu fv l m h
  have h_ptr := h.reg .ptr _ rfl
  have f_ptr := h.free .ptr _ rfl
  have h_off := h.reg .off _ rfl
  have f_off := h.free .off _ rfl
  have h_inc := h.reg .inc _ rfl
  have f_inc := h.free .inc _ rfl
  have f0 := h.freeCpu
  have hp := h.pc
  have hc := h.cpuV
  simp [rregs] at f0 f_ptr f_off f_inc
  refine ⟨?_, ?_⟩
  · intro hfv; subst hfv
    exact ⟨30, by simp +contextual [rrun, x86_64_addLoadLoadAddStore, hp, hc, h_ptr, h_off, h_inc, f0, f_ptr, f_off, f_inc, pseudo, BitVec.add_comm]⟩
  · intro hne
    have hne2 := Ne.symm hne
    exact ⟨30, by simp +contextual [rrun, x86_64_addLoadLoadAddStore, hp, hc, h_ptr, h_off, h_inc, f0, f_ptr, f_off, f_inc, pseudo, hne, hne2]⟩

theorem x86_64_cbneCbneStore_ok (hn : 4 ≤ n) (al : Opnd → Nat) (be : Bool) (csa v expect v2 expect2 newv : W n) :
    Implements (x86_64_cbneCbneStore al be csa) [rax] false al (.cbneCbneStore v expect v2 expect2 newv) := by
  intro cpu fv l m h
  have h_v := h.reg .v _ rfl
  have f_v := h.free .v _ rfl
  have h_expect := h.reg .expect _ rfl
  have f_expect := h.free .expect _ rfl
  have h_v2 := h.reg .v2 _ rfl
  have f_v2 := h.free .v2 _ rfl
  have h_expect2 := h.reg .expect2 _ rfl
  have f_expect2 := h.free .expect2 _ rfl
  have h_newv := h.reg .newv _ rfl
  have f_newv := h.free .newv _ rfl
  have f0 := h.freeCpu
  have hp := h.pc
  have hc := h.cpuV
  simp [rregs] at f0 f_v f_expect f_v2 f_expect2 f_newv
  refine ⟨?_, ?_⟩
  · intro hfv; subst hfv
    by_cases he : ldw be m v = expect
    · by_cases he2 : ldw be m v2 = expect2
      · exact ⟨30, by simp +contextual [rrun, x86_64_cbneCbneStore, hp, hc, h_v, h_expect, h_v2, h_expect2, h_newv, f0, f_v, f_expect, f_v2, f_expect2, f_newv, pseudo, he, he2]⟩
      · have hn2 := Ne.symm he2; exact ⟨30, by simp +contextual [rrun, x86_64_cbneCbneStore, hp, hc, h_v, h_expect, h_v2, h_expect2, h_newv, f0, f_v, f_expect, f_v2, f_expect2, f_newv, pseudo, he, he2, hn2]⟩
    · have hn1 := Ne.symm he; exact ⟨30, by simp +contextual [rrun, x86_64_cbneCbneStore, hp, hc, h_v, h_expect, h_v2, h_expect2, h_newv, f0, f_v, f_expect, f_v2, f_expect2, f_newv, pseudo, he, hn1]⟩
  · intro hne
    have hne2 := Ne.symm hne
    exact ⟨30, by simp +contextual [rrun, x86_64_cbneCbneStore, hp, hc, h_v, h_expect, h_v2, h_expect2, h_newv, f0, f_v, f_expect, f_v2, f_expect2, f_newv, pseudo, hne, hne2]⟩

theorem x86_64_cbneStoreStore_ok (hn : 4 ≤ n) (al : Opnd → Nat) (be : Bool) (csa v expect v2 newv2 newv : W n) :
    Implements (x86_64_cbneStoreStore al be csa) [rax] false al (.cbneStoreStore v expect v2 newv2 newv) := by
  intro cpu fv l m h
  have h_v := h.reg .v _ rfl
  have f_v := h.free .v _ rfl
  have h_expect := h.reg .expect _ rfl
  have f_expect := h.free .expect _ rfl
  have h_v2 := h.reg .v2 _ rfl
  have f_v2 := h.free .v2 _ rfl
  have h_newv2 := h.reg .newv2 _ rfl
  have f_newv2 := h.free .newv2 _ rfl
  have h_newv := h.reg .newv _ rfl
  have f_newv := h.free .newv _ rfl
  have f0 := h.freeCpu
  have hp := h.pc
  have hc := h.cpuV
  simp [rregs] at f0 f_v f_expect f_v2 f_newv2 f_newv
  refine ⟨?_, ?_⟩
  · intro hfv; subst hfv
    by_cases he : ldw be m v = expect
    · exact ⟨30, by simp +contextual [rrun, x86_64_cbneStoreStore, hp, hc, h_v, h_expect, h_v2, h_newv2, h_newv, f0, f_v, f_expect, f_v2, f_newv2, f_newv, pseudo, he]⟩
    · have hn1 := Ne.symm he; exact ⟨30, by simp +contextual [rrun, x86_64_cbneStoreStore, hp, hc, h_v, h_expect, h_v2, h_newv2, h_newv, f0, f_v, f_expect, f_v2, f_newv2, f_newv, pseudo, he, hn1]⟩
  · intro hne
    have hne2 := Ne.symm hne
    exact ⟨30, by simp +contextual [rrun, x86_64_cbneStoreStore, hp, hc, h_v, h_expect, h_v2, h_newv2, h_newv, f0, f_v, f_expect, f_v2, f_newv2, f_newv, pseudo, hne, hne2]⟩

theorem i386_cbneStore_ok (hn : 4 ≤ n) (al : Opnd → Nat) (be : Bool) (csa v expect newv : W n) :
    Implements (i386_cbneStore al be csa) [rax] false al (.cbneStore v expect newv) := by
  intro cpu fv l m h
  have h_v := h.reg .v _ rfl
  have f_v := h.free .v _ rfl
  have h_expect := h.reg .expect _ rfl
  have f_expect := h.free .expect _ rfl
  have h_newv := h.reg .newv _ rfl
  have f_newv := h.free .newv _ rfl
  have f0 := h.freeCpu
  have hp := h.pc
  have hc := h.cpuV
  simp [rregs] at f0 f_v f_expect f_newv
  refine ⟨?_, ?_⟩
  · intro hfv; subst hfv
    by_cases he : ldw be m v = expect
    · exact ⟨30, by simp +contextual [rrun, i386_cbneStore, hp, hc, h_v, h_expect, h_newv, f0, f_v, f_expect, f_newv, pseudo, slotOf, he]⟩
    · have hn1 := Ne.symm he; exact ⟨30, by simp +contextual [rrun, i386_cbneStore, hp, hc, h_v, h_expect, h_newv, f0, f_v, f_expect, f_newv, pseudo, slotOf, he, hn1]⟩
  · intro hne
    have hne2 := Ne.symm hne
    exact ⟨30, by simp +contextual [rrun, i386_cbneStore, hp, hc, h_v, h_expect, h_newv, f0, f_v, f_expect, f_newv, pseudo, slotOf, hne, hne2]⟩

theorem i386_cbeqStoreAddLoadStore_ok (hn : 4 ≤ n) (al : Opnd → Nat) (be : Bool) (csa v expectnot voffp load : W n) :
    Implements (i386_cbeqStoreAddLoadStore al be csa) [rax, rbx] false al (.cbeqStoreAddLoadStore v expectnot voffp load) := by
  intro cpu fv l m h
  have h_v := h.reg .v _ rfl
  have f_v := h.free .v _ rfl
  have h_expectnot := h.reg .expectnot _ rfl
  have f_expectnot := h.free .expectnot _ rfl
  have h_voffp := h.reg .voffp _ rfl
  have f_voffp := h.free .voffp _ rfl
  have h_load := h.reg .load _ rfl
  have f_load := h.free .load _ rfl
  have f0 := h.freeCpu
  have hp := h.pc
  have hc := h.cpuV
  simp [rregs] at f0 f_v f_expectnot f_voffp f_load
  refine ⟨?_, ?_⟩
  · intro hfv; subst hfv
    by_cases he : ldw be m v = expectnot
    · exact ⟨30, by simp +contextual [rrun, i386_cbeqStoreAddLoadStore, hp, hc, h_v, h_expectnot, h_voffp, h_load, f0, f_v, f_expectnot, f_voffp, f_load, pseudo, slotOf, he]⟩
    · have hn1 := Ne.symm he; exact ⟨30, by simp +contextual [rrun, i386_cbeqStoreAddLoadStore, hp, hc, h_v, h_expectnot, h_voffp, h_load, f0, f_v, f_expectnot, f_voffp, f_load, pseudo, slotOf, he, hn1, BitVec.add_comm]⟩
  · intro hne
    have hne2 := Ne.symm hne
    exact ⟨30, by simp +contextual [rrun, i386_cbeqStoreAddLoadStore, hp, hc, h_v, h_expectnot, h_voffp, h_load, f0, f_v, f_expectnot, f_voffp, f_load, pseudo, slotOf, hne, hne2]⟩

theorem i386_addStore_ok (hn : 4 ≤ n) (al : Opnd → Nat) (be : Bool) (csa v count : W n) :
    Implements (i386_addStore al be csa) [rax] false al (.addStore v count) := by
  intro cpu fv l m h
  have h_v := h.reg .v _ rfl
  have f_v := h.free .v _ rfl
  have h_count := h.reg .count _ rfl
  have f_count := h.free .count _ rfl
  have f0 := h.freeCpu
  have hp := h.pc
  have hc := h.cpuV
  simp [rregs] at f0 f_v f_count
  refine ⟨?_, ?_⟩
  · intro hfv; subst hfv
    exact ⟨30, by simp +contextual [rrun, i386_addStore, hp, hc, h_v, h_count, f0, f_v, f_count, pseudo, slotOf, BitVec.add_comm]⟩
  · intro hne
    have hne2 := Ne.symm hne
    exact ⟨30, by simp +contextual [rrun, i386_addStore, hp, hc, h_v, h_count, f0, f_v, f_count, pseudo, slotOf, hne, hne2]⟩

theorem i386_cbneCbneStore_ok (hn : 4 ≤ n) (al : Opnd → Nat) (be : Bool) (csa v expect v2 expect2 newv : W n) :
    Implements (i386_cbneCbneStore al be csa) [rax] false al (.cbneCbneStore v expect v2 expect2 newv) := by
  intro cpu fv l m h
  have h_v := h.reg .v _ rfl
  have f_v := h.free .v _ rfl
  have h_expect := h.reg .expect _ rfl
  have f_expect := h.free .expect _ rfl
  have s_expect := h.slot .expect _ rfl (by decide)
  simp only [slotOf] at s_expect
  have h_v2 := h.reg .v2 _ rfl
  have f_v2 := h.free .v2 _ rfl
  have h_expect2 := h.reg .expect2 _ rfl
  have f_expect2 := h.free .expect2 _ rfl
  have h_newv := h.reg .newv _ rfl
  have f_newv := h.free .newv _ rfl
  have s_newv := h.slot .newv _ rfl (by decide)
  simp only [slotOf] at s_newv
  have f0 := h.freeCpu
  have hp := h.pc
  have hc := h.cpuV
  simp [rregs] at f0 f_v f_expect f_v2 f_expect2 f_newv
  refine ⟨?_, ?_⟩
  · intro hfv; subst hfv
    by_cases he : ldw be m v = expect
    · by_cases he2 : ldw be m v2 = expect2
      · exact ⟨30, by simp +contextual [rrun, i386_cbneCbneStore, hp, hc, h_v, h_expect, s_expect, h_v2, h_expect2, h_newv, s_newv, f0, f_v, f_expect, f_v2, f_expect2, f_newv, pseudo, slotOf, he, he2]⟩
      · have hn2 := Ne.symm he2; exact ⟨30, by simp +contextual [rrun, i386_cbneCbneStore, hp, hc, h_v, h_expect, s_expect, h_v2, h_expect2, h_newv, s_newv, f0, f_v, f_expect, f_v2, f_expect2, f_newv, pseudo, slotOf, he, he2, hn2]⟩
    · have hn1 := Ne.symm he; exact ⟨30, by simp +contextual [rrun, i386_cbneCbneStore, hp, hc, h_v, h_expect, s_expect, h_v2, h_expect2, h_newv, s_newv, f0, f_v, f_expect, f_v2, f_expect2, f_newv, pseudo, slotOf, he, hn1]⟩
  · intro hne
    have hne2 := Ne.symm hne
    exact ⟨30, by simp +contextual [rrun, i386_cbneCbneStore, hp, hc, h_v, h_expect, s_expect, h_v2, h_expect2, h_newv, s_newv, f0, f_v, f_expect, f_v2, f_expect2, f_newv, pseudo, slotOf, hne, hne2]⟩

theorem i386_cbneStoreStore_ok (hn : 4 ≤ n) (al : Opnd → Nat) (be : Bool) (csa v expect v2 newv2 newv : W n) :
    Implements (i386_cbneStoreStore al be csa) [rax] false al (.cbneStoreStore v expect v2 newv2 newv) := by
  intro cpu fv l m h
  have h_v := h.reg .v _ rfl
  have f_v := h.free .v _ rfl
  have h_expect := h.reg .expect _ rfl
  have f_expect := h.free .expect _ rfl
  have s_expect := h.slot .expect _ rfl (by decide)
  simp only [slotOf] at s_expect
  have h_v2 := h.reg .v2 _ rfl
  have f_v2 := h.free .v2 _ rfl
  have h_newv2 := h.reg .newv2 _ rfl
  have f_newv2 := h.free .newv2 _ rfl
  have h_newv := h.reg .newv _ rfl
  have f_newv := h.free .newv _ rfl
  have s_newv := h.slot .newv _ rfl (by decide)
  simp only [slotOf] at s_newv
  have f0 := h.freeCpu
  have hp := h.pc
  have hc := h.cpuV
  simp [rregs] at f0 f_v f_expect f_v2 f_newv2 f_newv
  refine ⟨?_, ?_⟩
  · intro hfv; subst hfv
    by_cases he : ldw be m v = expect
    · exact ⟨30, by simp +contextual [rrun, i386_cbneStoreStore, hp, hc, h_v, h_expect, s_expect, h_v2, h_newv2, h_newv, s_newv, f0, f_v, f_expect, f_v2, f_newv2, f_newv, pseudo, slotOf, he]⟩
    · have hn1 := Ne.symm he; exact ⟨30, by simp +contextual [rrun, i386_cbneStoreStore, hp, hc, h_v, h_expect, s_expect, h_v2, h_newv2, h_newv, s_newv, f0, f_v, f_expect, f_v2, f_newv2, f_newv, pseudo, slotOf, he, hn1]⟩
  · intro hne
    have hne2 := Ne.symm hne
    exact ⟨30, by simp +contextual [rrun, i386_cbneStoreStore, hp, hc, h_v, h_expect, s_expect, h_v2, h_newv2, h_newv, s_newv, f0, f_v, f_expect, f_v2, f_newv2, f_newv, pseudo, slotOf, hne, hne2]⟩

theorem i386_cbneStoreStore_rel_ok (hn : 4 ≤ n) (al : Opnd → Nat) (be : Bool) (csa v expect v2 newv2 newv : W n) :
    Implements (i386_cbneStoreStore_rel al be csa) [rax] false al (.cbneStoreStore v expect v2 newv2 newv) := by
  intro cpu fv l m h
  have h_v := h.reg .v _ rfl
  have f_v := h.free .v _ rfl
  have h_expect := h.reg .expect _ rfl
  have f_expect := h.free .expect _ rfl
  have s_expect := h.slot .expect _ rfl (by decide)
  simp only [slotOf] at s_expect
  have h_v2 := h.reg .v2 _ rfl
  have f_v2 := h.free .v2 _ rfl
  have h_newv2 := h.reg .newv2 _ rfl
  have f_newv2 := h.free .newv2 _ rfl
  have h_newv := h.reg .newv _ rfl
  have f_newv := h.free .newv _ rfl
  have s_newv := h.slot .newv _ rfl (by decide)
  simp only [slotOf] at s_newv
  have f0 := h.freeCpu
  have hp := h.pc
  have hc := h.cpuV
  simp [rregs] at f0 f_v f_expect f_v2 f_newv2 f_newv
  refine ⟨?_, ?_⟩
  · intro hfv; subst hfv
    by_cases he : ldw be m v = expect
    · exact ⟨30, by simp +contextual [rrun, i386_cbneStoreStore_rel, hp, hc, h_v, h_expect, s_expect, h_v2, h_newv2, h_newv, s_newv, f0, f_v, f_expect, f_v2, f_newv2, f_newv, pseudo, slotOf, he]⟩
    · have hn1 := Ne.symm he; exact ⟨30, by simp +contextual [rrun, i386_cbneStoreStore_rel, hp, hc, h_v, h_expect, s_expect, h_v2, h_newv2, h_newv, s_newv, f0, f_v, f_expect, f_v2, f_newv2, f_newv, pseudo, slotOf, he, hn1]⟩
  · intro hne
    have hne2 := Ne.symm hne
    exact ⟨30, by simp +contextual [rrun, i386_cbneStoreStore_rel, hp, hc, h_v, h_expect, s_expect, h_v2, h_newv2, h_newv, s_newv, f0, f_v, f_expect, f_v2, f_newv2, f_newv, pseudo, slotOf, hne, hne2]⟩

theorem aarch64_cbneStore_ok (hn : 4 ≤ n) (al : Opnd → Nat) (be : Bool) (csa v expect newv : W n) :
    Implements (aarch64_cbneStore al be csa) [x15] false al (.cbneStore v expect newv) := by
  intro cpu fv l m h
  have h_v := h.reg .v _ rfl
  have f_v := h.free .v _ rfl
  have h_expect := h.reg .expect _ rfl
  have f_expect := h.free .expect _ rfl
  have h_newv := h.reg .newv _ rfl
  have f_newv := h.free .newv _ rfl
  have f0 := h.freeCpu
  have hp := h.pc
  have hc := h.cpuV
  simp [rregs] at f0 f_v f_expect f_newv
  refine ⟨?_, ?_⟩
  · intro hfv; subst hfv
    by_cases he : ldw be m v = expect
    · exact ⟨30, by simp +contextual [rrun, aarch64_cbneStore, hp, hc, h_v, h_expect, h_newv, f0, f_v, f_expect, f_newv, pseudo, setWidth32_setWidth hn, sub_eq_zero_iff, he]⟩
    · have hn1 := Ne.symm he; exact ⟨30, by simp +contextual [rrun, aarch64_cbneStore, hp, hc, h_v, h_expect, h_newv, f0, f_v, f_expect, f_newv, pseudo, setWidth32_setWidth hn, sub_eq_zero_iff, he, hn1]⟩
  · intro hne
    have hne2 := Ne.symm hne
    exact ⟨30, by simp +contextual [rrun, aarch64_cbneStore, hp, hc, h_v, h_expect, h_newv, f0, f_v, f_expect, f_newv, pseudo, setWidth32_setWidth hn, sub_eq_zero_iff, hne, hne2]⟩

theorem aarch64_cbeqStoreAddLoadStore_ok (hn : 4 ≤ n) (al : Opnd → Nat) (be : Bool) (csa v expectnot voffp load : W n) :
    Implements (aarch64_cbeqStoreAddLoadStore al be csa) [x15] false al (.cbeqStoreAddLoadStore v expectnot voffp load) := by
  intro cpu fv l m h
  have h_v := h.reg .v _ rfl
  have f_v := h.free .v _ rfl
  have h_expectnot := h.reg .expectnot _ rfl
  have f_expectnot := h.free .expectnot _ rfl
  have h_voffp := h.reg .voffp _ rfl
  have f_voffp := h.free .voffp _ rfl
  have h_load := h.reg .load _ rfl
  have f_load := h.free .load _ rfl
  have f0 := h.freeCpu
  have hp := h.pc
  have hc := h.cpuV
  simp [rregs] at f0 f_v f_expectnot f_voffp f_load
  refine ⟨?_, ?_⟩
  · intro hfv; subst hfv
    by_cases he : ldw be m v = expectnot
    · exact ⟨30, by simp +contextual [rrun, aarch64_cbeqStoreAddLoadStore, hp, hc, h_v, h_expectnot, h_voffp, h_load, f0, f_v, f_expectnot, f_voffp, f_load, pseudo, setWidth32_setWidth hn, sub_eq_zero_iff, he]⟩
    · have hn1 := Ne.symm he; exact ⟨30, by simp +contextual [rrun, aarch64_cbeqStoreAddLoadStore, hp, hc, h_v, h_expectnot, h_voffp, h_load, f0, f_v, f_expectnot, f_voffp, f_load, pseudo, setWidth32_setWidth hn, sub_eq_zero_iff, he, hn1, BitVec.add_comm]⟩
  · intro hne
    have hne2 := Ne.symm hne
    exact ⟨30, by simp +contextual [rrun, aarch64_cbeqStoreAddLoadStore, hp, hc, h_v, h_expectnot, h_voffp, h_load, f0, f_v, f_expectnot, f_voffp, f_load, pseudo, setWidth32_setWidth hn, sub_eq_zero_iff, hne, hne2]⟩

theorem aarch64_addStore_ok (hn : 4 ≤ n) (al : Opnd → Nat) (be : Bool) (csa v count : W n) :
    Implements (aarch64_addStore al be csa) [x15] false al (.addStore v count) := by
  intro cpu fv l m h
  have h_v := h.reg .v _ rfl
  have f_v := h.free .v _ rfl
  have h_count := h.reg .count _ rfl
  have f_count := h.free .count _ rfl
  have f0 := h.freeCpu
  have hp := h.pc
  have hc := h.cpuV
  simp [rregs] at f0 f_v f_count
  refine ⟨?_, ?_⟩
  · intro hfv; subst hfv
    exact ⟨30, by simp +contextual [rrun, aarch64_addStore, hp, hc, h_v, h_count, f0, f_v, f_count, pseudo, setWidth32_setWidth hn, sub_eq_zero_iff, BitVec.add_comm]⟩
  · intro hne
    have hne2 := Ne.symm hne
    exact ⟨30, by simp +contextual [rrun, aarch64_addStore, hp, hc, h_v, h_count, f0, f_v, f_count, pseudo, setWidth32_setWidth hn, sub_eq_zero_iff, hne, hne2]⟩

theorem aarch64_cbneCbneStore_ok (hn : 4 ≤ n) (al : Opnd → Nat) (be : Bool) (csa v expect v2 expect2 newv : W n) :
    Implements (aarch64_cbneCbneStore al be csa) [x15] false al (.cbneCbneStore v expect v2 expect2 newv) := by
  intro cpu fv l m h
  have h_v := h.reg .v _ rfl
  have f_v := h.free .v _ rfl
  have h_expect := h.reg .expect _ rfl
  have f_expect := h.free .expect _ rfl
  have h_v2 := h.reg .v2 _ rfl
  have f_v2 := h.free .v2 _ rfl
  have h_expect2 := h.reg .expect2 _ rfl
  have f_expect2 := h.free .expect2 _ rfl
  have h_newv := h.reg .newv _ rfl
  have f_newv := h.free .newv _ rfl
  have f0 := h.freeCpu
  have hp := h.pc
  have hc := h.cpuV
  simp [rregs] at f0 f_v f_expect f_v2 f_expect2 f_newv
  refine ⟨?_, ?_⟩
  · intro hfv; subst hfv
    by_cases he : ldw be m v = expect
    · by_cases he2 : ldw be m v2 = expect2
      · exact ⟨30, by simp +contextual [rrun, aarch64_cbneCbneStore, hp, hc, h_v, h_expect, h_v2, h_expect2, h_newv, f0, f_v, f_expect, f_v2, f_expect2, f_newv, pseudo, setWidth32_setWidth hn, sub_eq_zero_iff, he, he2]⟩
      · have hn2 := Ne.symm he2; exact ⟨30, by simp +contextual [rrun, aarch64_cbneCbneStore, hp, hc, h_v, h_expect, h_v2, h_expect2, h_newv, f0, f_v, f_expect, f_v2, f_expect2, f_newv, pseudo, setWidth32_setWidth hn, sub_eq_zero_iff, he, he2, hn2]⟩
    · have hn1 := Ne.symm he; exact ⟨30, by simp +contextual [rrun, aarch64_cbneCbneStore, hp, hc, h_v, h_expect, h_v2, h_expect2, h_newv, f0, f_v, f_expect, f_v2, f_expect2, f_newv, pseudo, setWidth32_setWidth hn, sub_eq_zero_iff, he, hn1]⟩
  · intro hne
    have hne2 := Ne.symm hne
    exact ⟨30, by simp +contextual [rrun, aarch64_cbneCbneStore, hp, hc, h_v, h_expect, h_v2, h_expect2, h_newv, f0, f_v, f_expect, f_v2, f_expect2, f_newv, pseudo, setWidth32_setWidth hn, sub_eq_zero_iff, hne, hne2]⟩

theorem aarch64_cbneStoreStore_ok (hn : 4 ≤ n) (al : Opnd → Nat) (be : Bool) (csa v expect v2 newv2 newv : W n) :
    Implements (aarch64_cbneStoreStore al be csa) [x15] false al (.cbneStoreStore v expect v2 newv2 newv) := by
  intro cpu fv l m h
  have h_v := h.reg .v _ rfl
  have f_v := h.free .v _ rfl
  have h_expect := h.reg .expect _ rfl
  have f_expect := h.free .expect _ rfl
  have h_v2 := h.reg .v2 _ rfl
  have f_v2 := h.free .v2 _ rfl
  have h_newv2 := h.reg .newv2 _ rfl
  have f_newv2 := h.free .newv2 _ rfl
  have h_newv := h.reg .newv _ rfl
  have f_newv := h.free .newv _ rfl
  have f0 := h.freeCpu
  have hp := h.pc
  have hc := h.cpuV
  simp [rregs] at f0 f_v f_expect f_v2 f_newv2 f_newv
  refine ⟨?_, ?_⟩
  · intro hfv; subst hfv
    by_cases he : ldw be m v = expect
    · exact ⟨30, by simp +contextual [rrun, aarch64_cbneStoreStore, hp, hc, h_v, h_expect, h_v2, h_newv2, h_newv, f0, f_v, f_expect, f_v2, f_newv2, f_newv, pseudo, setWidth32_setWidth hn, sub_eq_zero_iff, he]⟩
    · have hn1 := Ne.symm he; exact ⟨30, by simp +contextual [rrun, aarch64_cbneStoreStore, hp, hc, h_v, h_expect, h_v2, h_newv2, h_newv, f0, f_v, f_expect, f_v2, f_newv2, f_newv, pseudo, setWidth32_setWidth hn, sub_eq_zero_iff, he, hn1]⟩
  · intro hne
    have hne2 := Ne.symm hne
    exact ⟨30, by simp +contextual [rrun, aarch64_cbneStoreStore, hp, hc, h_v, h_expect, h_v2, h_newv2, h_newv, f0, f_v, f_expect, f_v2, f_newv2, f_newv, pseudo, setWidth32_setWidth hn, sub_eq_zero_iff, hne, hne2]⟩

theorem aarch64_cbneStoreStore_rel_ok (hn : 4 ≤ n) (al : Opnd → Nat) (be : Bool) (csa v expect v2 newv2 newv : W n) :
    Implements (aarch64_cbneStoreStore_rel al be csa) [x15] false al (.cbneStoreStore v expect v2 newv2 newv) := by
  intro cpu fv l m h
  have h_v := h.reg .v _ rfl
  have f_v := h.free .v _ rfl
  have h_expect := h.reg .expect _ rfl
  have f_expect := h.free .expect _ rfl
  have h_v2 := h.reg .v2 _ rfl
  have f_v2 := h.free .v2 _ rfl
  have h_newv2 := h.reg .newv2 _ rfl
  have f_newv2 := h.free .newv2 _ rfl
  have h_newv := h.reg .newv _ rfl
  have f_newv := h.free .newv _ rfl
  have f0 := h.freeCpu
  have hp := h.pc
  have hc := h.cpuV
  simp [rregs] at f0 f_v f_expect f_v2 f_newv2 f_newv
  refine ⟨?_, ?_⟩
  · intro hfv; subst hfv
    by_cases he : ldw be m v = expect
    · exact ⟨30, by simp +contextual [rrun, aarch64_cbneStoreStore_rel, hp, hc, h_v, h_expect, h_v2, h_newv2, h_newv, f0, f_v, f_expect, f_v2, f_newv2, f_newv, pseudo, setWidth32_setWidth hn, sub_eq_zero_iff, he]⟩
    · have hn1 := Ne.symm he; exact ⟨30, by simp +contextual [rrun, aarch64_cbneStoreStore_rel, hp, hc, h_v, h_expect, h_v2, h_newv2, h_newv, f0, f_v, f_expect, f_v2, f_newv2, f_newv, pseudo, setWidth32_setWidth hn, sub_eq_zero_iff, he, hn1]⟩
  · intro hne
    have hne2 := Ne.symm hne
    exact ⟨30, by simp +contextual [rrun, aarch64_cbneStoreStore_rel, hp, hc, h_v, h_expect, h_v2, h_newv2, h_newv, f0, f_v, f_expect, f_v2, f_newv2, f_newv, pseudo, setWidth32_setWidth hn, sub_eq_zero_iff, hne, hne2]⟩

theorem riscv_cbneStore_ok (hn : 4 ≤ n) (al : Opnd → Nat) (be : Bool) (csa v expect newv : W n) :
    Implements (riscv_cbneStore al be csa) [t6] true al (.cbneStore v expect newv) := by
  intro cpu fv l m h
  have h_v := h.reg .v _ rfl
  have f_v := h.free .v _ rfl
  have h_expect := h.reg .expect _ rfl
  have f_expect := h.free .expect _ rfl
  have h_newv := h.reg .newv _ rfl
  have f_newv := h.free .newv _ rfl
  have f0 := h.freeCpu
  have hp := h.pc
  have hc := h.cpuS rfl
  simp [rregs] at f0 f_v f_expect f_newv
  refine ⟨?_, ?_⟩
  · intro hfv; subst hfv
    by_cases he : ldw be m v = expect
    · exact ⟨30, by simp +contextual [rrun, riscv_cbneStore, hp, hc, h_v, h_expect, h_newv, f0, f_v, f_expect, f_newv, pseudo, signExtend_inj hn, he]⟩
    · have hn1 := Ne.symm he; exact ⟨30, by simp +contextual [rrun, riscv_cbneStore, hp, hc, h_v, h_expect, h_newv, f0, f_v, f_expect, f_newv, pseudo, signExtend_inj hn, he, hn1]⟩
  · intro hne
    have hne2 := Ne.symm hne
    exact ⟨30, by simp +contextual [rrun, riscv_cbneStore, hp, hc, h_v, h_expect, h_newv, f0, f_v, f_expect, f_newv, pseudo, signExtend_inj hn, hne, hne2]⟩

theorem riscv_cbeqStoreAddLoadStore_ok (hn : 4 ≤ n) (al : Opnd → Nat) (be : Bool) (csa v expectnot voffp load : W n) :
    Implements (riscv_cbeqStoreAddLoadStore al be csa) [t6] true al (.cbeqStoreAddLoadStore v expectnot voffp load) := by
  intro cpu fv l m h
  have h_v := h.reg .v _ rfl
  have f_v := h.free .v _ rfl
  have h_expectnot := h.reg .expectnot _ rfl
  have f_expectnot := h.free .expectnot _ rfl
  have h_voffp := h.reg .voffp _ rfl
  have f_voffp := h.free .voffp _ rfl
  have h_load := h.reg .load _ rfl
  have f_load := h.free .load _ rfl
  have f0 := h.freeCpu
  have hp := h.pc
  have hc := h.cpuS rfl
  simp [rregs] at f0 f_v f_expectnot f_voffp f_load
  refine ⟨?_, ?_⟩
  · intro hfv; subst hfv
    by_cases he : ldw be m v = expectnot
    · exact ⟨30, by simp +contextual [rrun, riscv_cbeqStoreAddLoadStore, hp, hc, h_v, h_expectnot, h_voffp, h_load, f0, f_v, f_expectnot, f_voffp, f_load, pseudo, signExtend_inj hn, he]⟩
    · have hn1 := Ne.symm he; exact ⟨30, by simp +contextual [rrun, riscv_cbeqStoreAddLoadStore, hp, hc, h_v, h_expectnot, h_voffp, h_load, f0, f_v, f_expectnot, f_voffp, f_load, pseudo, signExtend_inj hn, he, hn1, BitVec.add_comm]⟩
  · intro hne
    have hne2 := Ne.symm hne
    exact ⟨30, by simp +contextual [rrun, riscv_cbeqStoreAddLoadStore, hp, hc, h_v, h_expectnot, h_voffp, h_load, f0, f_v, f_expectnot, f_voffp, f_load, pseudo, signExtend_inj hn, hne, hne2]⟩

theorem riscv_addStore_ok (hn : 4 ≤ n) (al : Opnd → Nat) (be : Bool) (csa v count : W n) :
    Implements (riscv_addStore al be csa) [t6] true al (.addStore v count) := by
  intro cpu fv l m h
  have h_v := h.reg .v _ rfl
  have f_v := h.free .v _ rfl
  have h_count := h.reg .count _ rfl
  have f_count := h.free .count _ rfl
  have f0 := h.freeCpu
  have hp := h.pc
  have hc := h.cpuS rfl
  simp [rregs] at f0 f_v f_count
  refine ⟨?_, ?_⟩
  · intro hfv; subst hfv
    exact ⟨30, by simp +contextual [rrun, riscv_addStore, hp, hc, h_v, h_count, f0, f_v, f_count, pseudo, signExtend_inj hn, BitVec.add_comm]⟩
  · intro hne
    have hne2 := Ne.symm hne
    exact ⟨30, by simp +contextual [rrun, riscv_addStore, hp, hc, h_v, h_count, f0, f_v, f_count, pseudo, signExtend_inj hn, hne, hne2]⟩

theorem riscv_cbneCbneStore_ok (hn : 4 ≤ n) (al : Opnd → Nat) (be : Bool) (csa v expect v2 expect2 newv : W n) :
    Implements (riscv_cbneCbneStore al be csa) [t6] true al (.cbneCbneStore v expect v2 expect2 newv) := by
  intro cpu fv l m h
  have h_v := h.reg .v _ rfl
  have f_v := h.free .v _ rfl
  have h_expect := h.reg .expect _ rfl
  have f_expect := h.free .expect _ rfl
  have h_v2 := h.reg .v2 _ rfl
  have f_v2 := h.free .v2 _ rfl
  have h_expect2 := h.reg .expect2 _ rfl
  have f_expect2 := h.free .expect2 _ rfl
  have h_newv := h.reg .newv _ rfl
  have f_newv := h.free .newv _ rfl
  have f0 := h.freeCpu
  have hp := h.pc
  have hc := h.cpuS rfl
  simp [rregs] at f0 f_v f_expect f_v2 f_expect2 f_newv
  refine ⟨?_, ?_⟩
  · intro hfv; subst hfv
    by_cases he : ldw be m v = expect
    · by_cases he2 : ldw be m v2 = expect2
      · exact ⟨30, by simp +contextual [rrun, riscv_cbneCbneStore, hp, hc, h_v, h_expect, h_v2, h_expect2, h_newv, f0, f_v, f_expect, f_v2, f_expect2, f_newv, pseudo, signExtend_inj hn, he, he2]⟩
      · have hn2 := Ne.symm he2; exact ⟨30, by simp +contextual [rrun, riscv_cbneCbneStore, hp, hc, h_v, h_expect, h_v2, h_expect2, h_newv, f0, f_v, f_expect, f_v2, f_expect2, f_newv, pseudo, signExtend_inj hn, he, he2, hn2]⟩
    · have hn1 := Ne.symm he; exact ⟨30, by simp +contextual [rrun, riscv_cbneCbneStore, hp, hc, h_v, h_expect, h_v2, h_expect2, h_newv, f0, f_v, f_expect, f_v2, f_expect2, f_newv, pseudo, signExtend_inj hn, he, hn1]⟩
  · intro hne
    have hne2 := Ne.symm hne
    exact ⟨30, by simp +contextual [rrun, riscv_cbneCbneStore, hp, hc, h_v, h_expect, h_v2, h_expect2, h_newv, f0, f_v, f_expect, f_v2, f_expect2, f_newv, pseudo, signExtend_inj hn, hne, hne2]⟩

theorem riscv_cbneStoreStore_ok (hn : 4 ≤ n) (al : Opnd → Nat) (be : Bool) (csa v expect v2 newv2 newv : W n) :
    Implements (riscv_cbneStoreStore al be csa) [t6] true al (.cbneStoreStore v expect v2 newv2 newv) := by
  intro cpu fv l m h
  have h_v := h.reg .v _ rfl
  have f_v := h.free .v _ rfl
  have h_expect := h.reg .expect _ rfl
  have f_expect := h.free .expect _ rfl
  have h_v2 := h.reg .v2 _ rfl
  have f_v2 := h.free .v2 _ rfl
  have h_newv2 := h.reg .newv2 _ rfl
  have f_newv2 := h.free .newv2 _ rfl
  have h_newv := h.reg .newv _ rfl
  have f_newv := h.free .newv _ rfl
  have f0 := h.freeCpu
  have hp := h.pc
  have hc := h.cpuS rfl
  simp [rregs] at f0 f_v f_expect f_v2 f_newv2 f_newv
  refine ⟨?_, ?_⟩
  · intro hfv; subst hfv
    by_cases he : ldw be m v = expect
    · exact ⟨30, by simp +contextual [rrun, riscv_cbneStoreStore, hp, hc, h_v, h_expect, h_v2, h_newv2, h_newv, f0, f_v, f_expect, f_v2, f_newv2, f_newv, pseudo, signExtend_inj hn, he]⟩
    · have hn1 := Ne.symm he; exact ⟨30, by simp +contextual [rrun, riscv_cbneStoreStore, hp, hc, h_v, h_expect, h_v2, h_newv2, h_newv, f0, f_v, f_expect, f_v2, f_newv2, f_newv, pseudo, signExtend_inj hn, he, hn1]⟩
  · intro hne
    have hne2 := Ne.symm hne
    exact ⟨30, by simp +contextual [rrun, riscv_cbneStoreStore, hp, hc, h_v, h_expect, h_v2, h_newv2, h_newv, f0, f_v, f_expect, f_v2, f_newv2, f_newv, pseudo, signExtend_inj hn, hne, hne2]⟩

theorem riscv_cbneStoreStore_rel_ok (hn : 4 ≤ n) (al : Opnd → Nat) (be : Bool) (csa v expect v2 newv2 newv : W n) :
    Implements (riscv_cbneStoreStore_rel al be csa) [t6] true al (.cbneStoreStore v expect v2 newv2 newv) := by
  intro cpu fv l m h
  have h_v := h.reg .v _ rfl
  have f_v := h.free .v _ rfl
  have h_expect := h.reg .expect _ rfl
  have f_expect := h.free .expect _ rfl
  have h_v2 := h.reg .v2 _ rfl
  have f_v2 := h.free .v2 _ rfl
  have h_newv2 := h.reg .newv2 _ rfl
  have f_newv2 := h.free .newv2 _ rfl
  have h_newv := h.reg .newv _ rfl
  have f_newv := h.free .newv _ rfl
  have f0 := h.freeCpu
  have hp := h.pc
  have hc := h.cpuS rfl
  simp [rregs] at f0 f_v f_expect f_v2 f_newv2 f_newv
  refine ⟨?_, ?_⟩
  · intro hfv; subst hfv
    by_cases he : ldw be m v = expect
    · exact ⟨30, by simp +contextual [rrun, riscv_cbneStoreStore_rel, hp, hc, h_v, h_expect, h_v2, h_newv2, h_newv, f0, f_v, f_expect, f_v2, f_newv2, f_newv, pseudo, signExtend_inj hn, he]⟩
    · have hn1 := Ne.symm he; exact ⟨30, by simp +contextual [rrun, riscv_cbneStoreStore_rel, hp, hc, h_v, h_expect, h_v2, h_newv2, h_newv, f0, f_v, f_expect, f_v2, f_newv2, f_newv, pseudo, signExtend_inj hn, he, hn1]⟩
  · intro hne
    have hne2 := Ne.symm hne
    exact ⟨30, by simp +contextual [rrun, riscv_cbneStoreStore_rel, hp, hc, h_v, h_expect, h_v2, h_newv2, h_newv, f0, f_v, f_expect, f_v2, f_newv2, f_newv, pseudo, signExtend_inj hn, hne, hne2]⟩

theorem ppc_cbneStore_ok (hn : 4 ≤ n) (al : Opnd → Nat) (be : Bool) (csa v expect newv : W n) :
    Implements (ppc_cbneStore al be csa) [r17] false al (.cbneStore v expect newv) := by
  intro cpu fv l m h
  have h_v := h.reg .v _ rfl
  have f_v := h.free .v _ rfl
  have h_expect := h.reg .expect _ rfl
  have f_expect := h.free .expect _ rfl
  have h_newv := h.reg .newv _ rfl
  have f_newv := h.free .newv _ rfl
  have f0 := h.freeCpu
  have hp := h.pc
  have hc := h.cpuV
  simp [rregs] at f0 f_v f_expect f_newv
  refine ⟨?_, ?_⟩
  · intro hfv; subst hfv
    by_cases he : ldw be m v = expect
    · exact ⟨30, by simp +contextual [rrun, ppc_cbneStore, hp, hc, h_v, h_expect, h_newv, f0, f_v, f_expect, f_newv, pseudo, setWidth32_setWidth hn, he]⟩
    · have hn1 := Ne.symm he; exact ⟨30, by simp +contextual [rrun, ppc_cbneStore, hp, hc, h_v, h_expect, h_newv, f0, f_v, f_expect, f_newv, pseudo, setWidth32_setWidth hn, he, hn1]⟩
  · intro hne
    have hne2 := Ne.symm hne
    exact ⟨30, by simp +contextual [rrun, ppc_cbneStore, hp, hc, h_v, h_expect, h_newv, f0, f_v, f_expect, f_newv, pseudo, setWidth32_setWidth hn, hne, hne2]⟩

theorem ppc_cbeqStoreAddLoadStore_ok (hn : 4 ≤ n) (al : Opnd → Nat) (be : Bool) (csa v expectnot voffp load : W n) :
    Implements (ppc_cbeqStoreAddLoadStore al be csa) [r17] false al (.cbeqStoreAddLoadStore v expectnot voffp load) := by
  intro cpu fv l m h
  have h_v := h.reg .v _ rfl
  have f_v := h.free .v _ rfl
  have h_expectnot := h.reg .expectnot _ rfl
  have f_expectnot := h.free .expectnot _ rfl
  have h_voffp := h.reg .voffp _ rfl
  have f_voffp := h.free .voffp _ rfl
  have h_load := h.reg .load _ rfl
  have f_load := h.free .load _ rfl
  have f0 := h.freeCpu
  have hp := h.pc
  have hc := h.cpuV
  simp [rregs] at f0 f_v f_expectnot f_voffp f_load
  refine ⟨?_, ?_⟩
  · intro hfv; subst hfv
    by_cases he : ldw be m v = expectnot
    · exact ⟨30, by simp +contextual [rrun, ppc_cbeqStoreAddLoadStore, hp, hc, h_v, h_expectnot, h_voffp, h_load, f0, f_v, f_expectnot, f_voffp, f_load, pseudo, setWidth32_setWidth hn, he]⟩
    · have hn1 := Ne.symm he; exact ⟨30, by simp +contextual [rrun, ppc_cbeqStoreAddLoadStore, hp, hc, h_v, h_expectnot, h_voffp, h_load, f0, f_v, f_expectnot, f_voffp, f_load, pseudo, setWidth32_setWidth hn, he, hn1, BitVec.add_comm]⟩
  · intro hne
    have hne2 := Ne.symm hne
    exact ⟨30, by simp +contextual [rrun, ppc_cbeqStoreAddLoadStore, hp, hc, h_v, h_expectnot, h_voffp, h_load, f0, f_v, f_expectnot, f_voffp, f_load, pseudo, setWidth32_setWidth hn, hne, hne2]⟩

theorem ppc_addStore_ok (hn : 4 ≤ n) (al : Opnd → Nat) (be : Bool) (csa v count : W n) :
    Implements (ppc_addStore al be csa) [r17] false al (.addStore v count) := by
  intro cpu fv l m h
  have h_v := h.reg .v _ rfl
  have f_v := h.free .v _ rfl
  have h_count := h.reg .count _ rfl
  have f_count := h.free .count _ rfl
  have f0 := h.freeCpu
  have hp := h.pc
  have hc := h.cpuV
  simp [rregs] at f0 f_v f_count
  refine ⟨?_, ?_⟩
  · intro hfv; subst hfv
    exact ⟨30, by simp +contextual [rrun, ppc_addStore, hp, hc, h_v, h_count, f0, f_v, f_count, pseudo, setWidth32_setWidth hn, BitVec.add_comm]⟩
  · intro hne
    have hne2 := Ne.symm hne
    exact ⟨30, by simp +contextual [rrun, ppc_addStore, hp, hc, h_v, h_count, f0, f_v, f_count, pseudo, setWidth32_setWidth hn, hne, hne2]⟩

theorem ppc_cbneCbneStore_ok (hn : 4 ≤ n) (al : Opnd → Nat) (be : Bool) (csa v expect v2 expect2 newv : W n) :
    Implements (ppc_cbneCbneStore al be csa) [r17] false al (.cbneCbneStore v expect v2 expect2 newv) := by
  intro cpu fv l m h
  have h_v := h.reg .v _ rfl
  have f_v := h.free .v _ rfl
  have h_expect := h.reg .expect _ rfl
  have f_expect := h.free .expect _ rfl
  have h_v2 := h.reg .v2 _ rfl
  have f_v2 := h.free .v2 _ rfl
  have h_expect2 := h.reg .expect2 _ rfl
  have f_expect2 := h.free .expect2 _ rfl
  have h_newv := h.reg .newv _ rfl
  have f_newv := h.free .newv _ rfl
  have f0 := h.freeCpu
  have hp := h.pc
  have hc := h.cpuV
  simp [rregs] at f0 f_v f_expect f_v2 f_expect2 f_newv
  refine ⟨?_, ?_⟩
  · intro hfv; subst hfv
    by_cases he : ldw be m v = expect
    · by_cases he2 : ldw be m v2 = expect2
      · exact ⟨30, by simp +contextual [rrun, ppc_cbneCbneStore, hp, hc, h_v, h_expect, h_v2, h_expect2, h_newv, f0, f_v, f_expect, f_v2, f_expect2, f_newv, pseudo, setWidth32_setWidth hn, he, he2]⟩
      · have hn2 := Ne.symm he2; exact ⟨30, by simp +contextual [rrun, ppc_cbneCbneStore, hp, hc, h_v, h_expect, h_v2, h_expect2, h_newv, f0, f_v, f_expect, f_v2, f_expect2, f_newv, pseudo, setWidth32_setWidth hn, he, he2, hn2]⟩
    · have hn1 := Ne.symm he; exact ⟨30, by simp +contextual [rrun, ppc_cbneCbneStore, hp, hc, h_v, h_expect, h_v2, h_expect2, h_newv, f0, f_v, f_expect, f_v2, f_expect2, f_newv, pseudo, setWidth32_setWidth hn, he, hn1]⟩
  · intro hne
    have hne2 := Ne.symm hne
    exact ⟨30, by simp +contextual [rrun, ppc_cbneCbneStore, hp, hc, h_v, h_expect, h_v2, h_expect2, h_newv, f0, f_v, f_expect, f_v2, f_expect2, f_newv, pseudo, setWidth32_setWidth hn, hne, hne2]⟩

theorem ppc_cbneStoreStore_ok (hn : 4 ≤ n) (al : Opnd → Nat) (be : Bool) (csa v expect v2 newv2 newv : W n) :
    Implements (ppc_cbneStoreStore al be csa) [r17] false al (.cbneStoreStore v expect v2 newv2 newv) := by
  intro cpu fv l m h
  have h_v := h.reg .v _ rfl
  have f_v := h.free .v _ rfl
  have h_expect := h.reg .expect _ rfl
  have f_expect := h.free .expect _ rfl
  have h_v2 := h.reg .v2 _ rfl
  have f_v2 := h.free .v2 _ rfl
  have h_newv2 := h.reg .newv2 _ rfl
  have f_newv2 := h.free .newv2 _ rfl
  have h_newv := h.reg .newv _ rfl
  have f_newv := h.free .newv _ rfl
  have f0 := h.freeCpu
  have hp := h.pc
  have hc := h.cpuV
  simp [rregs] at f0 f_v f_expect f_v2 f_newv2 f_newv
  refine ⟨?_, ?_⟩
  · intro hfv; subst hfv
    by_cases he : ldw be m v = expect
    · exact ⟨30, by simp +contextual [rrun, ppc_cbneStoreStore, hp, hc, h_v, h_expect, h_v2, h_newv2, h_newv, f0, f_v, f_expect, f_v2, f_newv2, f_newv, pseudo, setWidth32_setWidth hn, he]⟩
    · have hn1 := Ne.symm he; exact ⟨30, by simp +contextual [rrun, ppc_cbneStoreStore, hp, hc, h_v, h_expect, h_v2, h_newv2, h_newv, f0, f_v, f_expect, f_v2, f_newv2, f_newv, pseudo, setWidth32_setWidth hn, he, hn1]⟩
  · intro hne
    have hne2 := Ne.symm hne
    exact ⟨30, by simp +contextual [rrun, ppc_cbneStoreStore, hp, hc, h_v, h_expect, h_v2, h_newv2, h_newv, f0, f_v, f_expect, f_v2, f_newv2, f_newv, pseudo, setWidth32_setWidth hn, hne, hne2]⟩

theorem ppc_cbneStoreStore_rel_ok (hn : 4 ≤ n) (al : Opnd → Nat) (be : Bool) (csa v expect v2 newv2 newv : W n) :
    Implements (ppc_cbneStoreStore_rel al be csa) [r17] false al (.cbneStoreStore v expect v2 newv2 newv) := by
  intro cpu fv l m h
  have h_v := h.reg .v _ rfl
  have f_v := h.free .v _ rfl
  have h_expect := h.reg .expect _ rfl
  have f_expect := h.free .expect _ rfl
  have h_v2 := h.reg .v2 _ rfl
  have f_v2 := h.free .v2 _ rfl
  have h_newv2 := h.reg .newv2 _ rfl
  have f_newv2 := h.free .newv2 _ rfl
  have h_newv := h.reg .newv _ rfl
  have f_newv := h.free .newv _ rfl
  have f0 := h.freeCpu
  have hp := h.pc
  have hc := h.cpuV
  simp [rregs] at f0 f_v f_expect f_v2 f_newv2 f_newv
  refine ⟨?_, ?_⟩
  · intro hfv; subst hfv
    by_cases he : ldw be m v = expect
    · exact ⟨30, by simp +contextual [rrun, ppc_cbneStoreStore_rel, hp, hc, h_v, h_expect, h_v2, h_newv2, h_newv, f0, f_v, f_expect, f_v2, f_newv2, f_newv, pseudo, setWidth32_setWidth hn, he]⟩
    · have hn1 := Ne.symm he; exact ⟨30, by simp +contextual [rrun, ppc_cbneStoreStore_rel, hp, hc, h_v, h_expect, h_v2, h_newv2, h_newv, f0, f_v, f_expect, f_v2, f_newv2, f_newv, pseudo, setWidth32_setWidth hn, he, hn1]⟩
  · intro hne
    have hne2 := Ne.symm hne
    exact ⟨30, by simp +contextual [rrun, ppc_cbneStoreStore_rel, hp, hc, h_v, h_expect, h_v2, h_newv2, h_newv, f0, f_v, f_expect, f_v2, f_newv2, f_newv, pseudo, setWidth32_setWidth hn, hne, hne2]⟩

theorem s390_cbneStore_ok (hn : 4 ≤ n) (al : Opnd → Nat) (be : Bool) (csa v expect newv : W n) :
    Implements (s390_cbneStore al be csa) [g0] false al (.cbneStore v expect newv) := by
  intro cpu fv l m h
  have h_v := h.reg .v _ rfl
  have f_v := h.free .v _ rfl
  have h_expect := h.reg .expect _ rfl
  have f_expect := h.free .expect _ rfl
  have h_newv := h.reg .newv _ rfl
  have f_newv := h.free .newv _ rfl
  have f0 := h.freeCpu
  have hp := h.pc
  have hc := h.cpuV
  simp [rregs] at f0 f_v f_expect f_newv
  refine ⟨?_, ?_⟩
  · intro hfv; subst hfv
    by_cases he : ldw be m v = expect
    · exact ⟨30, by simp +contextual [rrun, s390_cbneStore, hp, hc, h_v, h_expect, h_newv, f0, f_v, f_expect, f_newv, pseudo, he]⟩
    · have hn1 := Ne.symm he; exact ⟨30, by simp +contextual [rrun, s390_cbneStore, hp, hc, h_v, h_expect, h_newv, f0, f_v, f_expect, f_newv, pseudo, he, hn1]⟩
  · intro hne
    have hne2 := Ne.symm hne
    exact ⟨30, by simp +contextual [rrun, s390_cbneStore, hp, hc, h_v, h_expect, h_newv, f0, f_v, f_expect, f_newv, pseudo, hne, hne2]⟩

theorem s390_cbeqStoreAddLoadStore_ok (hn : 4 ≤ n) (al : Opnd → Nat) (be : Bool) (csa v expectnot voffp load : W n) :
    Implements (s390_cbeqStoreAddLoadStore al be csa) [g0, g1] false al (.cbeqStoreAddLoadStore v expectnot voffp load) := by
  intro cpu fv l m h
  have h_v := h.reg .v _ rfl
  have f_v := h.free .v _ rfl
  have h_expectnot := h.reg .expectnot _ rfl
  have f_expectnot := h.free .expectnot _ rfl
  have h_voffp := h.reg .voffp _ rfl
  have f_voffp := h.free .voffp _ rfl
  have h_load := h.reg .load _ rfl
  have f_load := h.free .load _ rfl
  have f0 := h.freeCpu
  have hp := h.pc
  have hc := h.cpuV
  simp [rregs] at f0 f_v f_expectnot f_voffp f_load
  refine ⟨?_, ?_⟩
  · intro hfv; subst hfv
    by_cases he : ldw be m v = expectnot
    · exact ⟨30, by simp +contextual [rrun, s390_cbeqStoreAddLoadStore, hp, hc, h_v, h_expectnot, h_voffp, h_load, f0, f_v, f_expectnot, f_voffp, f_load, pseudo, he]⟩
    · have hn1 := Ne.symm he; exact ⟨30, by simp +contextual [rrun, s390_cbeqStoreAddLoadStore, hp, hc, h_v, h_expectnot, h_voffp, h_load, f0, f_v, f_expectnot, f_voffp, f_load, pseudo, he, hn1, BitVec.add_comm]⟩
  · intro hne
    have hne2 := Ne.symm hne
    exact ⟨30, by simp +contextual [rrun, s390_cbeqStoreAddLoadStore, hp, hc, h_v, h_expectnot, h_voffp, h_load, f0, f_v, f_expectnot, f_voffp, f_load, pseudo, hne, hne2]⟩

theorem s390_addStore_ok (hn : 4 ≤ n) (al : Opnd → Nat) (be : Bool) (csa v count : W n) :
    Implements (s390_addStore al be csa) [g0] false al (.addStore v count) := by
  intro cpu fv l m h
  have h_v := h.reg .v _ rfl
  have f_v := h.free .v _ rfl
  have h_count := h.reg .count _ rfl
  have f_count := h.free .count _ rfl
  have f0 := h.freeCpu
  have hp := h.pc
  have hc := h.cpuV
  simp [rregs] at f0 f_v f_count
  refine ⟨?_, ?_⟩
  · intro hfv; subst hfv
    exact ⟨30, by simp +contextual [rrun, s390_addStore, hp, hc, h_v, h_count, f0, f_v, f_count, pseudo, BitVec.add_comm]⟩
  · intro hne
    have hne2 := Ne.symm hne
    exact ⟨30, by simp +contextual [rrun, s390_addStore, hp, hc, h_v, h_count, f0, f_v, f_count, pseudo, hne, hne2]⟩

theorem s390_cbneCbneStore_ok (hn : 4 ≤ n) (al : Opnd → Nat) (be : Bool) (csa v expect v2 expect2 newv : W n) :
    Implements (s390_cbneCbneStore al be csa) [g0] false al (.cbneCbneStore v expect v2 expect2 newv) := by
  intro cpu fv l m h
  have h_v := h.reg .v _ rfl
  have f_v := h.free .v _ rfl
  have h_expect := h.reg .expect _ rfl
  have f_expect := h.free .expect _ rfl
  have h_v2 := h.reg .v2 _ rfl
  have f_v2 := h.free .v2 _ rfl
  have h_expect2 := h.reg .expect2 _ rfl
  have f_expect2 := h.free .expect2 _ rfl
  have h_newv := h.reg .newv _ rfl
  have f_newv := h.free .newv _ rfl
  have f0 := h.freeCpu
  have hp := h.pc
  have hc := h.cpuV
  simp [rregs] at f0 f_v f_expect f_v2 f_expect2 f_newv
  refine ⟨?_, ?_⟩
  · intro hfv; subst hfv
    by_cases he : ldw be m v = expect
    · by_cases he2 : ldw be m v2 = expect2
      · exact ⟨30, by simp +contextual [rrun, s390_cbneCbneStore, hp, hc, h_v, h_expect, h_v2, h_expect2, h_newv, f0, f_v, f_expect, f_v2, f_expect2, f_newv, pseudo, he, he2]⟩
      · have hn2 := Ne.symm he2; exact ⟨30, by simp +contextual [rrun, s390_cbneCbneStore, hp, hc, h_v, h_expect, h_v2, h_expect2, h_newv, f0, f_v, f_expect, f_v2, f_expect2, f_newv, pseudo, he, he2, hn2]⟩
    · have hn1 := Ne.symm he; exact ⟨30, by simp +contextual [rrun, s390_cbneCbneStore, hp, hc, h_v, h_expect, h_v2, h_expect2, h_newv, f0, f_v, f_expect, f_v2, f_expect2, f_newv, pseudo, he, hn1]⟩
  · intro hne
    have hne2 := Ne.symm hne
    exact ⟨30, by simp +contextual [rrun, s390_cbneCbneStore, hp, hc, h_v, h_expect, h_v2, h_expect2, h_newv, f0, f_v, f_expect, f_v2, f_expect2, f_newv, pseudo, hne, hne2]⟩

theorem s390_cbneStoreStore_ok (hn : 4 ≤ n) (al : Opnd → Nat) (be : Bool) (csa v expect v2 newv2 newv : W n) :
    Implements (s390_cbneStoreStore al be csa) [g0] false al (.cbneStoreStore v expect v2 newv2 newv) := by
  intro cpu fv l m h
  have h_v := h.reg .v _ rfl
  have f_v := h.free .v _ rfl
  have h_expect := h.reg .expect _ rfl
  have f_expect := h.free .expect _ rfl
  have h_v2 := h.reg .v2 _ rfl
  have f_v2 := h.free .v2 _ rfl
  have h_newv2 := h.reg .newv2 _ rfl
  have f_newv2 := h.free .newv2 _ rfl
  have h_newv := h.reg .newv _ rfl
  have f_newv := h.free .newv _ rfl
  have f0 := h.freeCpu
  have hp := h.pc
  have hc := h.cpuV
  simp [rregs] at f0 f_v f_expect f_v2 f_newv2 f_newv
  refine ⟨?_, ?_⟩
  · intro hfv; subst hfv
    by_cases he : ldw be m v = expect
    · exact ⟨30, by simp +contextual [rrun, s390_cbneStoreStore, hp, hc, h_v, h_expect, h_v2, h_newv2, h_newv, f0, f_v, f_expect, f_v2, f_newv2, f_newv, pseudo, he]⟩
    · have hn1 := Ne.symm he; exact ⟨30, by simp +contextual [rrun, s390_cbneStoreStore, hp, hc, h_v, h_expect, h_v2, h_newv2, h_newv, f0, f_v, f_expect, f_v2, f_newv2, f_newv, pseudo, he, hn1]⟩
  · intro hne
    have hne2 := Ne.symm hne
    exact ⟨30, by simp +contextual [rrun, s390_cbneStoreStore, hp, hc, h_v, h_expect, h_v2, h_newv2, h_newv, f0, f_v, f_expect, f_v2, f_newv2, f_newv, pseudo, hne, hne2]⟩

theorem mips_cbneStore_ok (hn : 4 ≤ n) (al : Opnd → Nat) (be : Bool) (csa v expect newv : W n) :
    Implements (mips_cbneStore al be csa) [m4] true al (.cbneStore v expect newv) := by
  intro cpu fv l m h
  have h_v := h.reg .v _ rfl
  have f_v := h.free .v _ rfl
  have h_expect := h.reg .expect _ rfl
  have f_expect := h.free .expect _ rfl
  have h_newv := h.reg .newv _ rfl
  have f_newv := h.free .newv _ rfl
  have f0 := h.freeCpu
  have hp := h.pc
  have hc := h.cpuS rfl
  simp [rregs] at f0 f_v f_expect f_newv
  refine ⟨?_, ?_⟩
  · intro hfv; subst hfv
    by_cases he : ldw be m v = expect
    · exact ⟨30, by simp +contextual [rrun, mips_cbneStore, hp, hc, h_v, h_expect, h_newv, f0, f_v, f_expect, f_newv, pseudo, signExtend_inj hn, he]⟩
    · have hn1 := Ne.symm he; exact ⟨30, by simp +contextual [rrun, mips_cbneStore, hp, hc, h_v, h_expect, h_newv, f0, f_v, f_expect, f_newv, pseudo, signExtend_inj hn, he, hn1]⟩
  · intro hne
    have hne2 := Ne.symm hne
    exact ⟨30, by simp +contextual [rrun, mips_cbneStore, hp, hc, h_v, h_expect, h_newv, f0, f_v, f_expect, f_newv, pseudo, signExtend_inj hn, hne, hne2]⟩

theorem mips_cbeqStoreAddLoadStore_ok (hn : 4 ≤ n) (al : Opnd → Nat) (be : Bool) (csa v expectnot voffp load : W n) :
    Implements (mips_cbeqStoreAddLoadStore al be csa) [m4] true al (.cbeqStoreAddLoadStore v expectnot voffp load) := by
  intro cpu fv l m h
  have h_v := h.reg .v _ rfl
  have f_v := h.free .v _ rfl
  have h_expectnot := h.reg .expectnot _ rfl
  have f_expectnot := h.free .expectnot _ rfl
  have h_voffp := h.reg .voffp _ rfl
  have f_voffp := h.free .voffp _ rfl
  have h_load := h.reg .load _ rfl
  have f_load := h.free .load _ rfl
  have f0 := h.freeCpu
  have hp := h.pc
  have hc := h.cpuS rfl
  simp [rregs] at f0 f_v f_expectnot f_voffp f_load
  refine ⟨?_, ?_⟩
  · intro hfv; subst hfv
    by_cases he : ldw be m v = expectnot
    · exact ⟨30, by simp +contextual [rrun, mips_cbeqStoreAddLoadStore, hp, hc, h_v, h_expectnot, h_voffp, h_load, f0, f_v, f_expectnot, f_voffp, f_load, pseudo, signExtend_inj hn, he]⟩
    · have hn1 := Ne.symm he; exact ⟨30, by simp +contextual [rrun, mips_cbeqStoreAddLoadStore, hp, hc, h_v, h_expectnot, h_voffp, h_load, f0, f_v, f_expectnot, f_voffp, f_load, pseudo, signExtend_inj hn, he, hn1, BitVec.add_comm]⟩
  · intro hne
    have hne2 := Ne.symm hne
    exact ⟨30, by simp +contextual [rrun, mips_cbeqStoreAddLoadStore, hp, hc, h_v, h_expectnot, h_voffp, h_load, f0, f_v, f_expectnot, f_voffp, f_load, pseudo, signExtend_inj hn, hne, hne2]⟩

theorem mips_addStore_ok (hn : 4 ≤ n) (al : Opnd → Nat) (be : Bool) (csa v count : W n) :
    Implements (mips_addStore al be csa) [m4] true al (.addStore v count) := by
  intro cpu fv l m h
  have h_v := h.reg .v _ rfl
  have f_v := h.free .v _ rfl
  have h_count := h.reg .count _ rfl
  have f_count := h.free .count _ rfl
  have f0 := h.freeCpu
  have hp := h.pc
  have hc := h.cpuS rfl
  simp [rregs] at f0 f_v f_count
  refine ⟨?_, ?_⟩
  · intro hfv; subst hfv
    exact ⟨30, by simp +contextual [rrun, mips_addStore, hp, hc, h_v, h_count, f0, f_v, f_count, pseudo, signExtend_inj hn, BitVec.add_comm]⟩
  · intro hne
    have hne2 := Ne.symm hne
    exact ⟨30, by simp +contextual [rrun, mips_addStore, hp, hc, h_v, h_count, f0, f_v, f_count, pseudo, signExtend_inj hn, hne, hne2]⟩

theorem mips_cbneCbneStore_ok (hn : 4 ≤ n) (al : Opnd → Nat) (be : Bool) (csa v expect v2 expect2 newv : W n) :
    Implements (mips_cbneCbneStore al be csa) [m4] true al (.cbneCbneStore v expect v2 expect2 newv) := by
  intro cpu fv l m h
  have h_v := h.reg .v _ rfl
  have f_v := h.free .v _ rfl
  have h_expect := h.reg .expect _ rfl
  have f_expect := h.free .expect _ rfl
  have h_v2 := h.reg .v2 _ rfl
  have f_v2 := h.free .v2 _ rfl
  have h_expect2 := h.reg .expect2 _ rfl
  have f_expect2 := h.free .expect2 _ rfl
  have h_newv := h.reg .newv _ rfl
  have f_newv := h.free .newv _ rfl
  have f0 := h.freeCpu
  have hp := h.pc
  have hc := h.cpuS rfl
  simp [rregs] at f0 f_v f_expect f_v2 f_expect2 f_newv
  refine ⟨?_, ?_⟩
  · intro hfv; subst hfv
    by_cases he : ldw be m v = expect
    · by_cases he2 : ldw be m v2 = expect2
      · exact ⟨30, by simp +contextual [rrun, mips_cbneCbneStore, hp, hc, h_v, h_expect, h_v2, h_expect2, h_newv, f0, f_v, f_expect, f_v2, f_expect2, f_newv, pseudo, signExtend_inj hn, he, he2]⟩
      · have hn2 := Ne.symm he2; exact ⟨30, by simp +contextual [rrun, mips_cbneCbneStore, hp, hc, h_v, h_expect, h_v2, h_expect2, h_newv, f0, f_v, f_expect, f_v2, f_expect2, f_newv, pseudo, signExtend_inj hn, he, he2, hn2]⟩
    · have hn1 := Ne.symm he; exact ⟨30, by simp +contextual [rrun, mips_cbneCbneStore, hp, hc, h_v, h_expect, h_v2, h_expect2, h_newv, f0, f_v, f_expect, f_v2, f_expect2, f_newv, pseudo, signExtend_inj hn, he, hn1]⟩
  · intro hne
    have hne2 := Ne.symm hne
    exact ⟨30, by simp +contextual [rrun, mips_cbneCbneStore, hp, hc, h_v, h_expect, h_v2, h_expect2, h_newv, f0, f_v, f_expect, f_v2, f_expect2, f_newv, pseudo, signExtend_inj hn, hne, hne2]⟩

theorem mips_cbneStoreStore_ok (hn : 4 ≤ n) (al : Opnd → Nat) (be : Bool) (csa v expect v2 newv2 newv : W n) :
    Implements (mips_cbneStoreStore al be csa) [m4] true al (.cbneStoreStore v expect v2 newv2 newv) := by
  intro cpu fv l m h
  have h_v := h.reg .v _ rfl
  have f_v := h.free .v _ rfl
  have h_expect := h.reg .expect _ rfl
  have f_expect := h.free .expect _ rfl
  have h_v2 := h.reg .v2 _ rfl
  have f_v2 := h.free .v2 _ rfl
  have h_newv2 := h.reg .newv2 _ rfl
  have f_newv2 := h.free .newv2 _ rfl
  have h_newv := h.reg .newv _ rfl
  have f_newv := h.free .newv _ rfl
  have f0 := h.freeCpu
  have hp := h.pc
  have hc := h.cpuS rfl
  simp [rregs] at f0 f_v f_expect f_v2 f_newv2 f_newv
  refine ⟨?_, ?_⟩
  · intro hfv; subst hfv
    by_cases he : ldw be m v = expect
    · exact ⟨30, by simp +contextual [rrun, mips_cbneStoreStore, hp, hc, h_v, h_expect, h_v2, h_newv2, h_newv, f0, f_v, f_expect, f_v2, f_newv2, f_newv, pseudo, signExtend_inj hn, he]⟩
    · have hn1 := Ne.symm he; exact ⟨30, by simp +contextual [rrun, mips_cbneStoreStore, hp, hc, h_v, h_expect, h_v2, h_newv2, h_newv, f0, f_v, f_expect, f_v2, f_newv2, f_newv, pseudo, signExtend_inj hn, he, hn1]⟩
  · intro hne
    have hne2 := Ne.symm hne
    exact ⟨30, by simp +contextual [rrun, mips_cbneStoreStore, hp, hc, h_v, h_expect, h_v2, h_newv2, h_newv, f0, f_v, f_expect, f_v2, f_newv2, f_newv, pseudo, signExtend_inj hn, hne, hne2]⟩

theorem mips_cbneStoreStore_rel_ok (hn : 4 ≤ n) (al : Opnd → Nat) (be : Bool) (csa v expect v2 newv2 newv : W n) :
    Implements (mips_cbneStoreStore_rel al be csa) [m4] true al (.cbneStoreStore v expect v2 newv2 newv) := by
  intro cpu fv l m h
  have h_v := h.reg .v _ rfl
  have f_v := h.free .v _ rfl
  have h_expect := h.reg .expect _ rfl
  have f_expect := h.free .expect _ rfl
  have h_v2 := h.reg .v2 _ rfl
  have f_v2 := h.free .v2 _ rfl
  have h_newv2 := h.reg .newv2 _ rfl
  have f_newv2 := h.free .newv2 _ rfl
  have h_newv := h.reg .newv _ rfl
  have f_newv := h.free .newv _ rfl
  have f0 := h.freeCpu
  have hp := h.pc
  have hc := h.cpuS rfl
  simp [rregs] at f0 f_v f_expect f_v2 f_newv2 f_newv
  refine ⟨?_, ?_⟩
  · intro hfv; subst hfv
    by_cases he : ldw be m v = expect
    · exact ⟨30, by simp +contextual [rrun, mips_cbneStoreStore_rel, hp, hc, h_v, h_expect, h_v2, h_newv2, h_newv, f0, f_v, f_expect, f_v2, f_newv2, f_newv, pseudo, signExtend_inj hn, he]⟩
    · have hn1 := Ne.symm he; exact ⟨30, by simp +contextual [rrun, mips_cbneStoreStore_rel, hp, hc, h_v, h_expect, h_v2, h_newv2, h_newv, f0, f_v, f_expect, f_v2, f_newv2, f_newv, pseudo, signExtend_inj hn, he, hn1]⟩
  · intro hne
    have hne2 := Ne.symm hne
    exact ⟨30, by simp +contextual [rrun, mips_cbneStoreStore_rel, hp, hc, h_v, h_expect, h_v2, h_newv2, h_newv, f0, f_v, f_expect, f_v2, f_newv2, f_newv, pseudo, signExtend_inj hn, hne, hne2]⟩

theorem loongarch_cbneStore_ok (hn : 4 ≤ n) (al : Opnd → Nat) (be : Bool) (csa v expect newv : W n) :
    Implements (loongarch_cbneStore al be csa) [m4] true al (.cbneStore v expect newv) := by
  intro cpu fv l m h
  have h_v := h.reg .v _ rfl
  have f_v := h.free .v _ rfl
  have h_expect := h.reg .expect _ rfl
  have f_expect := h.free .expect _ rfl
  have h_newv := h.reg .newv _ rfl
  have f_newv := h.free .newv _ rfl
  have f0 := h.freeCpu
  have hp := h.pc
  have hc := h.cpuS rfl
  simp [rregs] at f0 f_v f_expect f_newv
  refine ⟨?_, ?_⟩
  · intro hfv; subst hfv
    by_cases he : ldw be m v = expect
    · exact ⟨30, by simp +contextual [rrun, loongarch_cbneStore, hp, hc, h_v, h_expect, h_newv, f0, f_v, f_expect, f_newv, pseudo, signExtend_inj hn, he]⟩
    · have hn1 := Ne.symm he; exact ⟨30, by simp +contextual [rrun, loongarch_cbneStore, hp, hc, h_v, h_expect, h_newv, f0, f_v, f_expect, f_newv, pseudo, signExtend_inj hn, he, hn1]⟩
  · intro hne
    have hne2 := Ne.symm hne
    exact ⟨30, by simp +contextual [rrun, loongarch_cbneStore, hp, hc, h_v, h_expect, h_newv, f0, f_v, f_expect, f_newv, pseudo, signExtend_inj hn, hne, hne2]⟩

theorem loongarch_cbeqStoreAddLoadStore_ok (hn : 4 ≤ n) (al : Opnd → Nat) (be : Bool) (csa v expectnot voffp load : W n) :
    Implements (loongarch_cbeqStoreAddLoadStore al be csa) [m4] true al (.cbeqStoreAddLoadStore v expectnot voffp load) := by
  intro cpu fv l m h
  have h_v := h.reg .v _ rfl
  have f_v := h.free .v _ rfl
  have h_expectnot := h.reg .expectnot _ rfl
  have f_expectnot := h.free .expectnot _ rfl
  have h_voffp := h.reg .voffp _ rfl
  have f_voffp := h.free .voffp _ rfl
  have h_load := h.reg .load _ rfl
  have f_load := h.free .load _ rfl
  have f0 := h.freeCpu
  have hp := h.pc
  have hc := h.cpuS rfl
  simp [rregs] at f0 f_v f_expectnot f_voffp f_load
  refine ⟨?_, ?_⟩
  · intro hfv; subst hfv
    by_cases he : ldw be m v = expectnot
    · exact ⟨30, by simp +contextual [rrun, loongarch_cbeqStoreAddLoadStore, hp, hc, h_v, h_expectnot, h_voffp, h_load, f0, f_v, f_expectnot, f_voffp, f_load, pseudo, signExtend_inj hn, he]⟩
    · have hn1 := Ne.symm he; exact ⟨30, by simp +contextual [rrun, loongarch_cbeqStoreAddLoadStore, hp, hc, h_v, h_expectnot, h_voffp, h_load, f0, f_v, f_expectnot, f_voffp, f_load, pseudo, signExtend_inj hn, he, hn1, BitVec.add_comm]⟩
  · intro hne
    have hne2 := Ne.symm hne
    exact ⟨30, by simp +contextual [rrun, loongarch_cbeqStoreAddLoadStore, hp, hc, h_v, h_expectnot, h_voffp, h_load, f0, f_v, f_expectnot, f_voffp, f_load, pseudo, signExtend_inj hn, hne, hne2]⟩

theorem loongarch_addStore_ok (hn : 4 ≤ n) (al : Opnd → Nat) (be : Bool) (csa v count : W n) :
    Implements (loongarch_addStore al be csa) [m4] true al (.addStore v count) := by
  intro cpu fv l m h
  have h_v := h.reg .v _ rfl
  have f_v := h.free .v _ rfl
  have h_count := h.reg .count _ rfl
  have f_count := h.free .count _ rfl
  have f0 := h.freeCpu
  have hp := h.pc
  have hc := h.cpuS rfl
  simp [rregs] at f0 f_v f_count
  refine ⟨?_, ?_⟩
  · intro hfv; subst hfv
    exact ⟨30, by simp +contextual [rrun, loongarch_addStore, hp, hc, h_v, h_count, f0, f_v, f_count, pseudo, signExtend_inj hn, BitVec.add_comm]⟩
  · intro hne
    have hne2 := Ne.symm hne
    exact ⟨30, by simp +contextual [rrun, loongarch_addStore, hp, hc, h_v, h_count, f0, f_v, f_count, pseudo, signExtend_inj hn, hne, hne2]⟩

theorem loongarch_cbneCbneStore_ok (hn : 4 ≤ n) (al : Opnd → Nat) (be : Bool) (csa v expect v2 expect2 newv : W n) :
    Implements (loongarch_cbneCbneStore al be csa) [m4] true al (.cbneCbneStore v expect v2 expect2 newv) := by
  intro cpu fv l m h
  have h_v := h.reg .v _ rfl
  have f_v := h.free .v _ rfl
  have h_expect := h.reg .expect _ rfl
  have f_expect := h.free .expect _ rfl
  have h_v2 := h.reg .v2 _ rfl
  have f_v2 := h.free .v2 _ rfl
  have h_expect2 := h.reg .expect2 _ rfl
  have f_expect2 := h.free .expect2 _ rfl
  have h_newv := h.reg .newv _ rfl
  have f_newv := h.free .newv _ rfl
  have f0 := h.freeCpu
  have hp := h.pc
  have hc := h.cpuS rfl
  simp [rregs] at f0 f_v f_expect f_v2 f_expect2 f_newv
  refine ⟨?_, ?_⟩
  · intro hfv; subst hfv
    by_cases he : ldw be m v = expect
    · by_cases he2 : ldw be m v2 = expect2
      · exact ⟨30, by simp +contextual [rrun, loongarch_cbneCbneStore, hp, hc, h_v, h_expect, h_v2, h_expect2, h_newv, f0, f_v, f_expect, f_v2, f_expect2, f_newv, pseudo, signExtend_inj hn, he, he2]⟩
      · have hn2 := Ne.symm he2; exact ⟨30, by simp +contextual [rrun, loongarch_cbneCbneStore, hp, hc, h_v, h_expect, h_v2, h_expect2, h_newv, f0, f_v, f_expect, f_v2, f_expect2, f_newv, pseudo, signExtend_inj hn, he, he2, hn2]⟩
    · have hn1 := Ne.symm he; exact ⟨30, by simp +contextual [rrun, loongarch_cbneCbneStore, hp, hc, h_v, h_expect, h_v2, h_expect2, h_newv, f0, f_v, f_expect, f_v2, f_expect2, f_newv, pseudo, signExtend_inj hn, he, hn1]⟩
  · intro hne
    have hne2 := Ne.symm hne
    exact ⟨30, by simp +contextual [rrun, loongarch_cbneCbneStore, hp, hc, h_v, h_expect, h_v2, h_expect2, h_newv, f0, f_v, f_expect, f_v2, f_expect2, f_newv, pseudo, signExtend_inj hn, hne, hne2]⟩

theorem loongarch_cbneStoreStore_ok (hn : 4 ≤ n) (al : Opnd → Nat) (be : Bool) (csa v expect v2 newv2 newv : W n) :
    Implements (loongarch_cbneStoreStore al be csa) [m4] true al (.cbneStoreStore v expect v2 newv2 newv) := by
  intro cpu fv l m h
  have h_v := h.reg .v _ rfl
  have f_v := h.free .v _ rfl
  have h_expect := h.reg .expect _ rfl
  have f_expect := h.free .expect _ rfl
  have h_v2 := h.reg .v2 _ rfl
  have f_v2 := h.free .v2 _ rfl
  have h_newv2 := h.reg .newv2 _ rfl
  have f_newv2 := h.free .newv2 _ rfl
  have h_newv := h.reg .newv _ rfl
  have f_newv := h.free .newv _ rfl
  have f0 := h.freeCpu
  have hp := h.pc
  have hc := h.cpuS rfl
  simp [rregs] at f0 f_v f_expect f_v2 f_newv2 f_newv
  refine ⟨?_, ?_⟩
  · intro hfv; subst hfv
    by_cases he : ldw be m v = expect
    · exact ⟨30, by simp +contextual [rrun, loongarch_cbneStoreStore, hp, hc, h_v, h_expect, h_v2, h_newv2, h_newv, f0, f_v, f_expect, f_v2, f_newv2, f_newv, pseudo, signExtend_inj hn, he]⟩
    · have hn1 := Ne.symm he; exact ⟨30, by simp +contextual [rrun, loongarch_cbneStoreStore, hp, hc, h_v, h_expect, h_v2, h_newv2, h_newv, f0, f_v, f_expect, f_v2, f_newv2, f_newv, pseudo, signExtend_inj hn, he, hn1]⟩
  · intro hne
    have hne2 := Ne.symm hne
    exact ⟨30, by simp +contextual [rrun, loongarch_cbneStoreStore, hp, hc, h_v, h_expect, h_v2, h_newv2, h_newv, f0, f_v, f_expect, f_v2, f_newv2, f_newv, pseudo, signExtend_inj hn, hne, hne2]⟩

theorem loongarch_cbneStoreStore_rel_ok (hn : 4 ≤ n) (al : Opnd → Nat) (be : Bool) (csa v expect v2 newv2 newv : W n) :
    Implements (loongarch_cbneStoreStore_rel al be csa) [m4] true al (.cbneStoreStore v expect v2 newv2 newv) := by
  intro cpu fv l m h
  have h_v := h.reg .v _ rfl
  have f_v := h.free .v _ rfl
  have h_expect := h.reg .expect _ rfl
  have f_expect := h.free .expect _ rfl
  have h_v2 := h.reg .v2 _ rfl
  have f_v2 := h.free .v2 _ rfl
  have h_newv2 := h.reg .newv2 _ rfl
  have f_newv2 := h.free .newv2 _ rfl
  have h_newv := h.reg .newv _ rfl
  have f_newv := h.free .newv _ rfl
  have f0 := h.freeCpu
  have hp := h.pc
  have hc := h.cpuS rfl
  simp [rregs] at f0 f_v f_expect f_v2 f_newv2 f_newv
  refine ⟨?_, ?_⟩
  · intro hfv; subst hfv
    by_cases he : ldw be m v = expect
    · exact ⟨30, by simp +contextual [rrun, loongarch_cbneStoreStore_rel, hp, hc, h_v, h_expect, h_v2, h_newv2, h_newv, f0, f_v, f_expect, f_v2, f_newv2, f_newv, pseudo, signExtend_inj hn, he]⟩
    · have hn1 := Ne.symm he; exact ⟨30, by simp +contextual [rrun, loongarch_cbneStoreStore_rel, hp, hc, h_v, h_expect, h_v2, h_newv2, h_newv, f0, f_v, f_expect, f_v2, f_newv2, f_newv, pseudo, signExtend_inj hn, he, hn1]⟩
  · intro hne
    have hne2 := Ne.symm hne
    exact ⟨30, by simp +contextual [rrun, loongarch_cbneStoreStore_rel, hp, hc, h_v, h_expect, h_v2, h_newv2, h_newv, f0, f_v, f_expect, f_v2, f_newv2, f_newv, pseudo, signExtend_inj hn, hne, hne2]⟩

theorem arm_cbneStore_ok (hn : 4 ≤ n) (al : Opnd → Nat) (be : Bool) (csa v expect newv : W n) :
    Implements (arm_cbneStore al be csa) [a0] false al (.cbneStore v expect newv) := by
  intro cpu fv l m h
  have h_v := h.reg .v _ rfl
  have f_v := h.free .v _ rfl
  have h_expect := h.reg .expect _ rfl
  have f_expect := h.free .expect _ rfl
  have h_newv := h.reg .newv _ rfl
  have f_newv := h.free .newv _ rfl
  have f0 := h.freeCpu
  have hp := h.pc
  have hc := h.cpuV
  simp [rregs] at f0 f_v f_expect f_newv
  refine ⟨?_, ?_⟩
  · intro hfv; subst hfv
    by_cases he : ldw be m v = expect
    · exact ⟨30, by simp +contextual [rrun, arm_cbneStore, hp, hc, h_v, h_expect, h_newv, f0, f_v, f_expect, f_newv, pseudo, setWidth32_setWidth hn, he]⟩
    · have hn1 := Ne.symm he; exact ⟨30, by simp +contextual [rrun, arm_cbneStore, hp, hc, h_v, h_expect, h_newv, f0, f_v, f_expect, f_newv, pseudo, setWidth32_setWidth hn, he, hn1]⟩
  · intro hne
    have hne2 := Ne.symm hne
    exact ⟨30, by simp +contextual [rrun, arm_cbneStore, hp, hc, h_v, h_expect, h_newv, f0, f_v, f_expect, f_newv, pseudo, setWidth32_setWidth hn, hne, hne2]⟩

theorem arm_cbeqStoreAddLoadStore_ok (hn : 4 ≤ n) (al : Opnd → Nat) (be : Bool) (csa v expectnot voffp load : W n) :
    Implements (arm_cbeqStoreAddLoadStore al be csa) [a0] false al (.cbeqStoreAddLoadStore v expectnot voffp load) := by
  intro cpu fv l m h
  have h_v := h.reg .v _ rfl
  have f_v := h.free .v _ rfl
  have h_expectnot := h.reg .expectnot _ rfl
  have f_expectnot := h.free .expectnot _ rfl
  have h_voffp := h.reg .voffp _ rfl
  have f_voffp := h.free .voffp _ rfl
  have h_load := h.reg .load _ rfl
  have f_load := h.free .load _ rfl
  have f0 := h.freeCpu
  have hp := h.pc
  have hc := h.cpuV
  simp [rregs] at f0 f_v f_expectnot f_voffp f_load
  refine ⟨?_, ?_⟩
  · intro hfv; subst hfv
    by_cases he : ldw be m v = expectnot
    · exact ⟨30, by simp +contextual [rrun, arm_cbeqStoreAddLoadStore, hp, hc, h_v, h_expectnot, h_voffp, h_load, f0, f_v, f_expectnot, f_voffp, f_load, pseudo, setWidth32_setWidth hn, he]⟩
    · have hn1 := Ne.symm he; exact ⟨30, by simp +contextual [rrun, arm_cbeqStoreAddLoadStore, hp, hc, h_v, h_expectnot, h_voffp, h_load, f0, f_v, f_expectnot, f_voffp, f_load, pseudo, setWidth32_setWidth hn, he, hn1, BitVec.add_comm]⟩
  · intro hne
    have hne2 := Ne.symm hne
    exact ⟨30, by simp +contextual [rrun, arm_cbeqStoreAddLoadStore, hp, hc, h_v, h_expectnot, h_voffp, h_load, f0, f_v, f_expectnot, f_voffp, f_load, pseudo, setWidth32_setWidth hn, hne, hne2]⟩

theorem arm_addStore_ok (hn : 4 ≤ n) (al : Opnd → Nat) (be : Bool) (csa v count : W n) :
    Implements (arm_addStore al be csa) [a0] false al (.addStore v count) := by
  intro cpu fv l m h
  have h_v := h.reg .v _ rfl
  have f_v := h.free .v _ rfl
  have h_count := h.reg .count _ rfl
  have f_count := h.free .count _ rfl
  have f0 := h.freeCpu
  have hp := h.pc
  have hc := h.cpuV
  simp [rregs] at f0 f_v f_count
  refine ⟨?_, ?_⟩
  · intro hfv; subst hfv
    exact ⟨30, by simp +contextual [rrun, arm_addStore, hp, hc, h_v, h_count, f0, f_v, f_count, pseudo, setWidth32_setWidth hn, BitVec.add_comm]⟩
  · intro hne
    have hne2 := Ne.symm hne
    exact ⟨30, by simp +contextual [rrun, arm_addStore, hp, hc, h_v, h_count, f0, f_v, f_count, pseudo, setWidth32_setWidth hn, hne, hne2]⟩

theorem arm_cbneCbneStore_ok (hn : 4 ≤ n) (al : Opnd → Nat) (be : Bool) (csa v expect v2 expect2 newv : W n) :
    Implements (arm_cbneCbneStore al be csa) [a0] false al (.cbneCbneStore v expect v2 expect2 newv) := by
  intro cpu fv l m h
  have h_v := h.reg .v _ rfl
  have f_v := h.free .v _ rfl
  have h_expect := h.reg .expect _ rfl
  have f_expect := h.free .expect _ rfl
  have h_v2 := h.reg .v2 _ rfl
  have f_v2 := h.free .v2 _ rfl
  have h_expect2 := h.reg .expect2 _ rfl
  have f_expect2 := h.free .expect2 _ rfl
  have h_newv := h.reg .newv _ rfl
  have f_newv := h.free .newv _ rfl
  have f0 := h.freeCpu
  have hp := h.pc
  have hc := h.cpuV
  simp [rregs] at f0 f_v f_expect f_v2 f_expect2 f_newv
  refine ⟨?_, ?_⟩
  · intro hfv; subst hfv
    by_cases he : ldw be m v = expect
    · by_cases he2 : ldw be m v2 = expect2
      · exact ⟨30, by simp +contextual [rrun, arm_cbneCbneStore, hp, hc, h_v, h_expect, h_v2, h_expect2, h_newv, f0, f_v, f_expect, f_v2, f_expect2, f_newv, pseudo, setWidth32_setWidth hn, he, he2]⟩
      · have hn2 := Ne.symm he2; exact ⟨30, by simp +contextual [rrun, arm_cbneCbneStore, hp, hc, h_v, h_expect, h_v2, h_expect2, h_newv, f0, f_v, f_expect, f_v2, f_expect2, f_newv, pseudo, setWidth32_setWidth hn, he, he2, hn2]⟩
    · have hn1 := Ne.symm he; exact ⟨30, by simp +contextual [rrun, arm_cbneCbneStore, hp, hc, h_v, h_expect, h_v2, h_expect2, h_newv, f0, f_v, f_expect, f_v2, f_expect2, f_newv, pseudo, setWidth32_setWidth hn, he, hn1]⟩
  · intro hne
    have hne2 := Ne.symm hne
    exact ⟨30, by simp +contextual [rrun, arm_cbneCbneStore, hp, hc, h_v, h_expect, h_v2, h_expect2, h_newv, f0, f_v, f_expect, f_v2, f_expect2, f_newv, pseudo, setWidth32_setWidth hn, hne, hne2]⟩

theorem arm_cbneStoreStore_ok (hn : 4 ≤ n) (al : Opnd → Nat) (be : Bool) (csa v expect v2 newv2 newv : W n) :
    Implements (arm_cbneStoreStore al be csa) [a0] false al (.cbneStoreStore v expect v2 newv2 newv) := by
  intro cpu fv l m h
  have h_v := h.reg .v _ rfl
  have f_v := h.free .v _ rfl
  have h_expect := h.reg .expect _ rfl
  have f_expect := h.free .expect _ rfl
  have h_v2 := h.reg .v2 _ rfl
  have f_v2 := h.free .v2 _ rfl
  have h_newv2 := h.reg .newv2 _ rfl
  have f_newv2 := h.free .newv2 _ rfl
  have h_newv := h.reg .newv _ rfl
  have f_newv := h.free .newv _ rfl
  have f0 := h.freeCpu
  have hp := h.pc
  have hc := h.cpuV
  simp [rregs] at f0 f_v f_expect f_v2 f_newv2 f_newv
  refine ⟨?_, ?_⟩
  · intro hfv; subst hfv
    by_cases he : ldw be m v = expect
    · exact ⟨30, by simp +contextual [rrun, arm_cbneStoreStore, hp, hc, h_v, h_expect, h_v2, h_newv2, h_newv, f0, f_v, f_expect, f_v2, f_newv2, f_newv, pseudo, setWidth32_setWidth hn, he]⟩
    · have hn1 := Ne.symm he; exact ⟨30, by simp +contextual [rrun, arm_cbneStoreStore, hp, hc, h_v, h_expect, h_v2, h_newv2, h_newv, f0, f_v, f_expect, f_v2, f_newv2, f_newv, pseudo, setWidth32_setWidth hn, he, hn1]⟩
  · intro hne
    have hne2 := Ne.symm hne
    exact ⟨30, by simp +contextual [rrun, arm_cbneStoreStore, hp, hc, h_v, h_expect, h_v2, h_newv2, h_newv, f0, f_v, f_expect, f_v2, f_newv2, f_newv, pseudo, setWidth32_setWidth hn, hne, hne2]⟩

theorem arm_cbneStoreStore_rel_ok (hn : 4 ≤ n) (al : Opnd → Nat) (be : Bool) (csa v expect v2 newv2 newv : W n) :
    Implements (arm_cbneStoreStore_rel al be csa) [a0] false al (.cbneStoreStore v expect v2 newv2 newv) := by
  intro cpu fv l m h
  have h_v := h.reg .v _ rfl
  have f_v := h.free .v _ rfl
  have h_expect := h.reg .expect _ rfl
  have f_expect := h.free .expect _ rfl
  have h_v2 := h.reg .v2 _ rfl
  have f_v2 := h.free .v2 _ rfl
  have h_newv2 := h.reg .newv2 _ rfl
  have f_newv2 := h.free .newv2 _ rfl
  have h_newv := h.reg .newv _ rfl
  have f_newv := h.free .newv _ rfl
  have f0 := h.freeCpu
  have hp := h.pc
  have hc := h.cpuV
  simp [rregs] at f0 f_v f_expect f_v2 f_newv2 f_newv
  refine ⟨?_, ?_⟩
  · intro hfv; subst hfv
    by_cases he : ldw be m v = expect
    · exact ⟨30, by simp +contextual [rrun, arm_cbneStoreStore_rel, hp, hc, h_v, h_expect, h_v2, h_newv2, h_newv, f0, f_v, f_expect, f_v2, f_newv2, f_newv, pseudo, setWidth32_setWidth hn, he]⟩
    · have hn1 := Ne.symm he; exact ⟨30, by simp +contextual [rrun, arm_cbneStoreStore_rel, hp, hc, h_v, h_expect, h_v2, h_newv2, h_newv, f0, f_v, f_expect, f_v2, f_newv2, f_newv, pseudo, setWidth32_setWidth hn, he, hn1]⟩
  · intro hne
    have hne2 := Ne.symm hne
    exact ⟨30, by simp +contextual [rrun, arm_cbneStoreStore_rel, hp, hc, h_v, h_expect, h_v2, h_newv2, h_newv, f0, f_v, f_expect, f_v2, f_newv2, f_newv, pseudo, setWidth32_setWidth hn, hne, hne2]⟩

end Verif.Rseq

