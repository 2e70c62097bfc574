import Verif.RseqFoot
/-
Addresses touched by the straight-line helper programs (one lemma per program).
-/

set_option linter.unusedVariables false
set_option linter.unusedSimpArgs false

namespace Verif.Rseq

variable {n : Nat}

theorem x86_64_cbneStore_foot (hn : 4 ≤ n) (al : Opnd → Nat) (be : Bool) (csa v expect newv : W n) :
    FootOK (x86_64_cbneStore al be csa) [rax] false al (.cbneStore v expect newv) := by
  intro cpu fv l m h
  have h_v := h.reg .v _ rfl
  have f_v := h.free .v _ rfl
  have h_expect := h.reg .expect _ rfl
  have f_expect := h.free .expect _ rfl
  have h_newv := h.reg .newv _ rfl
  have f_newv := h.free .newv _ rfl
  have f0 := h.freeCpu
  have hp := h.pc
  have hc := h.cpuV
  simp [rregs] at f0 f_v f_expect f_newv
  by_cases hfv : fv = cpu
  · subst hfv
    by_cases he : ldw be m v = expect
    · exact OKs.all (k := 14) (by simp [rrun, x86_64_cbneStore, hp, hc, h_v, h_expect, h_newv, f0, f_v, f_expect, f_newv, he] <;> grind)
    · have hn1 := Ne.symm he; exact OKs.all (k := 14) (by simp [rrun, x86_64_cbneStore, hp, hc, h_v, h_expect, h_newv, f0, f_v, f_expect, f_newv, he, hn1] <;> grind)
  · have hne2 := Ne.symm hfv
    exact OKs.all (k := 14) (by simp [rrun, x86_64_cbneStore, hp, hc, h_v, h_expect, h_newv, f0, f_v, f_expect, f_newv, hfv, hne2] <;> grind)

theorem x86_64_cbeqStoreAddLoadStore_foot (hn : 4 ≤ n) (al : Opnd → Nat) (be : Bool) (csa v expectnot voffp load : W n) (ht : ∀ x, InWord load x → ¬ InWord v x) :
    FootOK (x86_64_cbeqStoreAddLoadStore al be csa) [rax, rbx] false al (.cbeqStoreAddLoadStore v expectnot voffp load) := by
  intro cpu fv l m h
  have h_v := h.reg .v _ rfl
  have f_v := h.free .v _ rfl
  have h_expectnot := h.reg .expectnot _ rfl
  have f_expectnot := h.free .expectnot _ rfl
  have h_voffp := h.reg .voffp _ rfl
  have f_voffp := h.free .voffp _ rfl
  have h_load := h.reg .load _ rfl
  have f_load := h.free .load _ rfl
  have f0 := h.freeCpu
  have hp := h.pc
  have hc := h.cpuV
  simp [rregs] at f0 f_v f_expectnot f_voffp f_load
  by_cases hfv : fv = cpu
  · subst hfv
    by_cases he : ldw be m v = expectnot
    · exact OKs.all (k := 14) (by simp [rrun, x86_64_cbeqStoreAddLoadStore, hp, hc, h_v, h_expectnot, h_voffp, h_load, f0, f_v, f_expectnot, f_voffp, f_load, ht, he] <;> grind)
    · have hn1 := Ne.symm he; exact OKs.all (k := 14) (by simp [rrun, x86_64_cbeqStoreAddLoadStore, hp, hc, h_v, h_expectnot, h_voffp, h_load, f0, f_v, f_expectnot, f_voffp, f_load, ht, he, hn1, BitVec.add_comm] <;> grind)
  · have hne2 := Ne.symm hfv
    exact OKs.all (k := 14) (by simp [rrun, x86_64_cbeqStoreAddLoadStore, hp, hc, h_v, h_expectnot, h_voffp, h_load, f0, f_v, f_expectnot, f_voffp, f_load, ht, hfv, hne2] <;> grind)

theorem x86_64_addStore_foot (hn : 4 ≤ n) (al : Opnd → Nat) (be : Bool) (csa v count : W n) :
    FootOK (x86_64_addStore al be csa) [rax] false al (.addStore v count) := by
  intro cpu fv l m h
  have h_v := h.reg .v _ rfl
  have f_v := h.free .v _ rfl
  have h_count := h.reg .count _ rfl
  have f_count := h.free .count _ rfl
  have f0 := h.freeCpu
  have hp := h.pc
  have hc := h.cpuV
  simp [rregs] at f0 f_v f_count
  by_cases hfv : fv = cpu
  · subst hfv
    exact OKs.all (k := 14) (by simp [rrun, x86_64_addStore, hp, hc, h_v, h_count, f0, f_v, f_count, BitVec.add_comm] <;> grind)
  · have hne2 := Ne.symm hfv
    exact OKs.all (k := 14) (by simp [rrun, x86_64_addStore, hp, hc, h_v, h_count, f0, f_v, f_count, hfv, hne2] <;> grind)

theorem x86_64_addLoadLoadAddStore_foot (hn : 4 ≤ n) (al : Opnd → Nat) (be : Bool) (csa ptr off inc : W n) :
    FootOK (x86_64_addLoadLoadAddStore al be csa) [rax, rbx, rcx] false al (.addLoadLoadAddStore ptr off inc) := by
  intro cpu fv l m h
  have h_ptr := h.reg .ptr _ rfl
  have f_ptr := h.free .ptr _ rfl
  have h_off := h.reg .off _ rfl
  have f_off := h.free .off _ rfl
  have h_inc := h.reg .inc _ rfl
  have f_inc := h.free .inc _ rfl
  have f0 := h.freeCpu
  have hp := h.pc
  have hc := h.cpuV
  simp [rregs] at f0 f_ptr f_off f_inc
  by_cases hfv : fv = cpu
  · subst hfv
    exact OKs.all (k := 14) (by simp [rrun, x86_64_addLoadLoadAddStore, hp, hc, h_ptr, h_off, h_inc, f0, f_ptr, f_off, f_inc, BitVec.add_comm] <;> grind)
  · have hne2 := Ne.symm hfv
    exact OKs.all (k := 14) (by simp [rrun, x86_64_addLoadLoadAddStore, hp, hc, h_ptr, h_off, h_inc, f0, f_ptr, f_off, f_inc, hfv, hne2] <;> grind)

theorem x86_64_cbneCbneStore_foot (hn : 4 ≤ n) (al : Opnd → Nat) (be : Bool) (csa v expect v2 expect2 newv : W n) :
    FootOK (x86_64_cbneCbneStore al be csa) [rax] false al (.cbneCbneStore v expect v2 expect2 newv) := by
  intro cpu fv l m h
  have h_v := h.reg .v _ rfl
  have f_v := h.free .v _ rfl
  have h_expect := h.reg .expect _ rfl
  have f_expect := h.free .expect _ rfl
  have h_v2 := h.reg .v2 _ rfl
  have f_v2 := h.free .v2 _ rfl
  have h_expect2 := h.reg .expect2 _ rfl
  have f_expect2 := h.free .expect2 _ rfl
  have h_newv := h.reg .newv _ rfl
  have f_newv := h.free .newv _ rfl
  have f0 := h.freeCpu
  have hp := h.pc
  have hc := h.cpuV
  simp [rregs] at f0 f_v f_expect f_v2 f_expect2 f_newv
  by_cases hfv : fv = cpu
  · subst hfv
    by_cases he : ldw be m v = expect
    · by_cases he2 : ldw be m v2 = expect2
      · exact OKs.all (k := 14) (by simp [rrun, x86_64_cbneCbneStore, hp, hc, h_v, h_expect, h_v2, h_expect2, h_newv, f0, f_v, f_expect, f_v2, f_expect2, f_newv, he, he2] <;> grind)
      · have hn2 := Ne.symm he2; exact OKs.all (k := 14) (by simp [rrun, x86_64_cbneCbneStore, hp, hc, h_v, h_expect, h_v2, h_expect2, h_newv, f0, f_v, f_expect, f_v2, f_expect2, f_newv, he, he2, hn2] <;> grind)
    · have hn1 := Ne.symm he; exact OKs.all (k := 14) (by simp [rrun, x86_64_cbneCbneStore, hp, hc, h_v, h_expect, h_v2, h_expect2, h_newv, f0, f_v, f_expect, f_v2, f_expect2, f_newv, he, hn1] <;> grind)
  · have hne2 := Ne.symm hfv
    exact OKs.all (k := 14) (by simp [rrun, x86_64_cbneCbneStore, hp, hc, h_v, h_expect, h_v2, h_expect2, h_newv, f0, f_v, f_expect, f_v2, f_expect2, f_newv, hfv, hne2] <;> grind)

theorem x86_64_cbneStoreStore_foot (hn : 4 ≤ n) (al : Opnd → Nat) (be : Bool) (csa v expect v2 newv2 newv : W n) (ht : ∀ x, InWord v2 x → ¬ InWord v x) :
    FootOK (x86_64_cbneStoreStore al be csa) [rax] false al (.cbneStoreStore v expect v2 newv2 newv) := by
  intro cpu fv l m h
  have h_v := h.reg .v _ rfl
  have f_v := h.free .v _ rfl
  have h_expect := h.reg .expect _ rfl
  have f_expect := h.free .expect _ rfl
  have h_v2 := h.reg .v2 _ rfl
  have f_v2 := h.free .v2 _ rfl
  have h_newv2 := h.reg .newv2 _ rfl
  have f_newv2 := h.free .newv2 _ rfl
  have h_newv := h.reg .newv _ rfl
  have f_newv := h.free .newv _ rfl
  have f0 := h.freeCpu
  have hp := h.pc
  have hc := h.cpuV
  simp [rregs] at f0 f_v f_expect f_v2 f_newv2 f_newv
  by_cases hfv : fv = cpu
  · subst hfv
    by_cases he : ldw be m v = expect
    · exact OKs.all (k := 14) (by simp [rrun, x86_64_cbneStoreStore, hp, hc, h_v, h_expect, h_v2, h_newv2, h_newv, f0, f_v, f_expect, f_v2, f_newv2, f_newv, ht, he] <;> grind)
    · have hn1 := Ne.symm he; exact OKs.all (k := 14) (by simp [rrun, x86_64_cbneStoreStore, hp, hc, h_v, h_expect, h_v2, h_newv2, h_newv, f0, f_v, f_expect, f_v2, f_newv2, f_newv, ht, he, hn1] <;> grind)
  · have hne2 := Ne.symm hfv
    exact OKs.all (k := 14) (by simp [rrun, x86_64_cbneStoreStore, hp, hc, h_v, h_expect, h_v2, h_newv2, h_newv, f0, f_v, f_expect, f_v2, f_newv2, f_newv, ht, hfv, hne2] <;> grind)

theorem i386_cbneStore_foot (hn : 4 ≤ n) (al : Opnd → Nat) (be : Bool) (csa v expect newv : W n) :
    FootOK (i386_cbneStore al be csa) [rax] false al (.cbneStore v expect newv) := by
  intro cpu fv l m h
  have h_v := h.reg .v _ rfl
  have f_v := h.free .v _ rfl
  have h_expect := h.reg .expect _ rfl
  have f_expect := h.free .expect _ rfl
  have h_newv := h.reg .newv _ rfl
  have f_newv := h.free .newv _ rfl
  have f0 := h.freeCpu
  have hp := h.pc
  have hc := h.cpuV
  simp [rregs] at f0 f_v f_expect f_newv
  by_cases hfv : fv = cpu
  · subst hfv
    by_cases he : ldw be m v = expect
    · exact OKs.all (k := 14) (by simp [rrun, i386_cbneStore, hp, hc, h_v, h_expect, h_newv, f0, f_v, f_expect, f_newv, slotOf, he] <;> grind)
    · have hn1 := Ne.symm he; exact OKs.all (k := 14) (by simp [rrun, i386_cbneStore, hp, hc, h_v, h_expect, h_newv, f0, f_v, f_expect, f_newv, slotOf, he, hn1] <;> grind)
  · have hne2 := Ne.symm hfv
    exact OKs.all (k := 14) (by simp [rrun, i386_cbneStore, hp, hc, h_v, h_expect, h_newv, f0, f_v, f_expect, f_newv, slotOf, hfv, hne2] <;> grind)

theorem i386_cbeqStoreAddLoadStore_foot (hn : 4 ≤ n) (al : Opnd → Nat) (be : Bool) (csa v expectnot voffp load : W n) (ht : ∀ x, InWord load x → ¬ InWord v x) :
    FootOK (i386_cbeqStoreAddLoadStore al be csa) [rax, rbx] false al (.cbeqStoreAddLoadStore v expectnot voffp load) := by
  intro cpu fv l m h
  have h_v := h.reg .v _ rfl
  have f_v := h.free .v _ rfl
  have h_expectnot := h.reg .expectnot _ rfl
  have f_expectnot := h.free .expectnot _ rfl
  have h_voffp := h.reg .voffp _ rfl
  have f_voffp := h.free .voffp _ rfl
  have h_load := h.reg .load _ rfl
  have f_load := h.free .load _ rfl
  have f0 := h.freeCpu
  have hp := h.pc
  have hc := h.cpuV
  simp [rregs] at f0 f_v f_expectnot f_voffp f_load
  by_cases hfv : fv = cpu
  · subst hfv
    by_cases he : ldw be m v = expectnot
    · exact OKs.all (k := 14) (by simp [rrun, i386_cbeqStoreAddLoadStore, hp, hc, h_v, h_expectnot, h_voffp, h_load, f0, f_v, f_expectnot, f_voffp, f_load, ht, slotOf, he] <;> grind)
    · have hn1 := Ne.symm he; exact OKs.all (k := 14) (by simp [rrun, i386_cbeqStoreAddLoadStore, hp, hc, h_v, h_expectnot, h_voffp, h_load, f0, f_v, f_expectnot, f_voffp, f_load, ht, slotOf, he, hn1, BitVec.add_comm] <;> grind)
  · have hne2 := Ne.symm hfv
    exact OKs.all (k := 14) (by simp [rrun, i386_cbeqStoreAddLoadStore, hp, hc, h_v, h_expectnot, h_voffp, h_load, f0, f_v, f_expectnot, f_voffp, f_load, ht, slotOf, hfv, hne2] <;> grind)

theorem i386_addStore_foot (hn : 4 ≤ n) (al : Opnd → Nat) (be : Bool) (csa v count : W n) :
    FootOK (i386_addStore al be csa) [rax] false al (.addStore v count) := by
  intro cpu fv l m h
  have h_v := h.reg .v _ rfl
  have f_v := h.free .v _ rfl
  have h_count := h.reg .count _ rfl
  have f_count := h.free .count _ rfl
  have f0 := h.freeCpu
  have hp := h.pc
  have hc := h.cpuV
  simp [rregs] at f0 f_v f_count
  by_cases hfv : fv = cpu
  · subst hfv
    exact OKs.all (k := 14) (by simp [rrun, i386_addStore, hp, hc, h_v, h_count, f0, f_v, f_count, slotOf, BitVec.add_comm] <;> grind)
  · have hne2 := Ne.symm hfv
    exact OKs.all (k := 14) (by simp [rrun, i386_addStore, hp, hc, h_v, h_count, f0, f_v, f_count, slotOf, hfv, hne2] <;> grind)

theorem i386_cbneCbneStore_foot (hn : 4 ≤ n) (al : Opnd → Nat) (be : Bool) (csa v expect v2 expect2 newv : W n) :
    FootOK (i386_cbneCbneStore al be csa) [rax] false al (.cbneCbneStore v expect v2 expect2 newv) := by
  intro cpu fv l m h
  have h_v := h.reg .v _ rfl
  have f_v := h.free .v _ rfl
  have h_expect := h.reg .expect _ rfl
  have f_expect := h.free .expect _ rfl
  have s_expect := h.slot .expect _ rfl (by decide)
  simp only [slotOf] at s_expect
  have h_v2 := h.reg .v2 _ rfl
  have f_v2 := h.free .v2 _ rfl
  have h_expect2 := h.reg .expect2 _ rfl
  have f_expect2 := h.free .expect2 _ rfl
  have h_newv := h.reg .newv _ rfl
  have f_newv := h.free .newv _ rfl
  have s_newv := h.slot .newv _ rfl (by decide)
  simp only [slotOf] at s_newv
  have f0 := h.freeCpu
  have hp := h.pc
  have hc := h.cpuV
  simp [rregs] at f0 f_v f_expect f_v2 f_expect2 f_newv
  by_cases hfv : fv = cpu
  · subst hfv
    by_cases he : ldw be m v = expect
    · by_cases he2 : ldw be m v2 = expect2
      · exact OKs.all (k := 14) (by simp [rrun, i386_cbneCbneStore, hp, hc, h_v, h_expect, s_expect, h_v2, h_expect2, h_newv, s_newv, f0, f_v, f_expect, f_v2, f_expect2, f_newv, slotOf, he, he2] <;> grind)
      · have hn2 := Ne.symm he2; exact OKs.all (k := 14) (by simp [rrun, i386_cbneCbneStore, hp, hc, h_v, h_expect, s_expect, h_v2, h_expect2, h_newv, s_newv, f0, f_v, f_expect, f_v2, f_expect2, f_newv, slotOf, he, he2, hn2] <;> grind)
    · have hn1 := Ne.symm he; exact OKs.all (k := 14) (by simp [rrun, i386_cbneCbneStore, hp, hc, h_v, h_expect, s_expect, h_v2, h_expect2, h_newv, s_newv, f0, f_v, f_expect, f_v2, f_expect2, f_newv, slotOf, he, hn1] <;> grind)
  · have hne2 := Ne.symm hfv
    exact OKs.all (k := 14) (by simp [rrun, i386_cbneCbneStore, hp, hc, h_v, h_expect, s_expect, h_v2, h_expect2, h_newv, s_newv, f0, f_v, f_expect, f_v2, f_expect2, f_newv, slotOf, hfv, hne2] <;> grind)

theorem i386_cbneStoreStore_foot (hn : 4 ≤ n) (al : Opnd → Nat) (be : Bool) (csa v expect v2 newv2 newv : W n) (ht : ∀ x, InWord v2 x → ¬ InWord v x) :
    FootOK (i386_cbneStoreStore al be csa) [rax] false al (.cbneStoreStore v expect v2 newv2 newv) := by
  intro cpu fv l m h
  have h_v := h.reg .v _ rfl
  have f_v := h.free .v _ rfl
  have h_expect := h.reg .expect _ rfl
  have f_expect := h.free .expect _ rfl
  have s_expect := h.slot .expect _ rfl (by decide)
  simp only [slotOf] at s_expect
  have h_v2 := h.reg .v2 _ rfl
  have f_v2 := h.free .v2 _ rfl
  have h_newv2 := h.reg .newv2 _ rfl
  have f_newv2 := h.free .newv2 _ rfl
  have h_newv := h.reg .newv _ rfl
  have f_newv := h.free .newv _ rfl
  have s_newv := h.slot .newv _ rfl (by decide)
  simp only [slotOf] at s_newv
  have f0 := h.freeCpu
  have hp := h.pc
  have hc := h.cpuV
  simp [rregs] at f0 f_v f_expect f_v2 f_newv2 f_newv
  by_cases hfv : fv = cpu
  · subst hfv
    by_cases he : ldw be m v = expect
    · exact OKs.all (k := 14) (by simp [rrun, i386_cbneStoreStore, hp, hc, h_v, h_expect, s_expect, h_v2, h_newv2, h_newv, s_newv, f0, f_v, f_expect, f_v2, f_newv2, f_newv, ht, slotOf, he] <;> grind)
    · have hn1 := Ne.symm he; exact OKs.all (k := 14) (by simp [rrun, i386_cbneStoreStore, hp, hc, h_v, h_expect, s_expect, h_v2, h_newv2, h_newv, s_newv, f0, f_v, f_expect, f_v2, f_newv2, f_newv, ht, slotOf, he, hn1] <;> grind)
  · have hne2 := Ne.symm hfv
    exact OKs.all (k := 14) (by simp [rrun, i386_cbneStoreStore, hp, hc, h_v, h_expect, s_expect, h_v2, h_newv2, h_newv, s_newv, f0, f_v, f_expect, f_v2, f_newv2, f_newv, ht, slotOf, hfv, hne2] <;> grind)

theorem i386_cbneStoreStore_rel_foot (hn : 4 ≤ n) (al : Opnd → Nat) (be : Bool) (csa v expect v2 newv2 newv : W n) (ht : ∀ x, InWord v2 x → ¬ InWord v x) :
    FootOK (i386_cbneStoreStore_rel al be csa) [rax] false al (.cbneStoreStore v expect v2 newv2 newv) := by
  intro cpu fv l m h
  have h_v := h.reg .v _ rfl
  have f_v := h.free .v _ rfl
  have h_expect := h.reg .expect _ rfl
  have f_expect := h.free .expect _ rfl
  have s_expect := h.slot .expect _ rfl (by decide)
  simp only [slotOf] at s_expect
  have h_v2 := h.reg .v2 _ rfl
  have f_v2 := h.free .v2 _ rfl
  have h_newv2 := h.reg .newv2 _ rfl
  have f_newv2 := h.free .newv2 _ rfl
  have h_newv := h.reg .newv _ rfl
  have f_newv := h.free .newv _ rfl
  have s_newv := h.slot .newv _ rfl (by decide)
  simp only [slotOf] at s_newv
  have f0 := h.freeCpu
  have hp := h.pc
  have hc := h.cpuV
  simp [rregs] at f0 f_v f_expect f_v2 f_newv2 f_newv
  by_cases hfv : fv = cpu
  · subst hfv
    by_cases he : ldw be m v = expect
    · exact OKs.all (k := 14) (by simp [rrun, i386_cbneStoreStore_rel, hp, hc, h_v, h_expect, s_expect, h_v2, h_newv2, h_newv, s_newv, f0, f_v, f_expect, f_v2, f_newv2, f_newv, ht, slotOf, he] <;> grind)
    · have hn1 := Ne.symm he; exact OKs.all (k := 14) (by simp [rrun, i386_cbneStoreStore_rel, hp, hc, h_v, h_expect, s_expect, h_v2, h_newv2, h_newv, s_newv, f0, f_v, f_expect, f_v2, f_newv2, f_newv, ht, slotOf, he, hn1] <;> grind)
  · have hne2 := Ne.symm hfv
    exact OKs.all (k := 14) (by simp [rrun, i386_cbneStoreStore_rel, hp, hc, h_v, h_expect, s_expect, h_v2, h_newv2, h_newv, s_newv, f0, f_v, f_expect, f_v2, f_newv2, f_newv, ht, slotOf, hfv, hne2] <;> grind)

theorem aarch64_cbneStore_foot (hn : 4 ≤ n) (al : Opnd → Nat) (be : Bool) (csa v expect newv : W n) :
    FootOK (aarch64_cbneStore al be csa) [x15] false al (.cbneStore v expect newv) := by
  intro cpu fv l m h
  have h_v := h.reg .v _ rfl
  have f_v := h.free .v _ rfl
  have h_expect := h.reg .expect _ rfl
  have f_expect := h.free .expect _ rfl
  have h_newv := h.reg .newv _ rfl
  have f_newv := h.free .newv _ rfl
  have f0 := h.freeCpu
  have hp := h.pc
  have hc := h.cpuV
  simp [rregs] at f0 f_v f_expect f_newv
  by_cases hfv : fv = cpu
  · subst hfv
    by_cases he : ldw be m v = expect
    · exact OKs.all (k := 14) (by simp [rrun, aarch64_cbneStore, hp, hc, h_v, h_expect, h_newv, f0, f_v, f_expect, f_newv, setWidth32_setWidth hn, sub_eq_zero_iff, he] <;> grind)
    · have hn1 := Ne.symm he; exact OKs.all (k := 14) (by simp [rrun, aarch64_cbneStore, hp, hc, h_v, h_expect, h_newv, f0, f_v, f_expect, f_newv, setWidth32_setWidth hn, sub_eq_zero_iff, he, hn1] <;> grind)
  · have hne2 := Ne.symm hfv
    exact OKs.all (k := 14) (by simp [rrun, aarch64_cbneStore, hp, hc, h_v, h_expect, h_newv, f0, f_v, f_expect, f_newv, setWidth32_setWidth hn, sub_eq_zero_iff, hfv, hne2] <;> grind)

theorem aarch64_cbeqStoreAddLoadStore_foot (hn : 4 ≤ n) (al : Opnd → Nat) (be : Bool) (csa v expectnot voffp load : W n) (ht : ∀ x, InWord load x → ¬ InWord v x) :
    FootOK (aarch64_cbeqStoreAddLoadStore al be csa) [x15] false al (.cbeqStoreAddLoadStore v expectnot voffp load) := by
  intro cpu fv l m h
  have h_v := h.reg .v _ rfl
  have f_v := h.free .v _ rfl
  have h_expectnot := h.reg .expectnot _ rfl
  have f_expectnot := h.free .expectnot _ rfl
  have h_voffp := h.reg .voffp _ rfl
  have f_voffp := h.free .voffp _ rfl
  have h_load := h.reg .load _ rfl
  have f_load := h.free .load _ rfl
  have f0 := h.freeCpu
  have hp := h.pc
  have hc := h.cpuV
  simp [rregs] at f0 f_v f_expectnot f_voffp f_load
  by_cases hfv : fv = cpu
  · subst hfv
    by_cases he : ldw be m v = expectnot
    · exact OKs.all (k := 14) (by simp [rrun, aarch64_cbeqStoreAddLoadStore, hp, hc, h_v, h_expectnot, h_voffp, h_load, f0, f_v, f_expectnot, f_voffp, f_load, ht, setWidth32_setWidth hn, sub_eq_zero_iff, he] <;> grind)
    · have hn1 := Ne.symm he; exact OKs.all (k := 14) (by simp [rrun, aarch64_cbeqStoreAddLoadStore, hp, hc, h_v, h_expectnot, h_voffp, h_load, f0, f_v, f_expectnot, f_voffp, f_load, ht, setWidth32_setWidth hn, sub_eq_zero_iff, he, hn1, BitVec.add_comm] <;> grind)
  · have hne2 := Ne.symm hfv
    exact OKs.all (k := 14) (by simp [rrun, aarch64_cbeqStoreAddLoadStore, hp, hc, h_v, h_expectnot, h_voffp, h_load, f0, f_v, f_expectnot, f_voffp, f_load, ht, setWidth32_setWidth hn, sub_eq_zero_iff, hfv, hne2] <;> grind)

theorem aarch64_addStore_foot (hn : 4 ≤ n) (al : Opnd → Nat) (be : Bool) (csa v count : W n) :
    FootOK (aarch64_addStore al be csa) [x15] false al (.addStore v count) := by
  intro cpu fv l m h
  have h_v := h.reg .v _ rfl
  have f_v := h.free .v _ rfl
  have h_count := h.reg .count _ rfl
  have f_count := h.free .count _ rfl
  have f0 := h.freeCpu
  have hp := h.pc
  have hc := h.cpuV
  simp [rregs] at f0 f_v f_count
  by_cases hfv : fv = cpu
  · subst hfv
    exact OKs.all (k := 14) (by simp [rrun, aarch64_addStore, hp, hc, h_v, h_count, f0, f_v, f_count, setWidth32_setWidth hn, sub_eq_zero_iff, BitVec.add_comm] <;> grind)
  · have hne2 := Ne.symm hfv
    exact OKs.all (k := 14) (by simp [rrun, aarch64_addStore, hp, hc, h_v, h_count, f0, f_v, f_count, setWidth32_setWidth hn, sub_eq_zero_iff, hfv, hne2] <;> grind)

theorem aarch64_cbneCbneStore_foot (hn : 4 ≤ n) (al : Opnd → Nat) (be : Bool) (csa v expect v2 expect2 newv : W n) :
    FootOK (aarch64_cbneCbneStore al be csa) [x15] false al (.cbneCbneStore v expect v2 expect2 newv) := by
  intro cpu fv l m h
  have h_v := h.reg .v _ rfl
  have f_v := h.free .v _ rfl
  have h_expect := h.reg .expect _ rfl
  have f_expect := h.free .expect _ rfl
  have h_v2 := h.reg .v2 _ rfl
  have f_v2 := h.free .v2 _ rfl
  have h_expect2 := h.reg .expect2 _ rfl
  have f_expect2 := h.free .expect2 _ rfl
  have h_newv := h.reg .newv _ rfl
  have f_newv := h.free .newv _ rfl
  have f0 := h.freeCpu
  have hp := h.pc
  have hc := h.cpuV
  simp [rregs] at f0 f_v f_expect f_v2 f_expect2 f_newv
  by_cases hfv : fv = cpu
  · subst hfv
    by_cases he : ldw be m v = expect
    · by_cases he2 : ldw be m v2 = expect2
      · exact OKs.all (k := 14) (by simp [rrun, aarch64_cbneCbneStore, hp, hc, h_v, h_expect, h_v2, h_expect2, h_newv, f0, f_v, f_expect, f_v2, f_expect2, f_newv, setWidth32_setWidth hn, sub_eq_zero_iff, he, he2] <;> grind)
      · have hn2 := Ne.symm he2; exact OKs.all (k := 14) (by simp [rrun, aarch64_cbneCbneStore, hp, hc, h_v, h_expect, h_v2, h_expect2, h_newv, f0, f_v, f_expect, f_v2, f_expect2, f_newv, setWidth32_setWidth hn, sub_eq_zero_iff, he, he2, hn2] <;> grind)
    · have hn1 := Ne.symm he; exact OKs.all (k := 14) (by simp [rrun, aarch64_cbneCbneStore, hp, hc, h_v, h_expect, h_v2, h_expect2, h_newv, f0, f_v, f_expect, f_v2, f_expect2, f_newv, setWidth32_setWidth hn, sub_eq_zero_iff, he, hn1] <;> grind)
  · have hne2 := Ne.symm hfv
    exact OKs.all (k := 14) (by simp [rrun, aarch64_cbneCbneStore, hp, hc, h_v, h_expect, h_v2, h_expect2, h_newv, f0, f_v, f_expect, f_v2, f_expect2, f_newv, setWidth32_setWidth hn, sub_eq_zero_iff, hfv, hne2] <;> grind)

theorem aarch64_cbneStoreStore_foot (hn : 4 ≤ n) (al : Opnd → Nat) (be : Bool) (csa v expect v2 newv2 newv : W n) (ht : ∀ x, InWord v2 x → ¬ InWord v x) :
    FootOK (aarch64_cbneStoreStore al be csa) [x15] false al (.cbneStoreStore v expect v2 newv2 newv) := by
  intro cpu fv l m h
  have h_v := h.reg .v _ rfl
  have f_v := h.free .v _ rfl
  have h_expect := h.reg .expect _ rfl
  have f_expect := h.free .expect _ rfl
  have h_v2 := h.reg .v2 _ rfl
  have f_v2 := h.free .v2 _ rfl
  have h_newv2 := h.reg .newv2 _ rfl
  have f_newv2 := h.free .newv2 _ rfl
  have h_newv := h.reg .newv _ rfl
  have f_newv := h.free .newv _ rfl
  have f0 := h.freeCpu
  have hp := h.pc
  have hc := h.cpuV
  simp [rregs] at f0 f_v f_expect f_v2 f_newv2 f_newv
  by_cases hfv : fv = cpu
  · subst hfv
    by_cases he : ldw be m v = expect
    · exact OKs.all (k := 14) (by simp [rrun, aarch64_cbneStoreStore, hp, hc, h_v, h_expect, h_v2, h_newv2, h_newv, f0, f_v, f_expect, f_v2, f_newv2, f_newv, ht, setWidth32_setWidth hn, sub_eq_zero_iff, he] <;> grind)
    · have hn1 := Ne.symm he; exact OKs.all (k := 14) (by simp [rrun, aarch64_cbneStoreStore, hp, hc, h_v, h_expect, h_v2, h_newv2, h_newv, f0, f_v, f_expect, f_v2, f_newv2, f_newv, ht, setWidth32_setWidth hn, sub_eq_zero_iff, he, hn1] <;> grind)
  · have hne2 := Ne.symm hfv
    exact OKs.all (k := 14) (by simp [rrun, aarch64_cbneStoreStore, hp, hc, h_v, h_expect, h_v2, h_newv2, h_newv, f0, f_v, f_expect, f_v2, f_newv2, f_newv, ht, setWidth32_setWidth hn, sub_eq_zero_iff, hfv, hne2] <;> grind)

theorem aarch64_cbneStoreStore_rel_foot (hn : 4 ≤ n) (al : Opnd → Nat) (be : Bool) (csa v expect v2 newv2 newv : W n) (ht : ∀ x, InWord v2 x → ¬ InWord v x) :
    FootOK (aarch64_cbneStoreStore_rel al be csa) [x15] false al (.cbneStoreStore v expect v2 newv2 newv) := by
  intro cpu fv l m h
  have h_v := h.reg .v _ rfl
  have f_v := h.free .v _ rfl
  have h_expect := h.reg .expect _ rfl
  have f_expect := h.free .expect _ rfl
  have h_v2 := h.reg .v2 _ rfl
  have f_v2 := h.free .v2 _ rfl
  have h_newv2 := h.reg .newv2 _ rfl
  have f_newv2 := h.free .newv2 _ rfl
  have h_newv := h.reg .newv _ rfl
  have f_newv := h.free .newv _ rfl
  have f0 := h.freeCpu
  have hp := h.pc
  have hc := h.cpuV
  simp [rregs] at f0 f_v f_expect f_v2 f_newv2 f_newv
  by_cases hfv : fv = cpu
  · subst hfv
    by_cases he : ldw be m v = expect
    · exact OKs.all (k := 14) (by simp [rrun, aarch64_cbneStoreStore_rel, hp, hc, h_v, h_expect, h_v2, h_newv2, h_newv, f0, f_v, f_expect, f_v2, f_newv2, f_newv, ht, setWidth32_setWidth hn, sub_eq_zero_iff, he] <;> grind)
    · have hn1 := Ne.symm he; exact OKs.all (k := 14) (by simp [rrun, aarch64_cbneStoreStore_rel, hp, hc, h_v, h_expect, h_v2, h_newv2, h_newv, f0, f_v, f_expect, f_v2, f_newv2, f_newv, ht, setWidth32_setWidth hn, sub_eq_zero_iff, he, hn1] <;> grind)
  · have hne2 := Ne.symm hfv
    exact OKs.all (k := 14) (by simp [rrun, aarch64_cbneStoreStore_rel, hp, hc, h_v, h_expect, h_v2, h_newv2, h_newv, f0, f_v, f_expect, f_v2, f_newv2, f_newv, ht, setWidth32_setWidth hn, sub_eq_zero_iff, hfv, hne2] <;> grind)

theorem riscv_cbneStore_foot (hn : 4 ≤ n) (al : Opnd → Nat) (be : Bool) (csa v expect newv : W n) :
    FootOK (riscv_cbneStore al be csa) [t6] true al (.cbneStore v expect newv) := by
  intro cpu fv l m h
  have h_v := h.reg .v _ rfl
  have f_v := h.free .v _ rfl
  have h_expect := h.reg .expect _ rfl
  have f_expect := h.free .expect _ rfl
  have h_newv := h.reg .newv _ rfl
  have f_newv := h.free .newv _ rfl
  have f0 := h.freeCpu
  have hp := h.pc
  have hc := h.cpuS rfl
  simp [rregs] at f0 f_v f_expect f_newv
  by_cases hfv : fv = cpu
  · subst hfv
    by_cases he : ldw be m v = expect
    · exact OKs.all (k := 14) (by simp [rrun, riscv_cbneStore, hp, hc, h_v, h_expect, h_newv, f0, f_v, f_expect, f_newv, signExtend_inj hn, he] <;> grind)
    · have hn1 := Ne.symm he; exact OKs.all (k := 14) (by simp [rrun, riscv_cbneStore, hp, hc, h_v, h_expect, h_newv, f0, f_v, f_expect, f_newv, signExtend_inj hn, he, hn1] <;> grind)
  · have hne2 := Ne.symm hfv
    exact OKs.all (k := 14) (by simp [rrun, riscv_cbneStore, hp, hc, h_v, h_expect, h_newv, f0, f_v, f_expect, f_newv, signExtend_inj hn, hfv, hne2] <;> grind)

theorem riscv_cbeqStoreAddLoadStore_foot (hn : 4 ≤ n) (al : Opnd → Nat) (be : Bool) (csa v expectnot voffp load : W n) (ht : ∀ x, InWord load x → ¬ InWord v x) :
    FootOK (riscv_cbeqStoreAddLoadStore al be csa) [t6] true al (.cbeqStoreAddLoadStore v expectnot voffp load) := by
  intro cpu fv l m h
  have h_v := h.reg .v _ rfl
  have f_v := h.free .v _ rfl
  have h_expectnot := h.reg .expectnot _ rfl
  have f_expectnot := h.free .expectnot _ rfl
  have h_voffp := h.reg .voffp _ rfl
  have f_voffp := h.free .voffp _ rfl
  have h_load := h.reg .load _ rfl
  have f_load := h.free .load _ rfl
  have f0 := h.freeCpu
  have hp := h.pc
  have hc := h.cpuS rfl
  simp [rregs] at f0 f_v f_expectnot f_voffp f_load
  by_cases hfv : fv = cpu
  · subst hfv
    by_cases he : ldw be m v = expectnot
    · exact OKs.all (k := 14) (by simp [rrun, riscv_cbeqStoreAddLoadStore, hp, hc, h_v, h_expectnot, h_voffp, h_load, f0, f_v, f_expectnot, f_voffp, f_load, ht, signExtend_inj hn, he] <;> grind)
    · have hn1 := Ne.symm he; exact OKs.all (k := 14) (by simp [rrun, riscv_cbeqStoreAddLoadStore, hp, hc, h_v, h_expectnot, h_voffp, h_load, f0, f_v, f_expectnot, f_voffp, f_load, ht, signExtend_inj hn, he, hn1, BitVec.add_comm] <;> grind)
  · have hne2 := Ne.symm hfv
    exact OKs.all (k := 14) (by simp [rrun, riscv_cbeqStoreAddLoadStore, hp, hc, h_v, h_expectnot, h_voffp, h_load, f0, f_v, f_expectnot, f_voffp, f_load, ht, signExtend_inj hn, hfv, hne2] <;> grind)

theorem riscv_addStore_foot (hn : 4 ≤ n) (al : Opnd → Nat) (be : Bool) (csa v count : W n) :
    FootOK (riscv_addStore al be csa) [t6] true al (.addStore v count) := by
  intro cpu fv l m h
  have h_v := h.reg .v _ rfl
  have f_v := h.free .v _ rfl
  have h_count := h.reg .count _ rfl
  have f_count := h.free .count _ rfl
  have f0 := h.freeCpu
  have hp := h.pc
  have hc := h.cpuS rfl
  simp [rregs] at f0 f_v f_count
  by_cases hfv : fv = cpu
  · subst hfv
    exact OKs.all (k := 14) (by simp [rrun, riscv_addStore, hp, hc, h_v, h_count, f0, f_v, f_count, signExtend_inj hn, BitVec.add_comm] <;> grind)
  · have hne2 := Ne.symm hfv
    exact OKs.all (k := 14) (by simp [rrun, riscv_addStore, hp, hc, h_v, h_count, f0, f_v, f_count, signExtend_inj hn, hfv, hne2] <;> grind)

theorem riscv_cbneCbneStore_foot (hn : 4 ≤ n) (al : Opnd → Nat) (be : Bool) (csa v expect v2 expect2 newv : W n) :
    FootOK (riscv_cbneCbneStore al be csa) [t6] true al (.cbneCbneStore v expect v2 expect2 newv) := by
  intro cpu fv l m h
  have h_v := h.reg .v _ rfl
  have f_v := h.free .v _ rfl
  have h_expect := h.reg .expect _ rfl
  have f_expect := h.free .expect _ rfl
  have h_v2 := h.reg .v2 _ rfl
  have f_v2 := h.free .v2 _ rfl
  have h_expect2 := h.reg .expect2 _ rfl
  have f_expect2 := h.free .expect2 _ rfl
  have h_newv := h.reg .newv _ rfl
  have f_newv := h.free .newv _ rfl
  have f0 := h.freeCpu
  have hp := h.pc
  have hc := h.cpuS rfl
  simp [rregs] at f0 f_v f_expect f_v2 f_expect2 f_newv
  by_cases hfv : fv = cpu
  · subst hfv
    by_cases he : ldw be m v = expect
    · by_cases he2 : ldw be m v2 = expect2
      · exact OKs.all (k := 14) (by simp [rrun, riscv_cbneCbneStore, hp, hc, h_v, h_expect, h_v2, h_expect2, h_newv, f0, f_v, f_expect, f_v2, f_expect2, f_newv, signExtend_inj hn, he, he2] <;> grind)
      · have hn2 := Ne.symm he2; exact OKs.all (k := 14) (by simp [rrun, riscv_cbneCbneStore, hp, hc, h_v, h_expect, h_v2, h_expect2, h_newv, f0, f_v, f_expect, f_v2, f_expect2, f_newv, signExtend_inj hn, he, he2, hn2] <;> grind)
    · have hn1 := Ne.symm he; exact OKs.all (k := 14) (by simp [rrun, riscv_cbneCbneStore, hp, hc, h_v, h_expect, h_v2, h_expect2, h_newv, f0, f_v, f_expect, f_v2, f_expect2, f_newv, signExtend_inj hn, he, hn1] <;> grind)
  · have hne2 := Ne.symm hfv
    exact OKs.all (k := 14) (by simp [rrun, riscv_cbneCbneStore, hp, hc, h_v, h_expect, h_v2, h_expect2, h_newv, f0, f_v, f_expect, f_v2, f_expect2, f_newv, signExtend_inj hn, hfv, hne2] <;> grind)

theorem riscv_cbneStoreStore_foot (hn : 4 ≤ n) (al : Opnd → Nat) (be : Bool) (csa v expect v2 newv2 newv : W n) (ht : ∀ x, InWord v2 x → ¬ InWord v x) :
    FootOK (riscv_cbneStoreStore al be csa) [t6] true al (.cbneStoreStore v expect v2 newv2 newv) := by
  intro cpu fv l m h
  have h_v := h.reg .v _ rfl
  have f_v := h.free .v _ rfl
  have h_expect := h.reg .expect _ rfl
  have f_expect := h.free .expect _ rfl
  have h_v2 := h.reg .v2 _ rfl
  have f_v2 := h.free .v2 _ rfl
  have h_newv2 := h.reg .newv2 _ rfl
  have f_newv2 := h.free .newv2 _ rfl
  have h_newv := h.reg .newv _ rfl
  have f_newv := h.free .newv _ rfl
  have f0 := h.freeCpu
  have hp := h.pc
  have hc := h.cpuS rfl
  simp [rregs] at f0 f_v f_expect f_v2 f_newv2 f_newv
  by_cases hfv : fv = cpu
  · subst hfv
    by_cases he : ldw be m v = expect
    · exact OKs.all (k := 14) (by simp [rrun, riscv_cbneStoreStore, hp, hc, h_v, h_expect, h_v2, h_newv2, h_newv, f0, f_v, f_expect, f_v2, f_newv2, f_newv, ht, signExtend_inj hn, he] <;> grind)
    · have hn1 := Ne.symm he; exact OKs.all (k := 14) (by simp [rrun, riscv_cbneStoreStore, hp, hc, h_v, h_expect, h_v2, h_newv2, h_newv, f0, f_v, f_expect, f_v2, f_newv2, f_newv, ht, signExtend_inj hn, he, hn1] <;> grind)
  · have hne2 := Ne.symm hfv
    exact OKs.all (k := 14) (by simp [rrun, riscv_cbneStoreStore, hp, hc, h_v, h_expect, h_v2, h_newv2, h_newv, f0, f_v, f_expect, f_v2, f_newv2, f_newv, ht, signExtend_inj hn, hfv, hne2] <;> grind)

theorem riscv_cbneStoreStore_rel_foot (hn : 4 ≤ n) (al : Opnd → Nat) (be : Bool) (csa v expect v2 newv2 newv : W n) (ht : ∀ x, InWord v2 x → ¬ InWord v x) :
    FootOK (riscv_cbneStoreStore_rel al be csa) [t6] true al (.cbneStoreStore v expect v2 newv2 newv) := by
  intro cpu fv l m h
  have h_v := h.reg .v _ rfl
  have f_v := h.free .v _ rfl
  have h_expect := h.reg .expect _ rfl
  have f_expect := h.free .expect _ rfl
  have h_v2 := h.reg .v2 _ rfl
  have f_v2 := h.free .v2 _ rfl
  have h_newv2 := h.reg .newv2 _ rfl
  have f_newv2 := h.free .newv2 _ rfl
  have h_newv := h.reg .newv _ rfl
  have f_newv := h.free .newv _ rfl
  have f0 := h.freeCpu
  have hp := h.pc
  have hc := h.cpuS rfl
  simp [rregs] at f0 f_v f_expect f_v2 f_newv2 f_newv
  by_cases hfv : fv = cpu
  · subst hfv
    by_cases he : ldw be m v = expect
    · exact OKs.all (k := 14) (by simp [rrun, riscv_cbneStoreStore_rel, hp, hc, h_v, h_expect, h_v2, h_newv2, h_newv, f0, f_v, f_expect, f_v2, f_newv2, f_newv, ht, signExtend_inj hn, he] <;> grind)
    · have hn1 := Ne.symm he; exact OKs.all (k := 14) (by simp [rrun, riscv_cbneStoreStore_rel, hp, hc, h_v, h_expect, h_v2, h_newv2, h_newv, f0, f_v, f_expect, f_v2, f_newv2, f_newv, ht, signExtend_inj hn, he, hn1] <;> grind)
  · have hne2 := Ne.symm hfv
    exact OKs.all (k := 14) (by simp [rrun, riscv_cbneStoreStore_rel, hp, hc, h_v, h_expect, h_v2, h_newv2, h_newv, f0, f_v, f_expect, f_v2, f_newv2, f_newv, ht, signExtend_inj hn, hfv, hne2] <;> grind)

theorem ppc_cbneStore_foot (hn : 4 ≤ n) (al : Opnd → Nat) (be : Bool) (csa v expect newv : W n) :
    FootOK (ppc_cbneStore al be csa) [r17] false al (.cbneStore v expect newv) := by
  intro cpu fv l m h
  have h_v := h.reg .v _ rfl
  have f_v := h.free .v _ rfl
  have h_expect := h.reg .expect _ rfl
  have f_expect := h.free .expect _ rfl
  have h_newv := h.reg .newv _ rfl
  have f_newv := h.free .newv _ rfl
  have f0 := h.freeCpu
  have hp := h.pc
  have hc := h.cpuV
  simp [rregs] at f0 f_v f_expect f_newv
  by_cases hfv : fv = cpu
  · subst hfv
    by_cases he : ldw be m v = expect
    · exact OKs.all (k := 14) (by simp [rrun, ppc_cbneStore, hp, hc, h_v, h_expect, h_newv, f0, f_v, f_expect, f_newv, setWidth32_setWidth hn, he] <;> grind)
    · have hn1 := Ne.symm he; exact OKs.all (k := 14) (by simp [rrun, ppc_cbneStore, hp, hc, h_v, h_expect, h_newv, f0, f_v, f_expect, f_newv, setWidth32_setWidth hn, he, hn1] <;> grind)
  · have hne2 := Ne.symm hfv
    exact OKs.all (k := 14) (by simp [rrun, ppc_cbneStore, hp, hc, h_v, h_expect, h_newv, f0, f_v, f_expect, f_newv, setWidth32_setWidth hn, hfv, hne2] <;> grind)

theorem ppc_cbeqStoreAddLoadStore_foot (hn : 4 ≤ n) (al : Opnd → Nat) (be : Bool) (csa v expectnot voffp load : W n) (ht : ∀ x, InWord load x → ¬ InWord v x) :
    FootOK (ppc_cbeqStoreAddLoadStore al be csa) [r17] false al (.cbeqStoreAddLoadStore v expectnot voffp load) := by
  intro cpu fv l m h
  have h_v := h.reg .v _ rfl
  have f_v := h.free .v _ rfl
  have h_expectnot := h.reg .expectnot _ rfl
  have f_expectnot := h.free .expectnot _ rfl
  have h_voffp := h.reg .voffp _ rfl
  have f_voffp := h.free .voffp _ rfl
  have h_load := h.reg .load _ rfl
  have f_load := h.free .load _ rfl
  have f0 := h.freeCpu
  have hp := h.pc
  have hc := h.cpuV
  simp [rregs] at f0 f_v f_expectnot f_voffp f_load
  by_cases hfv : fv = cpu
  · subst hfv
    by_cases he : ldw be m v = expectnot
    · exact OKs.all (k := 14) (by simp [rrun, ppc_cbeqStoreAddLoadStore, hp, hc, h_v, h_expectnot, h_voffp, h_load, f0, f_v, f_expectnot, f_voffp, f_load, ht, setWidth32_setWidth hn, he] <;> grind)
    · have hn1 := Ne.symm he; exact OKs.all (k := 14) (by simp [rrun, ppc_cbeqStoreAddLoadStore, hp, hc, h_v, h_expectnot, h_voffp, h_load, f0, f_v, f_expectnot, f_voffp, f_load, ht, setWidth32_setWidth hn, he, hn1, BitVec.add_comm] <;> grind)
  · have hne2 := Ne.symm hfv
    exact OKs.all (k := 14) (by simp [rrun, ppc_cbeqStoreAddLoadStore, hp, hc, h_v, h_expectnot, h_voffp, h_load, f0, f_v, f_expectnot, f_voffp, f_load, ht, setWidth32_setWidth hn, hfv, hne2] <;> grind)

theorem ppc_addStore_foot (hn : 4 ≤ n) (al : Opnd → Nat) (be : Bool) (csa v count : W n) :
    FootOK (ppc_addStore al be csa) [r17] false al (.addStore v count) := by
  intro cpu fv l m h
  have h_v := h.reg .v _ rfl
  have f_v := h.free .v _ rfl
  have h_count := h.reg .count _ rfl
  have f_count := h.free .count _ rfl
  have f0 := h.freeCpu
  have hp := h.pc
  have hc := h.cpuV
  simp [rregs] at f0 f_v f_count
  by_cases hfv : fv = cpu
  · subst hfv
    exact OKs.all (k := 14) (by simp [rrun, ppc_addStore, hp, hc, h_v, h_count, f0, f_v, f_count, setWidth32_setWidth hn, BitVec.add_comm] <;> grind)
  · have hne2 := Ne.symm hfv
    exact OKs.all (k := 14) (by simp [rrun, ppc_addStore, hp, hc, h_v, h_count, f0, f_v, f_count, setWidth32_setWidth hn, hfv, hne2] <;> grind)

theorem ppc_cbneCbneStore_foot (hn : 4 ≤ n) (al : Opnd → Nat) (be : Bool) (csa v expect v2 expect2 newv : W n) :
    FootOK (ppc_cbneCbneStore al be csa) [r17] false al (.cbneCbneStore v expect v2 expect2 newv) := by
  intro cpu fv l m h
  have h_v := h.reg .v _ rfl
  have f_v := h.free .v _ rfl
  have h_expect := h.reg .expect _ rfl
  have f_expect := h.free .expect _ rfl
  have h_v2 := h.reg .v2 _ rfl
  have f_v2 := h.free .v2 _ rfl
  have h_expect2 := h.reg .expect2 _ rfl
  have f_expect2 := h.free .expect2 _ rfl
  have h_newv := h.reg .newv _ rfl
  have f_newv := h.free .newv _ rfl
  have f0 := h.freeCpu
  have hp := h.pc
  have hc := h.cpuV
  simp [rregs] at f0 f_v f_expect f_v2 f_expect2 f_newv
  by_cases hfv : fv = cpu
  · subst hfv
    by_cases he : ldw be m v = expect
    · by_cases he2 : ldw be m v2 = expect2
      · exact OKs.all (k := 14) (by simp [rrun, ppc_cbneCbneStore, hp, hc, h_v, h_expect, h_v2, h_expect2, h_newv, f0, f_v, f_expect, f_v2, f_expect2, f_newv, setWidth32_setWidth hn, he, he2] <;> grind)
      · have hn2 := Ne.symm he2; exact OKs.all (k := 14) (by simp [rrun, ppc_cbneCbneStore, hp, hc, h_v, h_expect, h_v2, h_expect2, h_newv, f0, f_v, f_expect, f_v2, f_expect2, f_newv, setWidth32_setWidth hn, he, he2, hn2] <;> grind)
    · have hn1 := Ne.symm he; exact OKs.all (k := 14) (by simp [rrun, ppc_cbneCbneStore, hp, hc, h_v, h_expect, h_v2, h_expect2, h_newv, f0, f_v, f_expect, f_v2, f_expect2, f_newv, setWidth32_setWidth hn, he, hn1] <;> grind)
  · have hne2 := Ne.symm hfv
    exact OKs.all (k := 14) (by simp [rrun, ppc_cbneCbneStore, hp, hc, h_v, h_expect, h_v2, h_expect2, h_newv, f0, f_v, f_expect, f_v2, f_expect2, f_newv, setWidth32_setWidth hn, hfv, hne2] <;> grind)

theorem ppc_cbneStoreStore_foot (hn : 4 ≤ n) (al : Opnd → Nat) (be : Bool) (csa v expect v2 newv2 newv : W n) (ht : ∀ x, InWord v2 x → ¬ InWord v x) :
    FootOK (ppc_cbneStoreStore al be csa) [r17] false al (.cbneStoreStore v expect v2 newv2 newv) := by
  intro cpu fv l m h
  have h_v := h.reg .v _ rfl
  have f_v := h.free .v _ rfl
  have h_expect := h.reg .expect _ rfl
  have f_expect := h.free .expect _ rfl
  have h_v2 := h.reg .v2 _ rfl
  have f_v2 := h.free .v2 _ rfl
  have h_newv2 := h.reg .newv2 _ rfl
  have f_newv2 := h.free .newv2 _ rfl
  have h_newv := h.reg .newv _ rfl
  have f_newv := h.free .newv _ rfl
  have f0 := h.freeCpu
  have hp := h.pc
  have hc := h.cpuV
  simp [rregs] at f0 f_v f_expect f_v2 f_newv2 f_newv
  by_cases hfv : fv = cpu
  · subst hfv
    by_cases he : ldw be m v = expect
    · exact OKs.all (k := 14) (by simp [rrun, ppc_cbneStoreStore, hp, hc, h_v, h_expect, h_v2, h_newv2, h_newv, f0, f_v, f_expect, f_v2, f_newv2, f_newv, ht, setWidth32_setWidth hn, he] <;> grind)
    · have hn1 := Ne.symm he; exact OKs.all (k := 14) (by simp [rrun, ppc_cbneStoreStore, hp, hc, h_v, h_expect, h_v2, h_newv2, h_newv, f0, f_v, f_expect, f_v2, f_newv2, f_newv, ht, setWidth32_setWidth hn, he, hn1] <;> grind)
  · have hne2 := Ne.symm hfv
    exact OKs.all (k := 14) (by simp [rrun, ppc_cbneStoreStore, hp, hc, h_v, h_expect, h_v2, h_newv2, h_newv, f0, f_v, f_expect, f_v2, f_newv2, f_newv, ht, setWidth32_setWidth hn, hfv, hne2] <;> grind)

theorem ppc_cbneStoreStore_rel_foot (hn : 4 ≤ n) (al : Opnd → Nat) (be : Bool) (csa v expect v2 newv2 newv : W n) (ht : ∀ x, InWord v2 x → ¬ InWord v x) :
    FootOK (ppc_cbneStoreStore_rel al be csa) [r17] false al (.cbneStoreStore v expect v2 newv2 newv) := by
  intro cpu fv l m h
  have h_v := h.reg .v _ rfl
  have f_v := h.free .v _ rfl
  have h_expect := h.reg .expect _ rfl
  have f_expect := h.free .expect _ rfl
  have h_v2 := h.reg .v2 _ rfl
  have f_v2 := h.free .v2 _ rfl
  have h_newv2 := h.reg .newv2 _ rfl
  have f_newv2 := h.free .newv2 _ rfl
  have h_newv := h.reg .newv _ rfl
  have f_newv := h.free .newv _ rfl
  have f0 := h.freeCpu
  have hp := h.pc
  have hc := h.cpuV
  simp [rregs] at f0 f_v f_expect f_v2 f_newv2 f_newv
  by_cases hfv : fv = cpu
  · subst hfv
    by_cases he : ldw be m v = expect
    · exact OKs.all (k := 14) (by simp [rrun, ppc_cbneStoreStore_rel, hp, hc, h_v, h_expect, h_v2, h_newv2, h_newv, f0, f_v, f_expect, f_v2, f_newv2, f_newv, ht, setWidth32_setWidth hn, he] <;> grind)
    · have hn1 := Ne.symm he; exact OKs.all (k := 14) (by simp [rrun, ppc_cbneStoreStore_rel, hp, hc, h_v, h_expect, h_v2, h_newv2, h_newv, f0, f_v, f_expect, f_v2, f_newv2, f_newv, ht, setWidth32_setWidth hn, he, hn1] <;> grind)
  · have hne2 := Ne.symm hfv
    exact OKs.all (k := 14) (by simp [rrun, ppc_cbneStoreStore_rel, hp, hc, h_v, h_expect, h_v2, h_newv2, h_newv, f0, f_v, f_expect, f_v2, f_newv2, f_newv, ht, setWidth32_setWidth hn, hfv, hne2] <;> grind)

theorem s390_cbneStore_foot (hn : 4 ≤ n) (al : Opnd → Nat) (be : Bool) (csa v expect newv : W n) :
    FootOK (s390_cbneStore al be csa) [g0] false al (.cbneStore v expect newv) := by
  intro cpu fv l m h
  have h_v := h.reg .v _ rfl
  have f_v := h.free .v _ rfl
  have h_expect := h.reg .expect _ rfl
  have f_expect := h.free .expect _ rfl
  have h_newv := h.reg .newv _ rfl
  have f_newv := h.free .newv _ rfl
  have f0 := h.freeCpu
  have hp := h.pc
  have hc := h.cpuV
  simp [rregs] at f0 f_v f_expect f_newv
  by_cases hfv : fv = cpu
  · subst hfv
    by_cases he : ldw be m v = expect
    · exact OKs.all (k := 14) (by simp [rrun, s390_cbneStore, hp, hc, h_v, h_expect, h_newv, f0, f_v, f_expect, f_newv, he] <;> grind)
    · have hn1 := Ne.symm he; exact OKs.all (k := 14) (by simp [rrun, s390_cbneStore, hp, hc, h_v, h_expect, h_newv, f0, f_v, f_expect, f_newv, he, hn1] <;> grind)
  · have hne2 := Ne.symm hfv
    exact OKs.all (k := 14) (by simp [rrun, s390_cbneStore, hp, hc, h_v, h_expect, h_newv, f0, f_v, f_expect, f_newv, hfv, hne2] <;> grind)

theorem s390_cbeqStoreAddLoadStore_foot (hn : 4 ≤ n) (al : Opnd → Nat) (be : Bool) (csa v expectnot voffp load : W n) (ht : ∀ x, InWord load x → ¬ InWord v x) :
    FootOK (s390_cbeqStoreAddLoadStore al be csa) [g0, g1] false al (.cbeqStoreAddLoadStore v expectnot voffp load) := by
  intro cpu fv l m h
  have h_v := h.reg .v _ rfl
  have f_v := h.free .v _ rfl
  have h_expectnot := h.reg .expectnot _ rfl
  have f_expectnot := h.free .expectnot _ rfl
  have h_voffp := h.reg .voffp _ rfl
  have f_voffp := h.free .voffp _ rfl
  have h_load := h.reg .load _ rfl
  have f_load := h.free .load _ rfl
  have f0 := h.freeCpu
  have hp := h.pc
  have hc := h.cpuV
  simp [rregs] at f0 f_v f_expectnot f_voffp f_load
  by_cases hfv : fv = cpu
  · subst hfv
    by_cases he : ldw be m v = expectnot
    · exact OKs.all (k := 14) (by simp [rrun, s390_cbeqStoreAddLoadStore, hp, hc, h_v, h_expectnot, h_voffp, h_load, f0, f_v, f_expectnot, f_voffp, f_load, ht, he] <;> grind)
    · have hn1 := Ne.symm he; exact OKs.all (k := 14) (by simp [rrun, s390_cbeqStoreAddLoadStore, hp, hc, h_v, h_expectnot, h_voffp, h_load, f0, f_v, f_expectnot, f_voffp, f_load, ht, he, hn1, BitVec.add_comm] <;> grind)
  · have hne2 := Ne.symm hfv
    exact OKs.all (k := 14) (by simp [rrun, s390_cbeqStoreAddLoadStore, hp, hc, h_v, h_expectnot, h_voffp, h_load, f0, f_v, f_expectnot, f_voffp, f_load, ht, hfv, hne2] <;> grind)

theorem s390_addStore_foot (hn : 4 ≤ n) (al : Opnd → Nat) (be : Bool) (csa v count : W n) :
    FootOK (s390_addStore al be csa) [g0] false al (.addStore v count) := by
  intro cpu fv l m h
  have h_v := h.reg .v _ rfl
  have f_v := h.free .v _ rfl
  have h_count := h.reg .count _ rfl
  have f_count := h.free .count _ rfl
  have f0 := h.freeCpu
  have hp := h.pc
  have hc := h.cpuV
  simp [rregs] at f0 f_v f_count
  by_cases hfv : fv = cpu
  · subst hfv
    exact OKs.all (k := 14) (by simp [rrun, s390_addStore, hp, hc, h_v, h_count, f0, f_v, f_count, BitVec.add_comm] <;> grind)
  · have hne2 := Ne.symm hfv
    exact OKs.all (k := 14) (by simp [rrun, s390_addStore, hp, hc, h_v, h_count, f0, f_v, f_count, hfv, hne2] <;> grind)

theorem s390_cbneCbneStore_foot (hn : 4 ≤ n) (al : Opnd → Nat) (be : Bool) (csa v expect v2 expect2 newv : W n) :
    FootOK (s390_cbneCbneStore al be csa) [g0] false al (.cbneCbneStore v expect v2 expect2 newv) := by
  intro cpu fv l m h
  have h_v := h.reg .v _ rfl
  have f_v := h.free .v _ rfl
  have h_expect := h.reg .expect _ rfl
  have f_expect := h.free .expect _ rfl
  have h_v2 := h.reg .v2 _ rfl
  have f_v2 := h.free .v2 _ rfl
  have h_expect2 := h.reg .expect2 _ rfl
  have f_expect2 := h.free .expect2 _ rfl
  have h_newv := h.reg .newv _ rfl
  have f_newv := h.free .newv _ rfl
  have f0 := h.freeCpu
  have hp := h.pc
  have hc := h.cpuV
  simp [rregs] at f0 f_v f_expect f_v2 f_expect2 f_newv
  by_cases hfv : fv = cpu
  · subst hfv
    by_cases he : ldw be m v = expect
    · by_cases he2 : ldw be m v2 = expect2
      · exact OKs.all (k := 14) (by simp [rrun, s390_cbneCbneStore, hp, hc, h_v, h_expect, h_v2, h_expect2, h_newv, f0, f_v, f_expect, f_v2, f_expect2, f_newv, he, he2] <;> grind)
      · have hn2 := Ne.symm he2; exact OKs.all (k := 14) (by simp [rrun, s390_cbneCbneStore, hp, hc, h_v, h_expect, h_v2, h_expect2, h_newv, f0, f_v, f_expect, f_v2, f_expect2, f_newv, he, he2, hn2] <;> grind)
    · have hn1 := Ne.symm he; exact OKs.all (k := 14) (by simp [rrun, s390_cbneCbneStore, hp, hc, h_v, h_expect, h_v2, h_expect2, h_newv, f0, f_v, f_expect, f_v2, f_expect2, f_newv, he, hn1] <;> grind)
  · have hne2 := Ne.symm hfv
    exact OKs.all (k := 14) (by simp [rrun, s390_cbneCbneStore, hp, hc, h_v, h_expect, h_v2, h_expect2, h_newv, f0, f_v, f_expect, f_v2, f_expect2, f_newv, hfv, hne2] <;> grind)

theorem s390_cbneStoreStore_foot (hn : 4 ≤ n) (al : Opnd → Nat) (be : Bool) (csa v expect v2 newv2 newv : W n) (ht : ∀ x, InWord v2 x → ¬ InWord v x) :
    FootOK (s390_cbneStoreStore al be csa) [g0] false al (.cbneStoreStore v expect v2 newv2 newv) := by
  intro cpu fv l m h
  have h_v := h.reg .v _ rfl
  have f_v := h.free .v _ rfl
  have h_expect := h.reg .expect _ rfl
  have f_expect := h.free .expect _ rfl
  have h_v2 := h.reg .v2 _ rfl
  have f_v2 := h.free .v2 _ rfl
  have h_newv2 := h.reg .newv2 _ rfl
  have f_newv2 := h.free .newv2 _ rfl
  have h_newv := h.reg .newv _ rfl
  have f_newv := h.free .newv _ rfl
  have f0 := h.freeCpu
  have hp := h.pc
  have hc := h.cpuV
  simp [rregs] at f0 f_v f_expect f_v2 f_newv2 f_newv
  by_cases hfv : fv = cpu
  · subst hfv
    by_cases he : ldw be m v = expect
    · exact OKs.all (k := 14) (by simp [rrun, s390_cbneStoreStore, hp, hc, h_v, h_expect, h_v2, h_newv2, h_newv, f0, f_v, f_expect, f_v2, f_newv2, f_newv, ht, he] <;> grind)
    · have hn1 := Ne.symm he; exact OKs.all (k := 14) (by simp [rrun, s390_cbneStoreStore, hp, hc, h_v, h_expect, h_v2, h_newv2, h_newv, f0, f_v, f_expect, f_v2, f_newv2, f_newv, ht, he, hn1] <;> grind)
  · have hne2 := Ne.symm hfv
    exact OKs.all (k := 14) (by simp [rrun, s390_cbneStoreStore, hp, hc, h_v, h_expect, h_v2, h_newv2, h_newv, f0, f_v, f_expect, f_v2, f_newv2, f_newv, ht, hfv, hne2] <;> grind)

theorem mips_cbneStore_foot (hn : 4 ≤ n) (al : Opnd → Nat) (be : Bool) (csa v expect newv : W n) :
    FootOK (mips_cbneStore al be csa) [m4] true al (.cbneStore v expect newv) := by
  intro cpu fv l m h
  have h_v := h.reg .v _ rfl
  have f_v := h.free .v _ rfl
  have h_expect := h.reg .expect _ rfl
  have f_expect := h.free .expect _ rfl
  have h_newv := h.reg .newv _ rfl
  have f_newv := h.free .newv _ rfl
  have f0 := h.freeCpu
  have hp := h.pc
  have hc := h.cpuS rfl
  simp [rregs] at f0 f_v f_expect f_newv
  by_cases hfv : fv = cpu
  · subst hfv
    by_cases he : ldw be m v = expect
    · exact OKs.all (k := 14) (by simp [rrun, mips_cbneStore, hp, hc, h_v, h_expect, h_newv, f0, f_v, f_expect, f_newv, signExtend_inj hn, he] <;> grind)
    · have hn1 := Ne.symm he; exact OKs.all (k := 14) (by simp [rrun, mips_cbneStore, hp, hc, h_v, h_expect, h_newv, f0, f_v, f_expect, f_newv, signExtend_inj hn, he, hn1] <;> grind)
  · have hne2 := Ne.symm hfv
    exact OKs.all (k := 14) (by simp [rrun, mips_cbneStore, hp, hc, h_v, h_expect, h_newv, f0, f_v, f_expect, f_newv, signExtend_inj hn, hfv, hne2] <;> grind)

theorem mips_cbeqStoreAddLoadStore_foot (hn : 4 ≤ n) (al : Opnd → Nat) (be : Bool) (csa v expectnot voffp load : W n) (ht : ∀ x, InWord load x → ¬ InWord v x) :
    FootOK (mips_cbeqStoreAddLoadStore al be csa) [m4] true al (.cbeqStoreAddLoadStore v expectnot voffp load) := by
  intro cpu fv l m h
  have h_v := h.reg .v _ rfl
  have f_v := h.free .v _ rfl
  have h_expectnot := h.reg .expectnot _ rfl
  have f_expectnot := h.free .expectnot _ rfl
  have h_voffp := h.reg .voffp _ rfl
  have f_voffp := h.free .voffp _ rfl
  have h_load := h.reg .load _ rfl
  have f_load := h.free .load _ rfl
  have f0 := h.freeCpu
  have hp := h.pc
  have hc := h.cpuS rfl
  simp [rregs] at f0 f_v f_expectnot f_voffp f_load
  by_cases hfv : fv = cpu
  · subst hfv
    by_cases he : ldw be m v = expectnot
    · exact OKs.all (k := 14) (by simp [rrun, mips_cbeqStoreAddLoadStore, hp, hc, h_v, h_expectnot, h_voffp, h_load, f0, f_v, f_expectnot, f_voffp, f_load, ht, signExtend_inj hn, he] <;> grind)
    · have hn1 := Ne.symm he; exact OKs.all (k := 14) (by simp [rrun, mips_cbeqStoreAddLoadStore, hp, hc, h_v, h_expectnot, h_voffp, h_load, f0, f_v, f_expectnot, f_voffp, f_load, ht, signExtend_inj hn, he, hn1, BitVec.add_comm] <;> grind)
  · have hne2 := Ne.symm hfv
    exact OKs.all (k := 14) (by simp [rrun, mips_cbeqStoreAddLoadStore, hp, hc, h_v, h_expectnot, h_voffp, h_load, f0, f_v, f_expectnot, f_voffp, f_load, ht, signExtend_inj hn, hfv, hne2] <;> grind)

theorem mips_addStore_foot (hn : 4 ≤ n) (al : Opnd → Nat) (be : Bool) (csa v count : W n) :
    FootOK (mips_addStore al be csa) [m4] true al (.addStore v count) := by
  intro cpu fv l m h
  have h_v := h.reg .v _ rfl
  have f_v := h.free .v _ rfl
  have h_count := h.reg .count _ rfl
  have f_count := h.free .count _ rfl
  have f0 := h.freeCpu
  have hp := h.pc
  have hc := h.cpuS rfl
  simp [rregs] at f0 f_v f_count
  by_cases hfv : fv = cpu
  · subst hfv
    exact OKs.all (k := 14) (by simp [rrun, mips_addStore, hp, hc, h_v, h_count, f0, f_v, f_count, signExtend_inj hn, BitVec.add_comm] <;> grind)
  · have hne2 := Ne.symm hfv
    exact OKs.all (k := 14) (by simp [rrun, mips_addStore, hp, hc, h_v, h_count, f0, f_v, f_count, signExtend_inj hn, hfv, hne2] <;> grind)

theorem mips_cbneCbneStore_foot (hn : 4 ≤ n) (al : Opnd → Nat) (be : Bool) (csa v expect v2 expect2 newv : W n) :
    FootOK (mips_cbneCbneStore al be csa) [m4] true al (.cbneCbneStore v expect v2 expect2 newv) := by
  intro cpu fv l m h
  have h_v := h.reg .v _ rfl
  have f_v := h.free .v _ rfl
  have h_expect := h.reg .expect _ rfl
  have f_expect := h.free .expect _ rfl
  have h_v2 := h.reg .v2 _ rfl
  have f_v2 := h.free .v2 _ rfl
  have h_expect2 := h.reg .expect2 _ rfl
  have f_expect2 := h.free .expect2 _ rfl
  have h_newv := h.reg .newv _ rfl
  have f_newv := h.free .newv _ rfl
  have f0 := h.freeCpu
  have hp := h.pc
  have hc := h.cpuS rfl
  simp [rregs] at f0 f_v f_expect f_v2 f_expect2 f_newv
  by_cases hfv : fv = cpu
  · subst hfv
    by_cases he : ldw be m v = expect
    · by_cases he2 : ldw be m v2 = expect2
      · exact OKs.all (k := 14) (by simp [rrun, mips_cbneCbneStore, hp, hc, h_v, h_expect, h_v2, h_expect2, h_newv, f0, f_v, f_expect, f_v2, f_expect2, f_newv, signExtend_inj hn, he, he2] <;> grind)
      · have hn2 := Ne.symm he2; exact OKs.all (k := 14) (by simp [rrun, mips_cbneCbneStore, hp, hc, h_v, h_expect, h_v2, h_expect2, h_newv, f0, f_v, f_expect, f_v2, f_expect2, f_newv, signExtend_inj hn, he, he2, hn2] <;> grind)
    · have hn1 := Ne.symm he; exact OKs.all (k := 14) (by simp [rrun, mips_cbneCbneStore, hp, hc, h_v, h_expect, h_v2, h_expect2, h_newv, f0, f_v, f_expect, f_v2, f_expect2, f_newv, signExtend_inj hn, he, hn1] <;> grind)
  · have hne2 := Ne.symm hfv
    exact OKs.all (k := 14) (by simp [rrun, mips_cbneCbneStore, hp, hc, h_v, h_expect, h_v2, h_expect2, h_newv, f0, f_v, f_expect, f_v2, f_expect2, f_newv, signExtend_inj hn, hfv, hne2] <;> grind)

theorem mips_cbneStoreStore_foot (hn : 4 ≤ n) (al : Opnd → Nat) (be : Bool) (csa v expect v2 newv2 newv : W n) (ht : ∀ x, InWord v2 x → ¬ InWord v x) :
    FootOK (mips_cbneStoreStore al be csa) [m4] true al (.cbneStoreStore v expect v2 newv2 newv) := by
  intro cpu fv l m h
  have h_v := h.reg .v _ rfl
  have f_v := h.free .v _ rfl
  have h_expect := h.reg .expect _ rfl
  have f_expect := h.free .expect _ rfl
  have h_v2 := h.reg .v2 _ rfl
  have f_v2 := h.free .v2 _ rfl
  have h_newv2 := h.reg .newv2 _ rfl
  have f_newv2 := h.free .newv2 _ rfl
  have h_newv := h.reg .newv _ rfl
  have f_newv := h.free .newv _ rfl
  have f0 := h.freeCpu
  have hp := h.pc
  have hc := h.cpuS rfl
  simp [rregs] at f0 f_v f_expect f_v2 f_newv2 f_newv
  by_cases hfv : fv = cpu
  · subst hfv
    by_cases he : ldw be m v = expect
    · exact OKs.all (k := 14) (by simp [rrun, mips_cbneStoreStore, hp, hc, h_v, h_expect, h_v2, h_newv2, h_newv, f0, f_v, f_expect, f_v2, f_newv2, f_newv, ht, signExtend_inj hn, he] <;> grind)
    · have hn1 := Ne.symm he; exact OKs.all (k := 14) (by simp [rrun, mips_cbneStoreStore, hp, hc, h_v, h_expect, h_v2, h_newv2, h_newv, f0, f_v, f_expect, f_v2, f_newv2, f_newv, ht, signExtend_inj hn, he, hn1] <;> grind)
  · have hne2 := Ne.symm hfv
    exact OKs.all (k := 14) (by simp [rrun, mips_cbneStoreStore, hp, hc, h_v, h_expect, h_v2, h_newv2, h_newv, f0, f_v, f_expect, f_v2, f_newv2, f_newv, ht, signExtend_inj hn, hfv, hne2] <;> grind)

theorem mips_cbneStoreStore_rel_foot (hn : 4 ≤ n) (al : Opnd → Nat) (be : Bool) (csa v expect v2 newv2 newv : W n) (ht : ∀ x, InWord v2 x → ¬ InWord v x) :
    FootOK (mips_cbneStoreStore_rel al be csa) [m4] true al (.cbneStoreStore v expect v2 newv2 newv) := by
  intro cpu fv l m h
  have h_v := h.reg .v _ rfl
  have f_v := h.free .v _ rfl
  have h_expect := h.reg .expect _ rfl
  have f_expect := h.free .expect _ rfl
  have h_v2 := h.reg .v2 _ rfl
  have f_v2 := h.free .v2 _ rfl
  have h_newv2 := h.reg .newv2 _ rfl
  have f_newv2 := h.free .newv2 _ rfl
  have h_newv := h.reg .newv _ rfl
  have f_newv := h.free .newv _ rfl
  have f0 := h.freeCpu
  have hp := h.pc
  have hc := h.cpuS rfl
  simp [rregs] at f0 f_v f_expect f_v2 f_newv2 f_newv
  by_cases hfv : fv = cpu
  · subst hfv
    by_cases he : ldw be m v = expect
    · exact OKs.all (k := 14) (by simp [rrun, mips_cbneStoreStore_rel, hp, hc, h_v, h_expect, h_v2, h_newv2, h_newv, f0, f_v, f_expect, f_v2, f_newv2, f_newv, ht, signExtend_inj hn, he] <;> grind)
    · have hn1 := Ne.symm he; exact OKs.all (k := 14) (by simp [rrun, mips_cbneStoreStore_rel, hp, hc, h_v, h_expect, h_v2, h_newv2, h_newv, f0, f_v, f_expect, f_v2, f_newv2, f_newv, ht, signExtend_inj hn, he, hn1] <;> grind)
  · have hne2 := Ne.symm hfv
    exact OKs.all (k := 14) (by simp [rrun, mips_cbneStoreStore_rel, hp, hc, h_v, h_expect, h_v2, h_newv2, h_newv, f0, f_v, f_expect, f_v2, f_newv2, f_newv, ht, signExtend_inj hn, hfv, hne2] <;> grind)

theorem loongarch_cbneStore_foot (hn : 4 ≤ n) (al : Opnd → Nat) (be : Bool) (csa v expect newv : W n) :
    FootOK (loongarch_cbneStore al be csa) [m4] true al (.cbneStore v expect newv) := by
  intro cpu fv l m h
  have h_v := h.reg .v _ rfl
  have f_v := h.free .v _ rfl
  have h_expect := h.reg .expect _ rfl
  have f_expect := h.free .expect _ rfl
  have h_newv := h.reg .newv _ rfl
  have f_newv := h.free .newv _ rfl
  have f0 := h.freeCpu
  have hp := h.pc
  have hc := h.cpuS rfl
  simp [rregs] at f0 f_v f_expect f_newv
  by_cases hfv : fv = cpu
  · subst hfv
    by_cases he : ldw be m v = expect
    · exact OKs.all (k := 14) (by simp [rrun, loongarch_cbneStore, hp, hc, h_v, h_expect, h_newv, f0, f_v, f_expect, f_newv, signExtend_inj hn, he] <;> grind)
    · have hn1 := Ne.symm he; exact OKs.all (k := 14) (by simp [rrun, loongarch_cbneStore, hp, hc, h_v, h_expect, h_newv, f0, f_v, f_expect, f_newv, signExtend_inj hn, he, hn1] <;> grind)
  · have hne2 := Ne.symm hfv
    exact OKs.all (k := 14) (by simp [rrun, loongarch_cbneStore, hp, hc, h_v, h_expect, h_newv, f0, f_v, f_expect, f_newv, signExtend_inj hn, hfv, hne2] <;> grind)

theorem loongarch_cbeqStoreAddLoadStore_foot (hn : 4 ≤ n) (al : Opnd → Nat) (be : Bool) (csa v expectnot voffp load : W n) (ht : ∀ x, InWord load x → ¬ InWord v x) :
    FootOK (loongarch_cbeqStoreAddLoadStore al be csa) [m4] true al (.cbeqStoreAddLoadStore v expectnot voffp load) := by
  intro cpu fv l m h
  have h_v := h.reg .v _ rfl
  have f_v := h.free .v _ rfl
  have h_expectnot := h.reg .expectnot _ rfl
  have f_expectnot := h.free .expectnot _ rfl
  have h_voffp := h.reg .voffp _ rfl
  have f_voffp := h.free .voffp _ rfl
  have h_load := h.reg .load _ rfl
  have f_load := h.free .load _ rfl
  have f0 := h.freeCpu
  have hp := h.pc
  have hc := h.cpuS rfl
  simp [rregs] at f0 f_v f_expectnot f_voffp f_load
  by_cases hfv : fv = cpu
  · subst hfv
    by_cases he : ldw be m v = expectnot
    · exact OKs.all (k := 14) (by simp [rrun, loongarch_cbeqStoreAddLoadStore, hp, hc, h_v, h_expectnot, h_voffp, h_load, f0, f_v, f_expectnot, f_voffp, f_load, ht, signExtend_inj hn, he] <;> grind)
    · have hn1 := Ne.symm he; exact OKs.all (k := 14) (by simp [rrun, loongarch_cbeqStoreAddLoadStore, hp, hc, h_v, h_expectnot, h_voffp, h_load, f0, f_v, f_expectnot, f_voffp, f_load, ht, signExtend_inj hn, he, hn1, BitVec.add_comm] <;> grind)
  · have hne2 := Ne.symm hfv
    exact OKs.all (k := 14) (by simp [rrun, loongarch_cbeqStoreAddLoadStore, hp, hc, h_v, h_expectnot, h_voffp, h_load, f0, f_v, f_expectnot, f_voffp, f_load, ht, signExtend_inj hn, hfv, hne2] <;> grind)

theorem loongarch_addStore_foot (hn : 4 ≤ n) (al : Opnd → Nat) (be : Bool) (csa v count : W n) :
    FootOK (loongarch_addStore al be csa) [m4] true al (.addStore v count) := by
  intro cpu fv l m h
  have h_v := h.reg .v _ rfl
  have f_v := h.free .v _ rfl
  have h_count := h.reg .count _ rfl
  have f_count := h.free .count _ rfl
  have f0 := h.freeCpu
  have hp := h.pc
  have hc := h.cpuS rfl
  simp [rregs] at f0 f_v f_count
  by_cases hfv : fv = cpu
  · subst hfv
    exact OKs.all (k := 14) (by simp [rrun, loongarch_addStore, hp, hc, h_v, h_count, f0, f_v, f_count, signExtend_inj hn, BitVec.add_comm] <;> grind)
  · have hne2 := Ne.symm hfv
    exact OKs.all (k := 14) (by simp [rrun, loongarch_addStore, hp, hc, h_v, h_count, f0, f_v, f_count, signExtend_inj hn, hfv, hne2] <;> grind)

theorem loongarch_cbneCbneStore_foot (hn : 4 ≤ n) (al : Opnd → Nat) (be : Bool) (csa v expect v2 expect2 newv : W n) :
    FootOK (loongarch_cbneCbneStore al be csa) [m4] true al (.cbneCbneStore v expect v2 expect2 newv) := by
  intro cpu fv l m h
  have h_v := h.reg .v _ rfl
  have f_v := h.free .v _ rfl
  have h_expect := h.reg .expect _ rfl
  have f_expect := h.free .expect _ rfl
  have h_v2 := h.reg .v2 _ rfl
  have f_v2 := h.free .v2 _ rfl
  have h_expect2 := h.reg .expect2 _ rfl
  have f_expect2 := h.free .expect2 _ rfl
  have h_newv := h.reg .newv _ rfl
  have f_newv := h.free .newv _ rfl
  have f0 := h.freeCpu
  have hp := h.pc
  have hc := h.cpuS rfl
  simp [rregs] at f0 f_v f_expect f_v2 f_expect2 f_newv
  by_cases hfv : fv = cpu
  · subst hfv
    by_cases he : ldw be m v = expect
    · by_cases he2 : ldw be m v2 = expect2
      · exact OKs.all (k := 14) (by simp [rrun, loongarch_cbneCbneStore, hp, hc, h_v, h_expect, h_v2, h_expect2, h_newv, f0, f_v, f_expect, f_v2, f_expect2, f_newv, signExtend_inj hn, he, he2] <;> grind)
      · have hn2 := Ne.symm he2; exact OKs.all (k := 14) (by simp [rrun, loongarch_cbneCbneStore, hp, hc, h_v, h_expect, h_v2, h_expect2, h_newv, f0, f_v, f_expect, f_v2, f_expect2, f_newv, signExtend_inj hn, he, he2, hn2] <;> grind)
    · have hn1 := Ne.symm he; exact OKs.all (k := 14) (by simp [rrun, loongarch_cbneCbneStore, hp, hc, h_v, h_expect, h_v2, h_expect2, h_newv, f0, f_v, f_expect, f_v2, f_expect2, f_newv, signExtend_inj hn, he, hn1] <;> grind)
  · have hne2 := Ne.symm hfv
    exact OKs.all (k := 14) (by simp [rrun, loongarch_cbneCbneStore, hp, hc, h_v, h_expect, h_v2, h_expect2, h_newv, f0, f_v, f_expect, f_v2, f_expect2, f_newv, signExtend_inj hn, hfv, hne2] <;> grind)

theorem loongarch_cbneStoreStore_foot (hn : 4 ≤ n) (al : Opnd → Nat) (be : Bool) (csa v expect v2 newv2 newv : W n) (ht : ∀ x, InWord v2 x → ¬ InWord v x) :
    FootOK (loongarch_cbneStoreStore al be csa) [m4] true al (.cbneStoreStore v expect v2 newv2 newv) := by
  intro cpu fv l m h
  have h_v := h.reg .v _ rfl
  have f_v := h.free .v _ rfl
  have h_expect := h.reg .expect _ rfl
  have f_expect := h.free .expect _ rfl
  have h_v2 := h.reg .v2 _ rfl
  have f_v2 := h.free .v2 _ rfl
  have h_newv2 := h.reg .newv2 _ rfl
  have f_newv2 := h.free .newv2 _ rfl
  have h_newv := h.reg .newv _ rfl
  have f_newv := h.free .newv _ rfl
  have f0 := h.freeCpu
  have hp := h.pc
  have hc := h.cpuS rfl
  simp [rregs] at f0 f_v f_expect f_v2 f_newv2 f_newv
  by_cases hfv : fv = cpu
  · subst hfv
    by_cases he : ldw be m v = expect
    · exact OKs.all (k := 14) (by simp [rrun, loongarch_cbneStoreStore, hp, hc, h_v, h_expect, h_v2, h_newv2, h_newv, f0, f_v, f_expect, f_v2, f_newv2, f_newv, ht, signExtend_inj hn, he] <;> grind)
    · have hn1 := Ne.symm he; exact OKs.all (k := 14) (by simp [rrun, loongarch_cbneStoreStore, hp, hc, h_v, h_expect, h_v2, h_newv2, h_newv, f0, f_v, f_expect, f_v2, f_newv2, f_newv, ht, signExtend_inj hn, he, hn1] <;> grind)
  · have hne2 := Ne.symm hfv
    exact OKs.all (k := 14) (by simp [rrun, loongarch_cbneStoreStore, hp, hc, h_v, h_expect, h_v2, h_newv2, h_newv, f0, f_v, f_expect, f_v2, f_newv2, f_newv, ht, signExtend_inj hn, hfv, hne2] <;> grind)

theorem loongarch_cbneStoreStore_rel_foot (hn : 4 ≤ n) (al : Opnd → Nat) (be : Bool) (csa v expect v2 newv2 newv : W n) (ht : ∀ x, InWord v2 x → ¬ InWord v x) :
    FootOK (loongarch_cbneStoreStore_rel al be csa) [m4] true al (.cbneStoreStore v expect v2 newv2 newv) := by
  intro cpu fv l m h
  have h_v := h.reg .v _ rfl
  have f_v := h.free .v _ rfl
  have h_expect := h.reg .expect _ rfl
  have f_expect := h.free .expect _ rfl
  have h_v2 := h.reg .v2 _ rfl
  have f_v2 := h.free .v2 _ rfl
  have h_newv2 := h.reg .newv2 _ rfl
  have f_newv2 := h.free .newv2 _ rfl
  have h_newv := h.reg .newv _ rfl
  have f_newv := h.free .newv _ rfl
  have f0 := h.freeCpu
  have hp := h.pc
  have hc := h.cpuS rfl
  simp [rregs] at f0 f_v f_expect f_v2 f_newv2 f_newv
  by_cases hfv : fv = cpu
  · subst hfv
    by_cases he : ldw be m v = expect
    · exact OKs.all (k := 14) (by simp [rrun, loongarch_cbneStoreStore_rel, hp, hc, h_v, h_expect, h_v2, h_newv2, h_newv, f0, f_v, f_expect, f_v2, f_newv2, f_newv, ht, signExtend_inj hn, he] <;> grind)
    · have hn1 := Ne.symm he; exact OKs.all (k := 14) (by simp [rrun, loongarch_cbneStoreStore_rel, hp, hc, h_v, h_expect, h_v2, h_newv2, h_newv, f0, f_v, f_expect, f_v2, f_newv2, f_newv, ht, signExtend_inj hn, he, hn1] <;> grind)
  · have hne2 := Ne.symm hfv
    exact OKs.all (k := 14) (by simp [rrun, loongarch_cbneStoreStore_rel, hp, hc, h_v, h_expect, h_v2, h_newv2, h_newv, f0, f_v, f_expect, f_v2, f_newv2, f_newv, ht, signExtend_inj hn, hfv, hne2] <;> grind)

theorem arm_cbneStore_foot (hn : 4 ≤ n) (al : Opnd → Nat) (be : Bool) (csa v expect newv : W n) :
    FootOK (arm_cbneStore al be csa) [a0] false al (.cbneStore v expect newv) := by
  intro cpu fv l m h
  have h_v := h.reg .v _ rfl
  have f_v := h.free .v _ rfl
  have h_expect := h.reg .expect _ rfl
  have f_expect := h.free .expect _ rfl
  have h_newv := h.reg .newv _ rfl
  have f_newv := h.free .newv _ rfl
  have f0 := h.freeCpu
  have hp := h.pc
  have hc := h.cpuV
  simp [rregs] at f0 f_v f_expect f_newv
  by_cases hfv : fv = cpu
  · subst hfv
    by_cases he : ldw be m v = expect
    · exact OKs.all (k := 14) (by simp [rrun, arm_cbneStore, hp, hc, h_v, h_expect, h_newv, f0, f_v, f_expect, f_newv, setWidth32_setWidth hn, he] <;> grind)
    · have hn1 := Ne.symm he; exact OKs.all (k := 14) (by simp [rrun, arm_cbneStore, hp, hc, h_v, h_expect, h_newv, f0, f_v, f_expect, f_newv, setWidth32_setWidth hn, he, hn1] <;> grind)
  · have hne2 := Ne.symm hfv
    exact OKs.all (k := 14) (by simp [rrun, arm_cbneStore, hp, hc, h_v, h_expect, h_newv, f0, f_v, f_expect, f_newv, setWidth32_setWidth hn, hfv, hne2] <;> grind)

theorem arm_cbeqStoreAddLoadStore_foot (hn : 4 ≤ n) (al : Opnd → Nat) (be : Bool) (csa v expectnot voffp load : W n) (ht : ∀ x, InWord load x → ¬ InWord v x) :
    FootOK (arm_cbeqStoreAddLoadStore al be csa) [a0] false al (.cbeqStoreAddLoadStore v expectnot voffp load) := by
  intro cpu fv l m h
  have h_v := h.reg .v _ rfl
  have f_v := h.free .v _ rfl
  have h_expectnot := h.reg .expectnot _ rfl
  have f_expectnot := h.free .expectnot _ rfl
  have h_voffp := h.reg .voffp _ rfl
  have f_voffp := h.free .voffp _ rfl
  have h_load := h.reg .load _ rfl
  have f_load := h.free .load _ rfl
  have f0 := h.freeCpu
  have hp := h.pc
  have hc := h.cpuV
  simp [rregs] at f0 f_v f_expectnot f_voffp f_load
  by_cases hfv : fv = cpu
  · subst hfv
    by_cases he : ldw be m v = expectnot
    · exact OKs.all (k := 14) (by simp [rrun, arm_cbeqStoreAddLoadStore, hp, hc, h_v, h_expectnot, h_voffp, h_load, f0, f_v, f_expectnot, f_voffp, f_load, ht, setWidth32_setWidth hn, he] <;> grind)
    · have hn1 := Ne.symm he; exact OKs.all (k := 14) (by simp [rrun, arm_cbeqStoreAddLoadStore, hp, hc, h_v, h_expectnot, h_voffp, h_load, f0, f_v, f_expectnot, f_voffp, f_load, ht, setWidth32_setWidth hn, he, hn1, BitVec.add_comm] <;> grind)
  · have hne2 := Ne.symm hfv
    exact OKs.all (k := 14) (by simp [rrun, arm_cbeqStoreAddLoadStore, hp, hc, h_v, h_expectnot, h_voffp, h_load, f0, f_v, f_expectnot, f_voffp, f_load, ht, setWidth32_setWidth hn, hfv, hne2] <;> grind)

theorem arm_addStore_foot (hn : 4 ≤ n) (al : Opnd → Nat) (be : Bool) (csa v count : W n) :
    FootOK (arm_addStore al be csa) [a0] false al (.addStore v count) := by
  intro cpu fv l m h
  have h_v := h.reg .v _ rfl
  have f_v := h.free .v _ rfl
  have h_count := h.reg .count _ rfl
  have f_count := h.free .count _ rfl
  have f0 := h.freeCpu
  have hp := h.pc
  have hc := h.cpuV
  simp [rregs] at f0 f_v f_count
  by_cases hfv : fv = cpu
  · subst hfv
    exact OKs.all (k := 14) (by simp [rrun, arm_addStore, hp, hc, h_v, h_count, f0, f_v, f_count, setWidth32_setWidth hn, BitVec.add_comm] <;> grind)
  · have hne2 := Ne.symm hfv
    exact OKs.all (k := 14) (by simp [rrun, arm_addStore, hp, hc, h_v, h_count, f0, f_v, f_count, setWidth32_setWidth hn, hfv, hne2] <;> grind)

theorem arm_cbneCbneStore_foot (hn : 4 ≤ n) (al : Opnd → Nat) (be : Bool) (csa v expect v2 expect2 newv : W n) :
    FootOK (arm_cbneCbneStore al be csa) [a0] false al (.cbneCbneStore v expect v2 expect2 newv) := by
  intro cpu fv l m h
  have h_v := h.reg .v _ rfl
  have f_v := h.free .v _ rfl
  have h_expect := h.reg .expect _ rfl
  have f_expect := h.free .expect _ rfl
  have h_v2 := h.reg .v2 _ rfl
  have f_v2 := h.free .v2 _ rfl
  have h_expect2 := h.reg .expect2 _ rfl
  have f_expect2 := h.free .expect2 _ rfl
  have h_newv := h.reg .newv _ rfl
  have f_newv := h.free .newv _ rfl
  have f0 := h.freeCpu
  have hp := h.pc
  have hc := h.cpuV
  simp [rregs] at f0 f_v f_expect f_v2 f_expect2 f_newv
  by_cases hfv : fv = cpu
  · subst hfv
    by_cases he : ldw be m v = expect
    · by_cases he2 : ldw be m v2 = expect2
      · exact OKs.all (k := 14) (by simp [rrun, arm_cbneCbneStore, hp, hc, h_v, h_expect, h_v2, h_expect2, h_newv, f0, f_v, f_expect, f_v2, f_expect2, f_newv, setWidth32_setWidth hn, he, he2] <;> grind)
      · have hn2 := Ne.symm he2; exact OKs.all (k := 14) (by simp [rrun, arm_cbneCbneStore, hp, hc, h_v, h_expect, h_v2, h_expect2, h_newv, f0, f_v, f_expect, f_v2, f_expect2, f_newv, setWidth32_setWidth hn, he, he2, hn2] <;> grind)
    · have hn1 := Ne.symm he; exact OKs.all (k := 14) (by simp [rrun, arm_cbneCbneStore, hp, hc, h_v, h_expect, h_v2, h_expect2, h_newv, f0, f_v, f_expect, f_v2, f_expect2, f_newv, setWidth32_setWidth hn, he, hn1] <;> grind)
  · have hne2 := Ne.symm hfv
    exact OKs.all (k := 14) (by simp [rrun, arm_cbneCbneStore, hp, hc, h_v, h_expect, h_v2, h_expect2, h_newv, f0, f_v, f_expect, f_v2, f_expect2, f_newv, setWidth32_setWidth hn, hfv, hne2] <;> grind)

theorem arm_cbneStoreStore_foot (hn : 4 ≤ n) (al : Opnd → Nat) (be : Bool) (csa v expect v2 newv2 newv : W n) (ht : ∀ x, InWord v2 x → ¬ InWord v x) :
    FootOK (arm_cbneStoreStore al be csa) [a0] false al (.cbneStoreStore v expect v2 newv2 newv) := by
  intro cpu fv l m h
  have h_v := h.reg .v _ rfl
  have f_v := h.free .v _ rfl
  have h_expect := h.reg .expect _ rfl
  have f_expect := h.free .expect _ rfl
  have h_v2 := h.reg .v2 _ rfl
  have f_v2 := h.free .v2 _ rfl
  have h_newv2 := h.reg .newv2 _ rfl
  have f_newv2 := h.free .newv2 _ rfl
  have h_newv := h.reg .newv _ rfl
  have f_newv := h.free .newv _ rfl
  have f0 := h.freeCpu
  have hp := h.pc
  have hc := h.cpuV
  simp [rregs] at f0 f_v f_expect f_v2 f_newv2 f_newv
  by_cases hfv : fv = cpu
  · subst hfv
    by_cases he : ldw be m v = expect
    · exact OKs.all (k := 14) (by simp [rrun, arm_cbneStoreStore, hp, hc, h_v, h_expect, h_v2, h_newv2, h_newv, f0, f_v, f_expect, f_v2, f_newv2, f_newv, ht, setWidth32_setWidth hn, he] <;> grind)
    · have hn1 := Ne.symm he; exact OKs.all (k := 14) (by simp [rrun, arm_cbneStoreStore, hp, hc, h_v, h_expect, h_v2, h_newv2, h_newv, f0, f_v, f_expect, f_v2, f_newv2, f_newv, ht, setWidth32_setWidth hn, he, hn1] <;> grind)
  · have hne2 := Ne.symm hfv
    exact OKs.all (k := 14) (by simp [rrun, arm_cbneStoreStore, hp, hc, h_v, h_expect, h_v2, h_newv2, h_newv, f0, f_v, f_expect, f_v2, f_newv2, f_newv, ht, setWidth32_setWidth hn, hfv, hne2] <;> grind)

theorem arm_cbneStoreStore_rel_foot (hn : 4 ≤ n) (al : Opnd → Nat) (be : Bool) (csa v expect v2 newv2 newv : W n) (ht : ∀ x, InWord v2 x → ¬ InWord v x) :
    FootOK (arm_cbneStoreStore_rel al be csa) [a0] false al (.cbneStoreStore v expect v2 newv2 newv) := by
  intro cpu fv l m h
  have h_v := h.reg .v _ rfl
  have f_v := h.free .v _ rfl
  have h_expect := h.reg .expect _ rfl
  have f_expect := h.free .expect _ rfl
  have h_v2 := h.reg .v2 _ rfl
  have f_v2 := h.free .v2 _ rfl
  have h_newv2 := h.reg .newv2 _ rfl
  have f_newv2 := h.free .newv2 _ rfl
  have h_newv := h.reg .newv _ rfl
  have f_newv := h.free .newv _ rfl
  have f0 := h.freeCpu
  have hp := h.pc
  have hc := h.cpuV
  simp [rregs] at f0 f_v f_expect f_v2 f_newv2 f_newv
  by_cases hfv : fv = cpu
  · subst hfv
    by_cases he : ldw be m v = expect
    · exact OKs.all (k := 14) (by simp [rrun, arm_cbneStoreStore_rel, hp, hc, h_v, h_expect, h_v2, h_newv2, h_newv, f0, f_v, f_expect, f_v2, f_newv2, f_newv, ht, setWidth32_setWidth hn, he] <;> grind)
    · have hn1 := Ne.symm he; exact OKs.all (k := 14) (by simp [rrun, arm_cbneStoreStore_rel, hp, hc, h_v, h_expect, h_v2, h_newv2, h_newv, f0, f_v, f_expect, f_v2, f_newv2, f_newv, ht, setWidth32_setWidth hn, he, hn1] <;> grind)
  · have hne2 := Ne.symm hfv
    exact OKs.all (k := 14) (by simp [rrun, arm_cbneStoreStore_rel, hp, hc, h_v, h_expect, h_v2, h_newv2, h_newv, f0, f_v, f_expect, f_v2, f_newv2, f_newv, ht, setWidth32_setWidth hn, hfv, hne2] <;> grind)

end Verif.Rseq

