import Verif.RseqFootStraight
import Verif.RseqFootCopy
/-
Every helper program of every architecture touches only the addresses its pseudo-code mentions.
-/

namespace Verif.Rseq

variable {n : Nat}

/-- Every step of every replay of every helper touches only the addresses the pseudo-code mentions, and
before the commit it writes only attempt targets, each at most once and never something it has read. -/
theorem program_foot (hn : 4 ≤ n) (arch : Arch) (rel be : Bool) (al : Opnd → Nat)
    (csa : W n) (op : Op n) (p : Prog n) (hp : program al be csa arch op.kind rel = some p)
    (hok : CallOK arch al op) (ht : Tidy op) :
    FootOK p (clobbers arch op.kind) (signExt arch) al op := by
  cases op with
  | cbneStore v expect newv =>
    cases arch <;> cases rel <;> simp only [program, Op.kind, Option.some.injEq, reduceCtorEq] at hp <;>
      subst hp
    · exact x86_64_cbneStore_foot hn al be csa v expect newv
    · exact i386_cbneStore_foot hn al be csa v expect newv
    · exact aarch64_cbneStore_foot hn al be csa v expect newv
    · exact riscv_cbneStore_foot hn al be csa v expect newv
    · exact ppc_cbneStore_foot hn al be csa v expect newv
    · exact s390_cbneStore_foot hn al be csa v expect newv
    · exact mips_cbneStore_foot hn al be csa v expect newv
    · exact loongarch_cbneStore_foot hn al be csa v expect newv
    · exact arm_cbneStore_foot hn al be csa v expect newv
  | cbeqStoreAddLoadStore v expectnot voffp load =>
    cases arch <;> cases rel <;> simp only [program, Op.kind, Option.some.injEq, reduceCtorEq] at hp <;>
      subst hp
    · exact x86_64_cbeqStoreAddLoadStore_foot hn al be csa v expectnot voffp load ht
    · exact i386_cbeqStoreAddLoadStore_foot hn al be csa v expectnot voffp load ht
    · exact aarch64_cbeqStoreAddLoadStore_foot hn al be csa v expectnot voffp load ht
    · exact riscv_cbeqStoreAddLoadStore_foot hn al be csa v expectnot voffp load ht
    · exact ppc_cbeqStoreAddLoadStore_foot hn al be csa v expectnot voffp load ht
    · exact s390_cbeqStoreAddLoadStore_foot hn al be csa v expectnot voffp load ht
    · exact mips_cbeqStoreAddLoadStore_foot hn al be csa v expectnot voffp load ht
    · exact loongarch_cbeqStoreAddLoadStore_foot hn al be csa v expectnot voffp load ht
    · exact arm_cbeqStoreAddLoadStore_foot hn al be csa v expectnot voffp load ht
  | addStore v count =>
    cases arch <;> cases rel <;> simp only [program, Op.kind, Option.some.injEq, reduceCtorEq] at hp <;>
      subst hp
    · exact x86_64_addStore_foot hn al be csa v count
    · exact i386_addStore_foot hn al be csa v count
    · exact aarch64_addStore_foot hn al be csa v count
    · exact riscv_addStore_foot hn al be csa v count
    · exact ppc_addStore_foot hn al be csa v count
    · exact s390_addStore_foot hn al be csa v count
    · exact mips_addStore_foot hn al be csa v count
    · exact loongarch_addStore_foot hn al be csa v count
    · exact arm_addStore_foot hn al be csa v count
  | addLoadLoadAddStore ptr off inc =>
    cases arch <;> cases rel <;> simp only [program, Op.kind, Option.some.injEq, reduceCtorEq] at hp <;>
      subst hp
    · exact x86_64_addLoadLoadAddStore_foot hn al be csa ptr off inc
  | cbneCbneStore v expect v2 expect2 newv =>
    cases arch <;> cases rel <;> simp only [program, Op.kind, Option.some.injEq, reduceCtorEq] at hp <;>
      subst hp
    · exact x86_64_cbneCbneStore_foot hn al be csa v expect v2 expect2 newv
    · exact i386_cbneCbneStore_foot hn al be csa v expect v2 expect2 newv
    · exact aarch64_cbneCbneStore_foot hn al be csa v expect v2 expect2 newv
    · exact riscv_cbneCbneStore_foot hn al be csa v expect v2 expect2 newv
    · exact ppc_cbneCbneStore_foot hn al be csa v expect v2 expect2 newv
    · exact s390_cbneCbneStore_foot hn al be csa v expect v2 expect2 newv
    · exact mips_cbneCbneStore_foot hn al be csa v expect v2 expect2 newv
    · exact loongarch_cbneCbneStore_foot hn al be csa v expect v2 expect2 newv
    · exact arm_cbneCbneStore_foot hn al be csa v expect v2 expect2 newv
  | cbneStoreStore v expect v2 newv2 newv =>
    cases arch <;> cases rel <;> simp only [program, Op.kind, Option.some.injEq] at hp <;>
      subst hp
    · exact x86_64_cbneStoreStore_foot hn al be csa v expect v2 newv2 newv ht
    · exact x86_64_cbneStoreStore_foot hn al be csa v expect v2 newv2 newv ht
    · exact i386_cbneStoreStore_foot hn al be csa v expect v2 newv2 newv ht
    · exact i386_cbneStoreStore_rel_foot hn al be csa v expect v2 newv2 newv ht
    · exact aarch64_cbneStoreStore_foot hn al be csa v expect v2 newv2 newv ht
    · exact aarch64_cbneStoreStore_rel_foot hn al be csa v expect v2 newv2 newv ht
    · exact riscv_cbneStoreStore_foot hn al be csa v expect v2 newv2 newv ht
    · exact riscv_cbneStoreStore_rel_foot hn al be csa v expect v2 newv2 newv ht
    · exact ppc_cbneStoreStore_foot hn al be csa v expect v2 newv2 newv ht
    · exact ppc_cbneStoreStore_rel_foot hn al be csa v expect v2 newv2 newv ht
    · exact s390_cbneStoreStore_foot hn al be csa v expect v2 newv2 newv ht
    · exact s390_cbneStoreStore_foot hn al be csa v expect v2 newv2 newv ht
    · exact mips_cbneStoreStore_foot hn al be csa v expect v2 newv2 newv ht
    · exact mips_cbneStoreStore_rel_foot hn al be csa v expect v2 newv2 newv ht
    · exact loongarch_cbneStoreStore_foot hn al be csa v expect v2 newv2 newv ht
    · exact loongarch_cbneStoreStore_rel_foot hn al be csa v expect v2 newv2 newv ht
    · exact arm_cbneStoreStore_foot hn al be csa v expect v2 newv2 newv ht
    · exact arm_cbneStoreStore_rel_foot hn al be csa v expect v2 newv2 newv ht
  | cbneMemcpyStore v expect dst src len newv =>
    obtain ⟨hno, ho⟩ := hok
    cases arch <;> cases rel <;> simp only [program, Op.kind, Option.some.injEq] at hp <;>
      subst hp
    · exact x86_64_cbneMemcpyStore_foot hn al be csa v expect dst src len newv ht hno (ho rfl)
    · exact x86_64_cbneMemcpyStore_foot hn al be csa v expect dst src len newv ht hno (ho rfl)
    · exact i386_cbneMemcpyStore_foot hn al be csa v expect dst src len newv ht hno
    · exact i386_cbneMemcpyStore_rel_foot hn al be csa v expect dst src len newv ht hno
    · exact aarch64_cbneMemcpyStore_foot hn al be csa v expect dst src len newv ht hno
    · exact aarch64_cbneMemcpyStore_rel_foot hn al be csa v expect dst src len newv ht hno
    · exact riscv_cbneMemcpyStore_foot hn al be csa v expect dst src len newv ht hno
    · exact riscv_cbneMemcpyStore_rel_foot hn al be csa v expect dst src len newv ht hno
    · exact ppc_cbneMemcpyStore_foot hn al be csa v expect dst src len newv ht hno
    · exact ppc_cbneMemcpyStore_rel_foot hn al be csa v expect dst src len newv ht hno
    · exact s390_cbneMemcpyStore_foot hn al be csa v expect dst src len newv ht hno (ho rfl)
    · exact s390_cbneMemcpyStore_foot hn al be csa v expect dst src len newv ht hno (ho rfl)
    · exact mips_cbneMemcpyStore_foot hn al be csa v expect dst src len newv ht hno (ho rfl)
    · exact mips_cbneMemcpyStore_rel_foot hn al be csa v expect dst src len newv ht hno (ho rfl)
    · exact loongarch_cbneMemcpyStore_foot hn al be csa v expect dst src len newv ht hno (ho rfl)
    · exact loongarch_cbneMemcpyStore_rel_foot hn al be csa v expect dst src len newv ht hno (ho rfl)
    · exact arm_cbneMemcpyStore_foot hn al be csa v expect dst src len newv ht hno
    · exact arm_cbneMemcpyStore_rel_foot hn al be csa v expect dst src len newv ht hno

end Verif.Rseq
