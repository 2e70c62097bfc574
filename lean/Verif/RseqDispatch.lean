import Verif.RseqConc
/-
The functions applications call, include/rseq/rseq.h:239-391: they choose the implementation by memory
order and indexing mode.  Both arguments are C enums; any 32-bit value may be passed.
The chosen function is `<helper>_<relaxed|release>_<cpu_id|mm_cid>`, an instance of the template
(include/rseq/arch/*.h, `RSEQ_TEMPLATE_IDENTIFIER`): the program with `rel` and the field to compare.
-/

namespace Verif.Rseq

variable {n : Nat}

/-- A template instance: release variant or not, and the field compared with `cpu`. -/
structure Inst where
  rel : Bool
  fld : Fld
  deriving DecidableEq, Repr

/-- `enum rseq_mo` values, rseq.h:28-35. -/
def moRelaxed : BitVec 32 := 0#32
def moConsume : BitVec 32 := 1#32
def moAcquire : BitVec 32 := 2#32
def moRelease : BitVec 32 := 3#32
def moAcqRel : BitVec 32 := 4#32
def moSeqCst : BitVec 32 := 5#32

/-- `enum rseq_percpu_mode` values, rseq.h:37-40. -/
def modeCpuId : BitVec 32 := 0#32
def modeMmCid : BitVec 32 := 1#32

/-- `switch (percpu_mode)`; `none` is `return -1`. -/
def switchMode (rel : Bool) (mode : BitVec 32) : Option Inst :=
  if mode = modeCpuId then some ⟨rel, .cpuId⟩
  else if mode = modeMmCid then some ⟨rel, .mmCid⟩
  else none

/-- `rseq_load_cbne_store__ptr`, rseq.h:240-254. -/
def dispCbneStore (mo mode : BitVec 32) : Option Inst :=
  if mo ≠ moRelaxed then none else switchMode false mode

/-- `rseq_load_cbeq_store_add_load_store__ptr`, rseq.h:257-271. -/
def dispCbeqStoreAddLoadStore (mo mode : BitVec 32) : Option Inst :=
  if mo ≠ moRelaxed then none else switchMode false mode

/-- `rseq_load_add_store__ptr`, rseq.h:274-287. -/
def dispAddStore (mo mode : BitVec 32) : Option Inst :=
  if mo ≠ moRelaxed then none else switchMode false mode

/-- `rseq_load_add_load_load_add_store__ptr`, rseq.h:290-305. -/
def dispAddLoadLoadAddStore (mo mode : BitVec 32) : Option Inst :=
  if mo ≠ moRelaxed then none else switchMode false mode

/-- `rseq_load_cbne_store_store__ptr`, rseq.h:308-339. -/
def dispCbneStoreStore (mo mode : BitVec 32) : Option Inst :=
  if mo = moRelaxed then switchMode false mode
  else if mo = moRelease then switchMode true mode
  else if mo = moAcquire ∨ mo = moAcqRel ∨ mo = moConsume ∨ mo = moSeqCst then none
  else none

/-- `rseq_load_cbne_load_cbne_store__ptr`, rseq.h:342-357. -/
def dispCbneCbneStore (mo mode : BitVec 32) : Option Inst :=
  if mo ≠ moRelaxed then none else switchMode false mode

/-- `rseq_load_cbne_memcpy_store__ptr`, rseq.h:360-391. -/
def dispCbneMemcpyStore (mo mode : BitVec 32) : Option Inst :=
  if mo = moRelaxed then switchMode false mode
  else if mo = moRelease then switchMode true mode
  else if mo = moAcquire ∨ mo = moAcqRel ∨ mo = moConsume ∨ mo = moSeqCst then none
  else none

def dispatch : Kind → BitVec 32 → BitVec 32 → Option Inst
  | .cbneStore => dispCbneStore
  | .cbeqStoreAddLoadStore => dispCbeqStoreAddLoadStore
  | .addStore => dispAddStore
  | .addLoadLoadAddStore => dispAddLoadLoadAddStore
  | .cbneCbneStore => dispCbneCbneStore
  | .cbneStoreStore => dispCbneStoreStore
  | .cbneMemcpyStore => dispCbneMemcpyStore

/-- An uninterrupted execution of the public helper by thread `x`: it starts with memory `m` and ends with
value `r` and memory `m'`.  Refused: no instruction is executed. -/
inductive Helper (arch : Arch) (be : Bool) (al : Opnd → Nat) (csa : W n) (x : Thread n)
    (mo mode : BitVec 32) (op : Op n) (l : LSt n) (m : Mem n) : Int → Mem n → Prop
  | refused (h : dispatch op.kind mo mode = none) : Helper arch be al csa x mo mode op l m (-1) m
  | ran {r : Int} {m' : Mem n} (i : Inst) (p : Prog n) (h : dispatch op.kind mo mode = some i)
      (hp : program al be csa arch op.kind i.rel = some p)
      (hr : Returns p (x.fv i.fld) (clobbers arch op.kind) l m r m') :
      Helper arch be al csa x mo mode op l m r m'

end Verif.Rseq
