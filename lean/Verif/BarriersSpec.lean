import Verif.Barriers
/-
What the C code may rely on: release/acquire ordering, in terms of C operations only.
Nothing here mentions an architecture.
-/

namespace Verif.Barrier

open Relation (TransGen ReflTransGen)

/-- The operation of an event. -/
def Exec.op (X : Exec) (e : Ev) : Option Op := (X.ops e.t)[e.k]?

/-- `e` is a load of `v` from `x`. -/
def IsR (X : Exec) (e : Ev) (x : Nat) (v : Int) : Prop :=
  X.op e = some (.load x v) ∨ X.op e = some (.loadAcquire x v)

/-- `e` is a store of `v` to `x`. -/
def IsW (X : Exec) (e : Ev) (x : Nat) (v : Int) : Prop :=
  X.op e = some (.store x v) ∨ X.op e = some (.storeRelease x v)

/-- `e` is a load or store. -/
def Access (X : Exec) (e : Ev) : Prop := ∃ x v, IsR X e x v ∨ IsW X e x v

/-- Earlier in the same thread. -/
def Po (X : Exec) (e1 e2 : Ev) : Prop := Access X e1 ∧ Access X e2 ∧ e1.t = e2.t ∧ e1.k < e2.k

/-- `e` is a store-release. -/
def Release (X : Exec) (e : Ev) : Prop := ∃ x v, X.op e = some (.storeRelease x v)

/-- `e` comes after an acquire that starts with load `l`: `l` is a load-acquire, or `l` is a load whose
value was tested by a branch, followed by `rseq_smp_acquire__after_ctrl_dep`. -/
def Acquired (X : Exec) (l e : Ev) : Prop :=
  (∃ x v, X.op l = some (.loadAcquire x v)) ∧ Po X l e ∨
  (∃ x v, IsR X l x v) ∧ Po X l e ∧ ∃ kb ka, l.k < kb ∧ kb < ka ∧ ka < e.k ∧
    X.op ⟨l.t, kb⟩ = some (.branch l.k) ∧ X.op ⟨l.t, ka⟩ = some .acqCtrl

/-- One hand-over: a store-release at or after `e1` is read by a load whose acquire is before `e2`. -/
def Handover (X : Exec) (e1 e2 : Ev) : Prop :=
  ∃ s l, (e1 = s ∨ Po X e1 s) ∧ Release X s ∧ X.rf s l ∧ Acquired X l e2

/-- Happens before: program order and hand-overs. -/
def HB (X : Exec) : Ev → Ev → Prop := TransGen fun e1 e2 => Po X e1 e2 ∨ Handover X e1 e2

/-- `r` read an older value than `w` stored. -/
def Older (X : Exec) (r w : Ev) : Prop :=
  ∃ x v v', IsR X r x v ∧ IsW X w x v' ∧ ∀ w0, X.rf w0 r → X.co w0 w

/-- `e1` takes effect on memory before `e2`: `e2` read what `e1` stored, or overwrote it, or
overwrote what `e1` read, or a chain of these. -/
def Eff (X : Exec) : Ev → Ev → Prop := TransGen fun e1 e2 => X.rf e1 e2 ∨ X.co e1 e2 ∨ Older X e1 e2

/-- Operation `o` between two accesses of one thread. -/
def Sep (X : Exec) (o : Op) (e1 e2 : Ev) : Prop :=
  Po X e1 e2 ∧ ∃ k, e1.k < k ∧ k < e2.k ∧ X.op ⟨e1.t, k⟩ = some o

/-- A lock section: `rseq_this_cpu_lock` (basic_percpu_ops_test.c:82-103) finds the lock word 0 and
stores 1; `rseq_percpu_unlock` (basic_percpu_ops_test.c:105-112) stores 0, if it was reached. -/
structure Sect where
  t : Nat
  /-- load of the lock word, branch, store of 1, acquire -/
  kl : Nat
  kb : Nat
  ks : Nat
  ka : Nat
  /-- store-release of 0 -/
  kr : Option Nat

def Sect.ld (c : Sect) : Ev := ⟨c.t, c.kl⟩
def Sect.st (c : Sect) : Ev := ⟨c.t, c.ks⟩

/-- The section is in the run, for lock word `x`. -/
structure Sect.In (c : Sect) (X : Exec) (x : Nat) : Prop where
  lt1 : c.kl < c.kb
  lt2 : c.kb < c.ks
  lt3 : c.ks < c.ka
  load : X.op c.ld = some (.load x 0)
  branch : X.op ⟨c.t, c.kb⟩ = some (.branch c.kl)
  store : X.op c.st = some (.store x 1)
  acq : X.op ⟨c.t, c.ka⟩ = some .acqCtrl
  rel : ∀ k, c.kr = some k → c.ka < k ∧ X.op ⟨c.t, k⟩ = some (.storeRelease x 0)

/-- Section `c` is released, and everything up to its release happens before everything after the acquire of `d`. -/
def Precedes (X : Exec) (c d : Sect) : Prop :=
  ∃ k, c.kr = some k ∧ ∀ e e', Access X e → e.t = c.t → e.k ≤ k → Access X e' → e'.t = d.t → d.ka < e'.k →
    HB X e e'

/-- `C` are all the sections of lock word `x`. -/
structure Sections {ι : Type} (X : Exec) (x : Nat) (C : ι → Sect) : Prop where
  isIn : ∀ i, (C i).In X x
  /-- the lock word is stored to only by lock and unlock -/
  only : ∀ w v, IsW X w x v → ∃ i, w = (C i).st ∨ ∃ k, (C i).kr = some k ∧ w = ⟨(C i).t, k⟩
  /-- different sections have different stores and releases -/
  st_inj : ∀ i j, (C i).st = (C j).st → i = j
  kr_inj : ∀ i j k, (C i).t = (C j).t → (C i).kr = some k → (C j).kr = some k → i = j
  /-- The helpers that take the lock all run on the CPU of the lock word, each as one step for the
  others: between the store that a lock's load read and the lock's own store there is no other
  lock's store (C32, C36, C40). -/
  serial : ∀ i j, (∀ w, X.rf w (C j).ld → X.co w (C i).st) → ¬ X.co (C i).st (C j).st

/-- Each section increments counter `c` once (`data->c[cpu].count++`, basic_percpu_ops_test.c:125) and is
then released; nothing else stores to the counter. Section `i` loads `v i` with operation `cl i` and
stores `v i + 1` with operation `cs i`. -/
structure Counting {ι : Type} (X : Exec) (c : Nat) (C : ι → Sect) (cl cs : ι → Nat) (v : ι → Int) : Prop where
  order : ∀ i, (C i).ka < cl i ∧ cl i < cs i
  load : ∀ i, X.op ⟨(C i).t, cl i⟩ = some (.load c (v i))
  store : ∀ i, X.op ⟨(C i).t, cs i⟩ = some (.store c (v i + 1))
  rel : ∀ i, ∃ k, (C i).kr = some k ∧ cs i < k
  only : ∀ w u, IsW X w c u → ∃ i, w = ⟨(C i).t, cs i⟩

/-- `v` is the value of location `c` after the run. -/
def Final (X : Exec) (c : Nat) (v : Int) : Prop :=
  (∃ w, IsW X w c v ∧ ∀ w' v', IsW X w' c v' → w' = w ∨ X.co w' w) ∨
  (∀ w v', ¬ IsW X w c v') ∧ v = X.init c

/-- The values of the run fit `rf`, `co` and the initial memory. -/
structure Fits (X : Exec) : Prop where
  rf_val : ∀ w r, X.rf w r → ∃ x v, IsW X w x v ∧ IsR X r x v
  rf_one : ∀ w w' r, X.rf w r → X.rf w' r → w = w'
  rf_init : ∀ r x v, IsR X r x v → (∀ w, ¬ X.rf w r) → v = X.init x
  co_loc : ∀ w w', X.co w w' → ∃ x v v', IsW X w x v ∧ IsW X w' x v'
  co_irrefl : ∀ w, ¬ X.co w w
  co_trans : ∀ w w' w'', X.co w w' → X.co w' w'' → X.co w w''
  co_total : ∀ w w' x v v', IsW X w x v → IsW X w' x v' → w ≠ w' → X.co w w' ∨ X.co w' w

/-- The run executes one access after the other, at the given times. -/
structure Interleaved (X : Exec) (time : Ev → Nat) : Prop where
  fits : Fits X
  po : ∀ e1 e2, Po X e1 e2 → time e1 < time e2
  rf : ∀ w r, X.rf w r → time w < time r
  co : ∀ w w', X.co w w' → time w < time w'
  old : ∀ r w, Older X r w → time r < time w

end Verif.Barrier
