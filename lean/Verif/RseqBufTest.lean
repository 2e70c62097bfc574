import Verif.RseqBufProps
/-
The buffer tests of tests/param_test.c: what their threads do with the items (`test_percpu_buffer_thread` :980-1009,
`test_percpu_memcpy_buffer_thread` :1223-1253), and the loops with which the main thread empties the buffers at the
end (:1097-1107 with `__percpu_buffer_pop` :964-978; :1338-1348 with `__percpu_memcpy_buffer_pop` :1207-1221).
Simplifications: `sched_yield`, the number of repetitions and `free` are left out (a thread may do any number of
repetitions); that the memcpy test passes `item` by value (:1240) is the condition that the bytes at the source of a
push are those of the item the thread has.
-/

namespace Verif.Rseq

variable {n : Nat}

/-! ### The threads -/

/-- The item each thread has: popped and not pushed again. -/
abbrev Hold := Nat → Option (List Byte)

/-- The call is one of the two pushes. -/
def isPush (f : Frame n) : Bool :=
  match f.op with
  | .cbneStoreStore .. => true
  | .cbneMemcpyStore _ e _ _ _ w => decide (w = e + 1#_)
  | _ => false

/-- A call by one of the `N` threads of the test, outside of signal handlers (:1362-1365: the handler only counts):
a thread that has no item pops (:992, :1236), one that has an item pushes it (:996, :1240). -/
def TestCall (K : BufLayout n) (N : Nat) (H : Hold) (s : State n) (t : Nat) (f : Frame n) : Prop :=
  t < N ∧ (s.th t).saved = [] ∧
  match H t with
  | none => isPush f = false
  | some y => isPush f = true ∧ itemOf K s.mem f = y

/-- The final store of a pop gives the thread an item, that of a push takes it. -/
def holdStep (T : Nat → Site n) (s : State n) (G' : Bufs n) (H : Hold) (t : Nat) (lab : Lab n) : Hold :=
  match committing T s t lab with
  | none => H
  | some f => upd H t (if isPush f then none else G'.got t 0)

/-- Executions of the test with `N` threads. -/
inductive TestReach (T : Nat → Site n) (K : BufLayout n) (m0 : Mem n) (G0 : Bufs n) (N : Nat) :
    State n → Bufs n → Hold → Prop
  | init : TestReach T K m0 G0 N { mem := m0, th := fun _ => thread0 } G0 (fun _ => none)
  | step {s s' : State n} {G : Bufs n} {H : Hold} {t : Nat} {lab : Lab n} (h : TestReach T K m0 G0 N s G H)
      (hs : Step T s t lab s')
      (hi : ∀ f, lab = .invoke f → BufCall K G t (s.th t).saved.length f ∧ TestCall K N H s t f)
      (hu : lab = .user → ∀ a, s'.mem a ≠ s.mem a →
        (∀ c ∈ K.cpus, ¬ InWord (K.offset c) a ∧ ¬ K.InArr c a) ∧
        (∀ t' d', K.priv t' d' a → t' = t ∧ d' = (s.th t).saved.length)) :
      TestReach T K m0 G0 N s' (bufStep K T s G t lab) (holdStep T s (bufStep K T s G t lab) H t lab)
  | read {s : State n} {G : Bufs n} {H : Hold} {t : Nat} {c : BitVec 32} (h : TestReach T K m0 G0 N s G H)
      (hr : (s.th t).run = true) (ht : (s.th t).top = none) (hc : c ∈ K.cpus) :
      TestReach T K m0 G0 N s (G.read t (s.th t).saved.length c (ldw K.be s.mem (K.offset c))) H

/-! ### The end of the tests -/

/-- `while ((node = __percpu_buffer_pop(buffer, i))) { sum += node->data; free(node); }` (:1102-1105). `none`: the loop
has not ended after `k` evaluations of its condition. -/
def ptrLoop (be : Bool) (off arr doff : W n) : Nat → Mem n → BitVec 64 → Option (Mem n × BitVec 64)
  | 0, _, _ => none
  | k + 1, m, sum =>
    let o := ldw be m off
    if o = 0#_ then some (m, sum)
    else
      let head := ldw be m (arr + (o - 1#_) * num n)
      let m := stw be m off (o - 1#_)
      if head = 0#_ then some (m, sum)
      else ptrLoop be off arr doff k m (sum + (ldw be m (head + doff)).signExtend 64)

/-- `while (__percpu_memcpy_buffer_pop(buffer, &item, i)) { sum += item.data1; sum += item.data2; }` (:1343-1346);
`val`: the sum of the two data as a function of the bytes of the item. -/
def copyLoop (be : Bool) (off arr : W n) (isz : Nat) (item : W n) (val : List Byte → BitVec 64) :
    Nat → Mem n → BitVec 64 → Option (Mem n × BitVec 64)
  | 0, _, _ => none
  | k + 1, m, sum =>
    let o := ldw be m off
    if o = 0#_ then some (m, sum)
    else
      let m := memcpy m item (arr + (o - 1#_) * num isz) (num isz)
      let m := stw be m off (o - 1#_)
      copyLoop be off arr isz item val k m (sum + val (bytes m item isz))

/-- `for (i = 0; i < max_nr_cpus; i++)` (:1097, :1338) -/
def forCpus (body : BitVec 32 → Mem n → BitVec 64 → Option (Mem n × BitVec 64)) :
    List (BitVec 32) → Mem n → BitVec 64 → Option (Mem n × BitVec 64)
  | [], m, sum => some (m, sum)
  | c :: cs, m, sum =>
    match body c m sum with
    | none => none
    | some (m', sum') => forCpus body cs m' sum'

/-- The values of the items in `l`, added up. -/
def itemSum {α : Type} (val : α → BitVec 64) (l : List α) : BitVec 64 := l.foldr (fun y a => val y + a) 0#64

end Verif.Rseq
