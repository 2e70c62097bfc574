/-
tests/basic_percpu_benchmark.c: the setup of `main`, the assignment of CPUs and the two meeting points of the
threads.
-/

namespace Verif.Bench

/-- The number of `i < n` with `f i`. -/
def cnt (f : Nat → Bool) : Nat → Nat
  | 0 => 0
  | n + 1 => cnt f n + (f n).toNat

def upd {α : Type} (f : Nat → α) (i : Nat) (v : α) : Nat → α := fun j => if j = i then v else f j

/-! ### `init_affinity` (lines 103-117) and the shuffle (lines 266-273) -/

/-- The loop over the CPUs: `cpu_affinities` and `next_aff`. -/
def initAffinity (allowed : Nat → Bool) : Nat → (Nat → Nat) × Nat
  | 0 => (fun _ => 0, 0)
  | cpu + 1 =>
    let (a, next) := initAffinity allowed cpu
    if allowed cpu then (upd a next cpu, next + 1) else (a, next)

/-- The first loop: `rand_order[i] = i`. -/
def initOrder (n : Nat) : Nat → (Nat → Nat)
  | 0 => fun _ => 0
  | i + 1 => upd (initOrder n i) i i

/-- The second loop; `r i` is the result of `rand()` in iteration `i`. -/
def shuffle (n : Nat) (r : Nat → Nat) (o : Nat → Nat) : Nat → (Nat → Nat)
  | 0 => o
  | i + 1 =>
    let o := shuffle n r o i
    let index := r i % n
    let tmp := o i
    let o := upd o i (o index)
    upd o index tmp

/-! ### The threads -/

/-- Where a thread is in `test_percpu_benchmark_thread` (lines 141-212); `i` is the index it took from
`next_aff`. -/
inductive Pc
  | absent                      -- not created
  | start                       -- before `set_affinity`
  | locked                      -- holds `affinity_mutex`
  | took (i : Nat)              -- has its CPU, still holds the mutex
  | pinned (i : Nat)            -- before the addition of line 161
  | added (i : Nat) (last : Bool)   -- after it; `last`: the comparison was true
  | wait (i : Nat)              -- line 163
  | work (i : Nat)              -- lines 166-192
  | subbed (i : Nat) (last : Bool)  -- after the subtraction of line 199
  | wait2 (i : Nat)             -- line 201
  | left (i : Nat)              -- beyond
  deriving DecidableEq, Repr

structure St where
  pc : Nat → Pc
  mutex : Option Nat
  nextAff : Nat
  active : BitVec 32
  go : Bool
  stop : Bool
  created : Nat                 -- `i` of the loop at line 225

def init : St :=
  { pc := fun _ => .absent, mutex := none, nextAff := 0, active := 0#32, go := false, stop := false, created := 0 }

/-- One step, sequentially consistent.  `n` is `nr_threads`; `fails i` says that the `i`-th `pthread_create`
fails, which the program does not notice (lines 227-228).  Spinning is no step. -/
inductive Step (n : Nat) (fails : Nat → Bool) : St → St → Prop
  | create {s} : s.created < n → fails s.created = false →
      Step n fails s { s with pc := upd s.pc s.created .start, created := s.created + 1 }
  | createFails {s} : s.created < n → fails s.created = true →
      Step n fails s { s with created := s.created + 1 }
  | lock {s} (t : Nat) : s.pc t = .start → s.mutex = none →
      Step n fails s { s with pc := upd s.pc t .locked, mutex := some t }
  | take {s} (t : Nat) : s.pc t = .locked →
      Step n fails s { s with pc := upd s.pc t (.took s.nextAff), nextAff := s.nextAff + 1 }
  | unlock {s} (t i : Nat) : s.pc t = .took i →
      Step n fails s { s with pc := upd s.pc t (.pinned i), mutex := none }
  | add {s} (t i : Nat) : s.pc t = .pinned i →
      Step n fails s { s with
        active := s.active + 1#32
        pc := upd s.pc t (.added i (decide (s.active + 1#32 = BitVec.ofNat 32 n))) }
  | go {s} (t i : Nat) (l : Bool) : s.pc t = .added i l →
      Step n fails s { s with go := s.go || l, pc := upd s.pc t (.wait i) }
  | enter {s} (t i : Nat) : s.pc t = .wait i → s.go = true →
      Step n fails s { s with pc := upd s.pc t (.work i) }
  | sub {s} (t i : Nat) : s.pc t = .work i →
      Step n fails s { s with
        active := s.active - 1#32
        pc := upd s.pc t (.subbed i (decide (s.active - 1#32 = 0#32))) }
  | stop {s} (t i : Nat) (l : Bool) : s.pc t = .subbed i l →
      Step n fails s { s with stop := s.stop || l, pc := upd s.pc t (.wait2 i) }
  | leave {s} (t i : Nat) : s.pc t = .wait2 i → s.stop = true →
      Step n fails s { s with pc := upd s.pc t (.left i) }

inductive Steps (n : Nat) (fails : Nat → Bool) : Nat → St → St → Prop
  | nil {s} : Steps n fails 0 s s
  | cons {k s s' s''} : Steps n fails k s s' → Step n fails s' s'' → Steps n fails (k + 1) s s''

def Reach (n : Nat) (fails : Nat → Bool) (s : St) : Prop := ∃ k, Steps n fails k init s

/-! ### What a thread has done -/

/-- It has passed line 161. -/
def Pc.arrived : Pc → Bool
  | .added .. | .wait _ | .work _ | .subbed .. | .wait2 _ | .left _ => true
  | _ => false

/-- It has passed line 199. -/
def Pc.finished : Pc → Bool
  | .subbed .. | .wait2 _ | .left _ => true
  | _ => false

/-- It has passed line 163. -/
def Pc.released : Pc → Bool
  | .work _ | .subbed .. | .wait2 _ | .left _ => true
  | _ => false

/-- It has passed line 201. -/
def Pc.gone : Pc → Bool
  | .left _ => true
  | _ => false

/-- The index of its CPU. -/
def Pc.idx : Pc → Option Nat
  | .took i | .pinned i | .added i _ | .wait i | .work i | .subbed i _ | .wait2 i | .left i => some i
  | _ => none

def Pc.rank : Pc → Nat
  | .absent => 0
  | .start => 1
  | .locked => 2
  | .took _ => 3
  | .pinned _ => 4
  | .added .. => 5
  | .wait _ => 6
  | .work _ => 7
  | .subbed .. => 8
  | .wait2 _ => 9
  | .left _ => 10

end Verif.Bench
