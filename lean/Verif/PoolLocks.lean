/-!
The mutexes of the library and who waits for whom (C108).

Functions modelled, as the sequences in which they lock, unlock, and call back into the program:
* `__rseq_percpu_malloc` (rseq-mempool.c:1053-1120), `librseq_mempool_percpu_free` (1163-1187);
* `rseq_mempool_range_create` (740-862), as far as it calls `init_func` (831-854): by `malloc` with the lock of the pool
  held, by `rseq_mempool_create` (926-1028) without any lock;
* `rseq_mempool_set_add_pool` (1220-1235), `__rseq_mempool_set_malloc` (1237-1275), `rseq_mempool_set_create`,
  `rseq_mempool_set_destroy`, `rseq_mempool_destroy` (890-924): the last three lock nothing;
* `rseq_init` (rseq.c:209-301), which `rseq_register_current_thread` calls (158).

Simplifications: what the functions do to memory is left out (C01-C31); the mutexes are not recursive
(`pthread_mutex_init` with NULL attributes, which also leaves a second lock by the owner without an error check: the
thread waits); a function that aborts ends the process and is left out; signal handlers are left out.
-/

namespace Verif.Locks

/-- `pool->lock` (rseq-mempool.c:172), `pool_set->lock` (185), `init_lock` (rseq.c:37). -/
inductive Lock
  | pool (i : Nat)
  | set (j : Nat)
  | init
  deriving DecidableEq

/-- Calls of the library. -/
inductive Call
  | malloc (i : Nat)
  | free (i : Nat)
  | create (i : Nat)
  | destroy (i : Nat)
  | setAdd (j : Nat)
  | setMalloc (j : Nat)
  | register

/-- What a program consists of, as far as locks are concerned: `cb i c` if the init callback of pool `i` makes the call `c`;
`inSet j i` if pool `i` may be in the pool set `j`; `grows i` if pool `i` may have more than one range (`max_nr_ranges` is
not 1, 750-754). -/
structure Program where
  cb : Nat → Call → Prop
  inSet : Nat → Nat → Prop
  grows : Nat → Prop

/-- What a thread is about to do. -/
inductive Act
  | lock (l : Lock)
  | unlock (l : Lock)
  /-- run the init callback of a pool, for every CPU or until it fails -/
  | callback (i : Nat)
  | call (c : Call)

/-- The paths through the functions. -/
inductive Body (W : Program) : Call → List Act → Prop
  /-- `init_len > pool->item_len` (1061-1064) -/
  | mallocInvalid (i : Nat) : Body W (.malloc i) []
  /-- an item from the free list or of the first range; or no new range is allowed, or the system refuses one -/
  | mallocRoom (i : Nat) : Body W (.malloc i) [.lock (.pool i), .unlock (.pool i)]
  /-- a new range (1094) -/
  | mallocRange (i : Nat) (h : W.grows i) : Body W (.malloc i) [.lock (.pool i), .callback i, .unlock (.pool i)]
  | free (i : Nat) : Body W (.free i) [.lock (.pool i), .unlock (.pool i)]
  /-- the arguments are invalid or the system refuses memory -/
  | createFails (i : Nat) : Body W (.create i) []
  /-- the first range (1010) -/
  | createRange (i : Nat) : Body W (.create i) [.callback i]
  | destroy (i : Nat) : Body W (.destroy i) []
  | setAdd (j : Nat) : Body W (.setAdd j) [.lock (.set j), .unlock (.set j)]
  /-- no pool is large enough (1258, 1271-1274) -/
  | setNone (j : Nat) : Body W (.setMalloc j) [.lock (.set j), .unlock (.set j)]
  /-- the pool that is found satisfies the call (1262-1263) -/
  | setFound (j i : Nat) (h : W.inSet j i) : Body W (.setMalloc j) [.lock (.set j), .unlock (.set j), .call (.malloc i)]
  /-- it does not: again with a larger one (1264-1270) -/
  | setAgain (j i : Nat) (h : W.inSet j i) :
      Body W (.setMalloc j) [.lock (.set j), .unlock (.set j), .call (.malloc i), .call (.setMalloc j)]
  /-- `init_done` is seen (217) -/
  | registerDone : Body W .register []
  | register : Body W .register [.lock .init, .unlock .init]

/-- `todo t`: what thread `t` still does in the call it is in; `holder l`: the thread that has locked `l`. -/
structure State where
  todo : Nat → List Act
  holder : Lock → Option Nat

def upd {α β : Type} [DecidableEq α] (f : α → β) (a : α) (b : β) : α → β := fun x => if x = a then b else f x

/-- A step of thread `t`. -/
inductive Step (W : Program) (s : State) (t : Nat) : State → Prop
  /-- the program calls the library -/
  | start (c : Call) (h : s.todo t = []) : Step W s t { s with todo := upd s.todo t [.call c] }
  /-- `pthread_mutex_lock` returns -/
  | lock (l : Lock) (r : List Act) (h : s.todo t = .lock l :: r) (hf : s.holder l = none) :
      Step W s t { todo := upd s.todo t r, holder := upd s.holder l (some t) }
  | unlock (l : Lock) (r : List Act) (h : s.todo t = .unlock l :: r) (ho : s.holder l = some t) :
      Step W s t { todo := upd s.todo t r, holder := upd s.holder l none }
  | call (c : Call) (r b : List Act) (h : s.todo t = .call c :: r) (hb : Body W c b) :
      Step W s t { s with todo := upd s.todo t (b ++ r) }
  /-- a callback makes any of its calls, any number of times -/
  | callback (i : Nat) (r : List Act) (cs : List Call) (h : s.todo t = .callback i :: r) (hc : ∀ c ∈ cs, W.cb i c) :
      Step W s t { s with todo := upd s.todo t (cs.map .call ++ r) }

/-- Executions of any number of threads. -/
inductive Reach (W : Program) : State → Prop
  | init : Reach W { todo := fun _ => [], holder := fun _ => none }
  | step {s s' : State} {t : Nat} (h : Reach W s) (hs : Step W s t s') : Reach W s'

/-- Any number of steps. -/
inductive Steps (W : Program) : State → State → Prop
  | refl (s : State) : Steps W s s
  | cons {s s1 s' : State} {t : Nat} (h : Step W s t s1) (r : Steps W s1 s') : Steps W s s'

/-! ### Specification -/

/-- No thread is in a call and no lock is held. -/
def Idle (s : State) : Prop := (∀ t, s.todo t = []) ∧ ∀ l, s.holder l = none

/-- The threads in `D` wait for locks held by threads in `D`. -/
def Deadlocked (s : State) (D : Nat → Prop) : Prop :=
  (∃ t, D t) ∧ ∀ t, D t → ∃ l r u, s.todo t = .lock l :: r ∧ s.holder l = some u ∧ D u

/-- The child of a `fork` by thread `t`: the only thread, with a copy of the locks. The library has no `pthread_atfork` handlers. -/
def child (s : State) (t : Nat) : State := { todo := fun u => if u = t then s.todo t else [], holder := s.holder }

/-- The locks that a call takes while it holds none itself: as documented, a function of a pool takes the lock of the pool,
one of a set the lock of the set and that of a pool in it; creating a pool takes none, but runs the callback. -/
inductive Takes (W : Program) : Call → Lock → Prop
  | malloc (i : Nat) : Takes W (.malloc i) (.pool i)
  | free (i : Nat) : Takes W (.free i) (.pool i)
  | create {i : Nat} {c : Call} {l : Lock} (hc : W.cb i c) (h : Takes W c l) : Takes W (.create i) l
  | setAdd (j : Nat) : Takes W (.setAdd j) (.set j)
  | setMalloc (j : Nat) : Takes W (.setMalloc j) (.set j)
  | setPool {j i : Nat} (h : W.inSet j i) : Takes W (.setMalloc j) (.pool i)
  | register : Takes W .register .init

/-- The pool of `l` may grow, and its init callback makes a call that takes `l'`. -/
def Edge (W : Program) (l l' : Lock) : Prop := ∃ i c, l = .pool i ∧ W.grows i ∧ W.cb i c ∧ Takes W c l'

end Verif.Locks
