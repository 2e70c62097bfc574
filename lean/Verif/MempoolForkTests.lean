import Verif.MempoolTestsProps
/-
The checks of tests/mempool_test.c that run in a forked child: `run_robust_test` (279-310) and
`run_fork_destroy_pool_test` (343-370), with `fork`, `_exit`, `abort`, `waitpid` and the wait status.

Simplifications: a child with undefined behaviour ends with an arbitrary status; the status variable (283, 347) is
an arbitrary number when `waitpid` does not store to it.
-/
namespace Verif.Mempool
open Verif Verif.Mem

/-- What the system does.  `core`: the status of an aborted child has the core dump bit; `wild`: status of a child with
undefined behaviour; `junk`: the value of the uninitialised variable `status`. -/
structure Sys where
  forkOk : Bool
  waitOk : Bool
  core : Bool
  wild : Nat
  junk : Nat

/-- `WIFSIGNALED` of the C library: `((signed char) (((status) & 0x7f) + 1) >> 1) > 0`. -/
def wifsignaled (st : Nat) : Bool :=
  let x := st % 128 + 1
  let c : Int := if x < 128 then x else (x : Int) - 256
  decide (0 < c / 2)

/-- `WTERMSIG`. -/
def wtermsig (st : Nat) : Nat := st % 128

/-- The status of a child that runs a program and then calls `_exit(code)`; `SIGABRT` is 6. -/
def childStatus {α : Type} (y : Sys) (code : Nat) : Outcome α → Nat
  | .ok _ => code % 256 * 256
  | .aborted _ => if y.core then 6 + 128 else 6
  | .ub => y.wild

/-- `waitpid(cpid, &status, 0)`, result ignored (302, 363). -/
def waited (y : Sys) (st : Nat) : Nat := if y.waitOk then st else y.junk

variable [Abi]

/-- `run_robust_test` (279-310): the pool is made in the child. -/
def runRobustTest (y : Sys) (pool : CreateRes) (test : Config → State → Outcome Unit) : Bool :=
  if y.forkOk then
    let st := waited y (childStatus y 1 (match pool with
      | .null _ => .ok ()
      | .ub => .ub
      | .pool c s => test c s))
    wifsignaled st && (6 == wtermsig st)
  else false

/-- `run_fork_destroy_pool_test` (343-370): the value returned, or none if the test program ends with `_exit` (351-352). -/
def runForkDestroy (y : Sys) (pool : CreateRes) (ok : Nat → Bool) : Option Bool :=
  match pool with
  | .null _ => none
  | .ub => none
  | .pool c s =>
    if y.forkOk then some (!wifsignaled (waited y (childStatus y 0 (destroy c ok (forkChild c s))))) else some false

omit [Abi] in
theorem wifsignaled_iff (st : Nat) : wifsignaled st = true ↔ 1 ≤ st % 128 ∧ st % 128 ≤ 126 := by
  unfold wifsignaled
  dsimp only
  rw [decide_eq_true_iff]
  split <;> omega

/-- Destroy in the child, for a pool without live items: the loop over its ranges. -/
theorem destroy_child_loop {c : Config} {g : Ghost} (h : Hist c false g) (hl : g.live = []) (ok : Nat → Bool) :
    ∃ acc l, l ≠ [] ∧ (∀ r ∈ l, leaked c r = false) ∧ l.length = g.s.pool.ranges.length ∧
      destroy c ok (forkChild c g.s) = destroyLoop c acc ok l 0 [] := by
  have hne := ranges_ne_nil h.valid h.mode h.reach
  have hi := h.inv
  rw [hl] at hi
  have hnl := not_leaked hi
  cases hc : c.cow with
  | false =>
    have e : forkChild c g.s = g.s := by unfold forkChild; rw [hc]; rfl
    refine ⟨true, g.s.pool.ranges, hne, hnl, rfl, ?_⟩
    obtain ⟨d, e'⟩ := (no_false_alarm h).2.2 hl ok
    rw [e]
    rw [destroy_spec h.valid h.inv] at e' ⊢
    split at e'
    · cases e'
    · split at e'
      · cases e'
      · rename_i h1 h2
        rw [if_neg h1, if_neg h2]
  | true =>
    refine ⟨false, g.s.pool.ranges.map fun r => { r with canary := 0#8 }, ?_, ?_, by simp, ?_⟩
    · intro e; exact hne (List.map_eq_nil_iff.1 e)
    · intro r hr
      obtain ⟨r', hr', rfl⟩ := List.mem_map.1 hr
      exact hnl r' hr'
    · have hacc : mappingsAccessible c (forkChild c g.s).pool = false := by
        unfold forkChild
        rw [if_pos hc]
        cases hr : g.s.pool.ranges with
        | nil => exact absurd hr hne
        | cons a l => simp [mappingsAccessible, hc]
      unfold destroy
      dsimp only
      rw [hacc]
      simp only [Bool.and_false, Bool.false_eq_true, if_false]
      unfold forkChild
      rw [if_pos hc]

end Verif.Mempool
