import Verif.Register
/-
C44: `rseq_init` (src/rseq.c:210-301) executed by any number of threads on a machine with weak memory.

The body (228-289) performs four stores to plain variables (`rseq_offset`, `rseq_size`, `rseq_flags`, `rseq_ownership`; in the
branch where the C library owns the registration `rseq_ownership` keeps its initial 0, which is modelled as a store of the same
value), numbered 0..3 in program order. Memory is a release/acquire view machine restricted to what the function uses: each
thread has a `view`, the number of initialisation stores it is guaranteed to see; a plain load of variable `i` by a thread may
return the initial value unless `i < view`. The acquire load of `init_done` (217) may return the old value 0 at any time, or 1 once
the release store (294) was done, in which case the view stored with it is joined in. The mutex hands the view of the last
unlock to the next owner.
-/
namespace Verif.Register.Init

/-- Program counter of a thread inside `rseq_init`. -/
inductive Pc where
  | outside
  /-- 224: waiting for the mutex -/
  | lock
  /-- 225: inside, before the second check -/
  | check
  /-- 228-289: `i` stores done -/
  | body (i : Nat)
  /-- 298: before unlock -/
  | unlock
  /-- returned from `rseq_init` -/
  | done
  deriving DecidableEq

structure Mach where
  pc : Nat → Pc
  /-- stores guaranteed visible to each thread -/
  view : Nat → Nat
  /-- stores performed so far -/
  written : Nat
  /-- value of `init_done` and the view released with it -/
  flag : Option Nat
  /-- mutex owner and the view it carries -/
  owner : Option Nat
  mview : Nat
  /-- number of executions of the body -/
  runs : Nat

def upd {α : Type} (f : Nat → α) (t : Nat) (v : α) : Nat → α := fun x => if x = t then v else f x

inductive Step : Mach → Mach → Prop where
  /-- 217: the acquire load returns 1: fast return -/
  | fast (s : Mach) (t v : Nat) (h : s.pc t = .outside ∨ s.pc t = .done) (hf : s.flag = some v) :
      Step s { s with pc := upd s.pc t .done, view := upd s.view t (max (s.view t) v) }
  /-- 217: the acquire load returns 0, possibly stale (not for a thread that already returned from the function: it has the
  store of 1 in its past) -/
  | slow (s : Mach) (t : Nat) (h : s.pc t = .outside) : Step s { s with pc := upd s.pc t .lock }
  /-- 224 -/
  | lock (s : Mach) (t : Nat) (h : s.pc t = .lock) (ho : s.owner = none) :
      Step s { s with pc := upd s.pc t .check, owner := some t, view := upd s.view t (max (s.view t) s.mview) }
  /-- 225: `init_done` is set (under the mutex the plain load cannot be stale: every store to it is in a critical section) -/
  | again (s : Mach) (t v : Nat) (h : s.pc t = .check) (hf : s.flag = some v) : Step s { s with pc := upd s.pc t .unlock }
  /-- 225: not set: start the body -/
  | start (s : Mach) (t : Nat) (h : s.pc t = .check) (hf : s.flag = none) :
      Step s { s with pc := upd s.pc t (.body 0), runs := s.runs + 1 }
  /-- one of the four stores -/
  | store (s : Mach) (t i : Nat) (h : s.pc t = .body i) (hi : i < 4) :
      Step s { s with pc := upd s.pc t (.body (i + 1)), written := i + 1, view := upd s.view t (max (s.view t) (i + 1)) }
  /-- 294: release store -/
  | release (s : Mach) (t : Nat) (h : s.pc t = .body 4) : Step s { s with pc := upd s.pc t .unlock, flag := some (s.view t) }
  /-- 298 -/
  | unlock (s : Mach) (t : Nat) (h : s.pc t = .unlock) :
      Step s { s with pc := upd s.pc t .done, owner := none, mview := s.view t }

inductive Reach : Mach → Prop where
  | init : Reach ⟨fun _ => .outside, fun _ => 0, 0, none, none, 0, 0⟩
  | step (s s' : Mach) (h : Reach s) (hs : Step s s') : Reach s'

/-- A load of variable `i` (0..3) by thread `t` may return the value from before initialisation. -/
def MayReadOld (s : Mach) (t i : Nat) : Prop := s.view t ≤ i
/-- A load of variable `i` by thread `t` may return the initialised value. -/
def MayReadNew (s : Mach) (_t i : Nat) : Prop := i < s.written

structure Inv (s : Mach) : Prop where
  ownerIff : ∀ t, (s.owner = some t ↔ s.pc t = .check ∨ (∃ i, s.pc t = .body i) ∨ s.pc t = .unlock)
  runs0 : s.flag = none → (∀ t i, s.pc t ≠ .body i) → s.runs = 0
  runs1 : s.flag ≠ none → s.runs = 1
  runs2 : ∀ t i, s.pc t = .body i → s.runs = 1
  flagView : ∀ v, s.flag = some v → v = 4
  bodyView : ∀ t i, s.pc t = .body i → i ≤ 4 ∧ i ≤ s.view t ∧ s.flag = none
  written : ∀ t i, s.pc t = .body i → s.written = i
  flagWritten : s.flag ≠ none → s.written = 4
  noneWritten : s.flag = none → (∀ t i, s.pc t ≠ .body i) → s.written = 0
  viewLe : ∀ t, s.view t ≤ s.written
  mviewLe : s.mview ≤ s.written
  mview : s.flag ≠ none → s.owner = none → s.mview = 4
  mview2 : s.flag ≠ none → ∀ t, (s.pc t = .check ∨ s.pc t = .unlock) → s.view t = 4
  unlockFlag : ∀ t, s.pc t = .unlock → s.flag ≠ none
  doneView : ∀ t, s.pc t = .done → s.flag ≠ none ∧ s.view t = 4

theorem init_inv : Inv ⟨fun _ => .outside, fun _ => 0, 0, none, none, 0, 0⟩ := by
  constructor <;> simp

theorem step_inv {s s' : Mach} (h : Inv s) (hs : Step s s') : Inv s' := by
  obtain ⟨a1, a2, a3, a4, a5, a6, a7, a8, a9, b1, b2, b3, b4, b5, b6⟩ := h
  have hupd : ∀ {α : Type} (f : Nat → α) t v x, upd f t v x = if x = t then v else f x := fun f t v x => rfl
  have huniq : ∀ t u, s.owner = some t → s.owner = some u → t = u := fun t u h1 h2 => by rw [h1] at h2; exact Option.some.inj h2
  cases hs with
  | start t h hf =>
    have hx : ∀ Q : Prop, (∀ t_1 i, ¬ (if t_1 = t then Pc.body 0 else s.pc t_1) = Pc.body i) → Q := fun Q hh => absurd (by simp) (hh t 0)
    constructor <;> dsimp only <;> (try simp only [hupd]) <;> first | grind | (intro _ hh; exact hx _ hh)
  | store t i h hi =>
    have hx : ∀ Q : Prop, (∀ t_1 j, ¬ (if t_1 = t then Pc.body (i + 1) else s.pc t_1) = Pc.body j) → Q :=
      fun Q hh => absurd (by simp) (hh t (i + 1))
    constructor <;> dsimp only <;> (try simp only [hupd]) <;> first | grind | (intro _ hh; exact hx _ hh)
  | _ => constructor <;> dsimp only <;> (try simp only [hupd]) <;> grind

theorem reach_inv {s : Mach} (h : Reach s) : Inv s := by
  induction h with
  | init => exact init_inv
  | step s s' _ hs ih => exact step_inv ih hs

end Verif.Register.Init
