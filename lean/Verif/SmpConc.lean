import Verif.SmpProps
/-
C52 with several threads: `get_possible_cpus_array_len` (smp.c:272-278) has no lock. Each thread loads the cache (274); if it
is 0 it runs a detection and, when the value is at least 1, stores it (255-258); then it loads the cache again (277) and
returns it. Loads and stores of the `int` are taken as atomic (the C code has a data race here, DESIGN F22).
-/
namespace Verif.Smp

/-- Where a thread is: outside, after a load of 0 (detecting), about to do the load of line 277. -/
inductive Pc where
  | outside | detecting | returning
  deriving DecidableEq

/-- Cache, position of every thread, and the values returned so far (newest first). -/
structure CState where
  cache : Int
  pc : Nat → Pc
  log : List Int

/-- One step of thread `t`; a detection may give any value allowed by `Ans`. -/
inductive CStep (Ans : Int → Prop) : CState → CState → Prop where
  | load (s : CState) (t : Nat) (h : s.pc t = .outside) :
      CStep Ans s { s with pc := fun x => if x = t then (if s.cache = 0 then .detecting else .returning) else s.pc x }
  | store (s : CState) (t : Nat) (r : Int) (h : s.pc t = .detecting) (hr : Ans r) :
      CStep Ans s { s with cache := if r < 1 then s.cache else r, pc := fun x => if x = t then .returning else s.pc x }
  | ret (s : CState) (t : Nat) (h : s.pc t = .returning) :
      CStep Ans s { s with log := s.cache :: s.log, pc := fun x => if x = t then .outside else s.pc x }

inductive CReach (Ans : Int → Prop) : CState → Prop where
  | init : CReach Ans ⟨0, fun _ => .outside, []⟩
  | step (s s' : CState) (h : CReach Ans s) (hs : CStep Ans s s') : CReach Ans s'

/-- C52, threads: if every successful detection gives the same value `d`, then under every interleaving every call returns
0 or `d`, and once a call has returned `d` every later return is `d`. -/
theorem count_stable_threads (d : Int) (hd : 1 ≤ d) (s : CState) (h : CReach (fun r => r < 1 ∨ r = d) s) :
    (∀ r ∈ s.log, r = 0 ∨ r = d) ∧ s.log.Pairwise fun later earlier => earlier = d → later = d := by
  have key : (s.cache = 0 ∨ s.cache = d) ∧ (s.cache = 0 → ∀ r ∈ s.log, r = 0) ∧ (∀ r ∈ s.log, r = 0 ∨ r = d) ∧
      s.log.Pairwise fun later earlier => earlier = d → later = d := by
    induction h with
    | init => exact ⟨Or.inl rfl, fun _ r hr => (by cases hr), fun r hr => (by cases hr), List.Pairwise.nil⟩
    | step s s' _ hs ih =>
      obtain ⟨h1, h2, h3, h4⟩ := ih
      cases hs with
      | load t ht => exact ⟨h1, h2, h3, h4⟩
      | store t r ht hr =>
        refine ⟨?_, ?_, h3, h4⟩
        · dsimp only
          split
          · exact h1
          · rcases hr with hr | hr
            · omega
            · exact Or.inr hr
        · dsimp only
          split
          · exact h2
          · intro h0; omega
      | ret t ht =>
        refine ⟨h1, ?_, ?_, ?_⟩
        · intro h0 r hr
          rcases List.mem_cons.1 hr with rfl | hr
          · exact h0
          · exact h2 h0 r hr
        · intro r hr
          rcases List.mem_cons.1 hr with rfl | hr
          · exact h1
          · exact h3 r hr
        · refine List.pairwise_cons.2 ⟨fun e he hed => ?_, h4⟩
          rcases h1 with h1 | h1
          · have := h2 h1 e he
            omega
          · exact h1
  exact ⟨key.2.2.1, key.2.2.2⟩

/-- Without that condition it fails: two threads whose detections give 4 and 8 (for instance `sysconf` answers read before
and after a CPU directory appears) make the count change from 4 to 8 after it was returned. -/
theorem count_unstable_threads : ∃ s, CReach (fun r => r = 4 ∨ r = 8) s ∧ s.log = [8, 4] := by
  have h0 : CReach (fun r => r = 4 ∨ r = 8) _ := .init
  have h1 := CReach.step _ _ h0 (.load _ 0 rfl)
  have h2 := CReach.step _ _ h1 (.load _ 1 rfl)
  have h3 := CReach.step _ _ h2 (.store _ 0 4 rfl (Or.inl rfl))
  have h4 := CReach.step _ _ h3 (.ret _ 0 rfl)
  have h5 := CReach.step _ _ h4 (.store _ 1 8 rfl (Or.inr rfl))
  have h6 := CReach.step _ _ h5 (.ret _ 1 rfl)
  exact ⟨_, h6, rfl⟩

/-- A run meeting the hypotheses of `count_stable_threads` with a failing and two succeeding detections. -/
example : ∃ s, CReach (fun r => r < 1 ∨ r = 4) s ∧ s.log = [4, 4, 0] := by
  have h0 : CReach (fun r => r < 1 ∨ r = 4) _ := .init
  have h1 := CReach.step _ _ h0 (.load _ 0 rfl)
  have h2 := CReach.step _ _ h1 (.load _ 1 rfl)
  have h3 := CReach.step _ _ h2 (.store _ 0 0 rfl (Or.inl (by decide)))
  have h4 := CReach.step _ _ h3 (.ret _ 0 rfl)
  have h5 := CReach.step _ _ h4 (.store _ 1 4 rfl (Or.inr rfl))
  have h6 := CReach.step _ _ h5 (.ret _ 1 rfl)
  have h7 := CReach.step _ _ h6 (.load _ 0 rfl)
  have h8 := CReach.step _ _ h7 (.ret _ 0 rfl)
  exact ⟨_, h8, rfl⟩

end Verif.Smp
