import Verif.Register
/-
Invariant of the registration state machine.
-/
namespace Verif.Register

/-- The C library owns the registration: its symbols exist and advertise a non-zero size. -/
def LibcOwns (env : Env) : Prop := ∃ n, env.libc = some n ∧ n ≠ 0

theorem init_own (env : Env) : (rseqInit env).own = true ↔ ¬ LibcOwns env := by
  unfold rseqInit LibcOwns
  cases env.libc with
  | none => simp
  | some n => by_cases h : n = 0 <;> simp [h]

theorem init_size_own (env : Env) (h : (rseqInit env).own = true) : (rseqInit env).size = 0 := by
  unfold rseqInit at h ⊢
  split at h
  · split at h
    · cases h
    · rename_i h0; simp only [h0, if_false]
  · rfl

/-- The last return of thread `t`. -/
def lastOf (t : Nat) (log : List Event) : Option Event :=
  log.find? fun e => match e with | .regRet t' _ => t' == t | .unregRet t' _ => t' == t

theorem featureSize_pos (env : Env) : 0 < featureSize env := by
  unfold featureSize origFeature
  split <;> omega

structure Inv (env : Env) (s : Proc) : Prop where
  own : s.lib.own = (rseqInit env).own
  /-- owning: size is 0 or the kernel feature size -/
  size : s.lib.own = true → s.lib.size = 0 ∨ s.lib.size = featureSize env
  sizeLibc : s.lib.own = false → s.lib.size = (rseqInit env).size
  /-- lengths used for registration -/
  len : ∀ t len, s.kern t = .ours len → len = minAlloc 0 ∨ (len = minAlloc (featureSize env) ∧ s.lib.size ≠ 0)
  pcLen : ∀ t len, s.pc t = .regLen len ∨ s.pc t = .unregLen len →
    s.lib.own = true ∧ (len = minAlloc 0 ∨ (len = minAlloc (featureSize env) ∧ s.lib.size ≠ 0))
  pcOk : ∀ t, s.pc t = .regOk → s.lib.own = true ∧ ∃ len, s.kern t = .ours len
  pcFail : ∀ t, s.pc t = .regFail → s.lib.own = true
  zero : s.lib.own = true → s.lib.size = 0 → ∀ t, .regRet t 0 ∉ s.log
  oursOwn : ∀ t len, s.kern t = .ours len → s.lib.own = true
  last0 : s.lib.own = true → ∀ t, lastOf t s.log = some (.regRet t 0) → ∃ len, s.kern t = .ours len
  lastU : ∀ t, s.pc t ≠ .regOk → lastOf t s.log = some (.unregRet t 0) → ∀ len, s.kern t ≠ .ours len

theorem lastOf_cons_same_reg (t : Nat) (r : Int) (log : List Event) : lastOf t (.regRet t r :: log) = some (.regRet t r) := by
  simp [lastOf]
theorem lastOf_cons_same_unreg (t : Nat) (r : Int) (log : List Event) : lastOf t (.unregRet t r :: log) = some (.unregRet t r) := by
  simp [lastOf]
theorem lastOf_cons_other_reg {t t' : Nat} (h : t' ≠ t) (r : Int) (log : List Event) : lastOf t (.regRet t' r :: log) = lastOf t log := by
  simp [lastOf, h]
theorem lastOf_cons_other_unreg {t t' : Nat} (h : t' ≠ t) (r : Int) (log : List Event) : lastOf t (.unregRet t' r :: log) = lastOf t log := by
  simp [lastOf, h]

theorem start_inv (env : Env) (kern : Nat → Reg) (h : ∀ t len, kern t ≠ .ours len) : Inv env (Proc.start env kern) := by
  refine ⟨rfl, fun ho => Or.inl (init_size_own env ho), fun _ => rfl, ?_, ?_, ?_, ?_, ?_, ?_, ?_, ?_⟩
  all_goals (simp only [Proc.start, lastOf]; grind)

theorem step_inv {env : Env} {s s' : Proc} (hi : Inv env s) (hs : Step env s s') : Inv env s' := by
  have hf := featureSize_pos env
  obtain ⟨i1, i2, i3, i4, i5, i6, i7, i8, i9, i10, i11⟩ := hi
  have hmin : ∀ n, minAlloc n = if n < 32 then 32 else n := fun n => rfl
  have hks : ∀ r len, kRegister env r len = true → r = .none := by
    intro r len h
    unfold kRegister at h
    simp only [Bool.and_eq_true, beq_iff_eq] at h
    exact h.1.1.2
  have hku : ∀ r len, kUnregister env r len = true → r = .ours len := by
    intro r len h
    unfold kUnregister at h
    simp only [Bool.and_eq_true, beq_iff_eq] at h
    exact h.2
  have hlog : ∀ t t' r, lastOf t (.regRet t' r :: s.log) = if t' = t then some (.regRet t' r) else lastOf t s.log := by
    intro t t' r
    by_cases h : t' = t <;> simp [lastOf, h]
  have hlogU : ∀ t t' r, lastOf t (.unregRet t' r :: s.log) = if t' = t then some (.unregRet t' r) else lastOf t s.log := by
    intro t t' r
    by_cases h : t' = t <;> simp [lastOf, h]
  have hupd : ∀ {α : Type} (f : Nat → α) t v x, upd f t v x = if x = t then v else f x := fun f t v x => rfl
  cases hs <;> constructor <;> dsimp only <;> (try simp only [hlog, hlogU, hupd]) <;>
    first
    | grind
    | (intro t1 h1; refine ⟨by grind, ?_⟩; split; exact ⟨_, rfl⟩; grind)

theorem reach_inv {env : Env} {s : Proc} (h : Reach env s) : Inv env s := by
  induction h with
  | init kern h => exact start_inv env kern h
  | step s s' _ hs ih => exact step_inv ih hs

end Verif.Register
