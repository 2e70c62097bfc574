import Verif.RegisterInv
/-
C45-C49: registration.
-/
namespace Verif.Register

/-! ### C45 -/

/-- C45: in every history, a register call that returns 0 leaves the calling thread registered, or the C library owns the
registration; and the registration lasts until the thread itself unregisters: as long as the thread's last completed call
is that successful register call, it is registered. -/
theorem register_zero_truth {env : Env} {s : Proc} (h : Reach env s) (t : Nat) (hl : lastOf t s.log = some (.regRet t 0)) :
    LibcOwns env ∨ ∃ len, s.kern t = .ours len := by
  have hi := reach_inv h
  by_cases ho : s.lib.own = true
  · exact Or.inr (hi.last0 ho t hl)
  · left
    rw [hi.own] at ho
    exact Classical.not_not.1 fun hn => ho ((init_own env).2 hn)

/-- C45: a register call returns -1 only if no register call of any thread has succeeded so far. -/
theorem register_minus_truth {env : Env} {s s' : Proc} (h : Reach env s) (hs : Step env s s') (t : Nat)
    (hl : s'.log = .regRet t (-1) :: s.log) : ∀ t', .regRet t' 0 ∉ s.log := by
  have hi := reach_inv h
  have hne : ∀ (l : List Event) e, l ≠ e :: l := fun l e hh => by
    have := congrArg List.length hh
    simp at this
  cases hs with
  | regMinus u ha hp hz => exact hi.zero (hi.pcFail u hp) hz
  | _ => first | exact absurd hl (hne _ _) | (injection hl with hl; cases hl)

/-- C45: an unregister call that returns 0 leaves the thread without librseq registration (until its next register call is
granted), or the C library owns the registration - in which case librseq never registers a thread. -/
theorem unregister_zero_truth {env : Env} {s : Proc} (h : Reach env s) (t : Nat) (hl : lastOf t s.log = some (.unregRet t 0))
    (hp : s.pc t ≠ .regOk) : ∀ len, s.kern t ≠ .ours len :=
  (reach_inv h).lastU t hp hl

/-- C45: when the C library owns the registration, librseq makes no registration. -/
theorem libc_owns_no_registration {env : Env} {s : Proc} (h : Reach env s) (hl : LibcOwns env) : ∀ t len, s.kern t ≠ .ours len := by
  have hi := reach_inv h
  intro t len hk
  have := hi.oursOwn t len hk
  rw [hi.own] at this
  exact (init_own env).1 this hl

/-- An unregister call that fails has a reason the caller can see: the thread is not registered by librseq, or it is
registered with another length than the one derived from `rseq_size`. -/
theorem unregister_minus_truth {env : Env} {s s' : Proc} (h : Reach env s) (hk : env.kernelHas = true) (hs : Step env s s') (t : Nat)
    (hl : s'.log = .unregRet t (-1) :: s.log) :
    (∀ len, s.kern t ≠ .ours len) ∨ (origAlloc < featureSize env) := by
  have hi := reach_inv h
  have hne : ∀ (l : List Event) e, l ≠ e :: l := fun l e hh => by
    have := congrArg List.length hh
    simp at this
  cases hs with
  | unregSys u len ha hp =>
    dsimp only at hl
    injection hl with h1 _
    injection h1 with h1 h2
    subst h1
    by_cases hn : ∃ l, s.kern u = .ours l
    · right
      obtain ⟨l, hl⟩ := hn
      have a1 := hi.len u l hl
      have a2 := (hi.pcLen u len (Or.inr hp)).2
      have hku : ¬ kUnregister env (s.kern u) len = true := by
        intro hh; rw [if_pos hh] at h2; cases h2
      have : l ≠ len := by
        rintro rfl
        apply hku
        unfold kUnregister
        rw [hl, hk]
        simp
      unfold minAlloc origAlloc at *
      grind
    · left
      exact fun l hl => hn ⟨l, hl⟩
  | _ => first | exact absurd hl (hne _ _) | (injection hl with hl; cases hl)

/-- C45: the process aborts in a register call only if librseq owns the registration and some register call has
succeeded before ("incoherent success/failure within process"). -/
theorem register_abort_truth {env : Env} {s : Proc} (h : Reach env s) (ha : s.aborted = true) :
    ¬ LibcOwns env ∧ ∃ t, .regRet t 0 ∈ s.log := by
  have key : ∀ s, Reach env s → s.lib.own = true → s.lib.size ≠ 0 → ∃ t, .regRet t 0 ∈ s.log := by
    intro s h
    induction h with
    | init kern _ => intro h1 h2; exact absurd (init_size_own env h1) h2
    | step s s' _ hs ih =>
      intro h1 h2
      cases hs with
      | regDone t ha hp => exact ⟨t, List.mem_cons_self⟩
      | regLibc t ha hp hno => rw [h1] at hno; cases hno
      | unregLibc t ha hp hno => rw [h1] at hno; cases hno
      | regMinus t ha hp hz => obtain ⟨u, hu⟩ := ih h1 h2; exact ⟨u, List.mem_cons_of_mem _ hu⟩
      | unregSys t len ha hp => obtain ⟨u, hu⟩ := ih h1 h2; exact ⟨u, List.mem_cons_of_mem _ hu⟩
      | _ => exact ih h1 h2
  induction h with
  | init kern _ => cases ha
  | step s s' h hs ih =>
    cases hs with
    | regAbort t ha' hp hz =>
      have ho := (reach_inv h).pcFail t hp
      exact ⟨(init_own env).1 (by rw [← (reach_inv h).own]; exact ho), key s h ho (by omega)⟩
    | _ => rename_i ha' _ _; first | (rw [ha'] at ha; cases ha) | simp_all

/-! ### C46 -/

/-- C46, partial (missing: kernels whose feature size exceeds 32 bytes, see `unregister_fails_large_feature`): with a
feature size of at most 32, a registered thread that unregisters succeeds, and registering it again is acceptable to the
kernel with the length the library will pass. -/
theorem unregister_succeeds_partial {env : Env} {s : Proc} (h : Reach env s) (hk : env.kernelHas = true)
    (hf : featureSize env ≤ origAlloc) (ha : s.aborted = false) (t len : Nat) (hreg : s.kern t = .ours len) (hp : s.pc t = .idle) :
    ∃ s1 s2, Step env s s1 ∧ Step env s1 s2 ∧ s2.log = .unregRet t 0 :: s.log ∧ s2.kern t = .none ∧ s2.pc t = .idle ∧
      kRegister env (s2.kern t) (minAlloc s2.lib.size) = true := by
  have hi := reach_inv h
  have hown := hi.oursOwn t len hreg
  have hlen := hi.len t len hreg
  have hsz := hi.size hown
  have hmin : minAlloc s.lib.size = 32 ∧ len = 32 := by
    unfold minAlloc origAlloc at *
    grind
  have hku : kUnregister env (s.kern t) (minAlloc s.lib.size) = true := by
    unfold kUnregister
    rw [hreg, hk, hmin.1, hmin.2]
    simp
  refine ⟨_, _, .unregStart s t ha hp hown, .unregSys _ t _ ha (by simp [upd]; rfl), ?_, ?_, by simp [upd], ?_⟩
  · simp only [hku]; rfl
  · simp only [hku]; simp [upd]
  · simp only [hku]
    rw [hmin.1]
    unfold kRegister
    simp [upd, hk, origAlloc]

/-- C46: for any feature size, a thread that registered after `rseq_size` was set can unregister. -/
theorem unregister_succeeds_later_threads {env : Env} {s : Proc} (h : Reach env s) (hk : env.kernelHas = true)
    (ha : s.aborted = false) (t : Nat) (hreg : s.kern t = .ours (minAlloc (featureSize env)))
    (hsize : s.lib.size ≠ 0) (hp : s.pc t = .idle) :
    ∃ s1 s2, Step env s s1 ∧ Step env s1 s2 ∧ s2.log = .unregRet t 0 :: s.log ∧ s2.kern t = .none := by
  have hi := reach_inv h
  have hown := hi.oursOwn t _ hreg
  have hsz : s.lib.size = featureSize env := (hi.size hown).resolve_left hsize
  have hku : kUnregister env (s.kern t) (minAlloc s.lib.size) = true := by
    unfold kUnregister
    rw [hreg, hk, hsz]
    simp
  refine ⟨_, _, .unregStart s t ha hp hown, .unregSys _ t _ ha (by simp [upd]; rfl), ?_, ?_⟩
  · simp only [hku]; rfl
  · simp only [hku]; simp [upd]

/-- A kernel with a 40-byte structure. -/
def bigEnv : Env := { kernelHas := true, auxFeature := 40, libc := none }

/-- C46 is false for kernels with a feature size above 32 (DESIGN F4): the first thread registers with length 32,
`rseq_size` becomes 40, its unregistration fails, and registering again aborts the process. -/
theorem unregister_fails_large_feature : ∃ s1 s2 s3, Reach bigEnv s1 ∧ Reach bigEnv s2 ∧ Reach bigEnv s3 ∧
    s1.log = [.regRet 0 0] ∧ s1.kern 0 = .ours 32 ∧
    s2.log = [.unregRet 0 (-1), .regRet 0 0] ∧ s2.kern 0 = .ours 32 ∧
    s3.aborted = true := by
  have h0 : Reach bigEnv _ := .init (fun _ => .none) (fun _ _ h => by cases h)
  have h1 := Reach.step _ _ h0 (.regStart _ 0 rfl rfl rfl)
  have h2 := Reach.step _ _ h1 (.regSysOk _ 0 32 rfl rfl rfl)
  have h3 := Reach.step _ _ h2 (.regDone _ 0 rfl rfl)
  have h4 := Reach.step _ _ h3 (.unregStart _ 0 rfl rfl rfl)
  have h5 := Reach.step _ _ h4 (.unregSys _ 0 40 rfl rfl)
  have h6 := Reach.step _ _ h5 (.regStart _ 0 rfl rfl rfl)
  have h7 := Reach.step _ _ h6 (.regSysFail _ 0 40 rfl rfl)
  have h8 := Reach.step _ _ h7 (.regAbort _ 0 rfl rfl (by decide))
  exact ⟨_, _, _, h3, h5, h8, rfl, rfl, rfl, rfl, rfl⟩

/-- Registering a registered thread aborts (DESIGN F5). -/
theorem register_twice_aborts : ∃ s, Reach { bigEnv with auxFeature := 28 } s ∧ s.log = [.regRet 0 0] ∧
    kRegister { bigEnv with auxFeature := 28 } (s.kern 0) (minAlloc s.lib.size) = false ∧
    ∃ s', Reach { bigEnv with auxFeature := 28 } s' ∧ s'.log = [.regRet 0 0] ∧ s'.aborted = true := by
  have h0 : Reach { bigEnv with auxFeature := 28 } _ := .init (fun _ => .none) (fun _ _ h => by cases h)
  have h1 := Reach.step _ _ h0 (.regStart _ 0 rfl rfl rfl)
  have h2 := Reach.step _ _ h1 (.regSysOk _ 0 32 rfl rfl rfl)
  have h3 := Reach.step _ _ h2 (.regDone _ 0 rfl rfl)
  have h4 := Reach.step _ _ h3 (.regStart _ 0 rfl rfl rfl)
  have h5 := Reach.step _ _ h4 (.regSysFail _ 0 32 rfl rfl)
  have h6 := Reach.step _ _ h5 (.regAbort _ 0 rfl rfl (by decide))
  exact ⟨_, h3, rfl, rfl, _, h6, rfl, rfl⟩

/-! ### C47 -/

/-- The C library is truthful about its size unless it is one of the two documented special values. -/
def LibcTruthful (env : Env) (libcArea : Nat) : Prop :=
  ∀ n, env.libc = some n → (n ≠ 0 → origAlloc ≤ libcArea) ∧ (n ≠ origFeature → n ≠ origAlloc → n ≤ featureSize env ∧ n ≤ libcArea)

/-- C47, partial (missing: when the kernel's feature size exceeds 32, `rseq_size` exceeds the 32 bytes that the first
registered thread passed to the kernel, see `size_exceeds_registered`): `rseq_size` never exceeds the kernel's feature size
nor the allocated area; it is 0 until the first successful registration when librseq owns it. -/
theorem rseq_size_bound_partial {env : Env} {s : Proc} (h : Reach env s) (libcArea : Nat) (ht : LibcTruthful env libcArea)
    (haux : env.auxFeature ≤ areaSize) :
    s.lib.size ≤ featureSize env ∧
    (LibcOwns env → s.lib.size ≤ libcArea) ∧
    (¬ LibcOwns env → s.lib.size ≤ areaSize ∧ (s.lib.size = 0 ↔ ¬ ∃ t, .regRet t 0 ∈ s.log)) ∧
    (featureSize env ≤ origAlloc → ∀ t len, s.kern t = .ours len → s.lib.size ≤ len) := by
  have hi := reach_inv h
  have hf := featureSize_pos env
  have hfa : featureSize env ≤ areaSize := by
    unfold featureSize origFeature areaSize at *
    split <;> omega
  by_cases ho : s.lib.own = true
  · have hnl : ¬ LibcOwns env := (init_own env).1 (by rw [← hi.own]; exact ho)
    have hs := hi.size ho
    refine ⟨by omega, fun hl => absurd hl hnl, fun _ => ⟨by omega, ?_⟩, ?_⟩
    · constructor
      · rintro hz ⟨t, ht⟩
        exact hi.zero ho hz t ht
      · intro hno
        apply Classical.byContradiction
        intro hnz
        -- size was set by a completed registration
        have key : ∀ s, Reach env s → s.lib.own = true → s.lib.size ≠ 0 → ∃ t, .regRet t 0 ∈ s.log := by
          intro s h
          induction h with
          | init kern _ => intro h1 h2; exact absurd (init_size_own env h1) h2
          | step s s' _ hs ih =>
            intro h1 h2
            cases hs with
            | regDone t ha hp => exact ⟨t, List.mem_cons_self⟩
            | regLibc t ha hp hno => rw [h1] at hno; cases hno
            | unregLibc t ha hp hno => rw [h1] at hno; cases hno
            | regMinus t ha hp hz => obtain ⟨u, hu⟩ := ih h1 h2; exact ⟨u, List.mem_cons_of_mem _ hu⟩
            | unregSys t len ha hp => obtain ⟨u, hu⟩ := ih h1 h2; exact ⟨u, List.mem_cons_of_mem _ hu⟩
            | _ => exact ih h1 h2
        exact hno (key s h ho hnz)
    · intro hle t len hk
      have := hi.len t len hk
      unfold minAlloc origAlloc at *
      grind
  · have ho' : s.lib.own = false := by simpa using ho
    have hl : LibcOwns env := Classical.not_not.1 fun hn => ho (by rw [hi.own]; exact (init_own env).2 hn)
    obtain ⟨n, hn, hn0⟩ := hl
    have hsz := hi.sizeLibc ho'
    have hval : (rseqInit env).size = if n = origFeature ∨ n = origAlloc then
            (if featureSize env < origAlloc then featureSize env else origAlloc) else n := by
      unfold rseqInit
      rw [hn]
      simp only [ne_eq, hn0, not_false_eq_true, if_true]
    obtain ⟨t1, t2⟩ := ht n hn
    have t1 := t1 hn0
    refine ⟨?_, fun _ => ?_, fun hh => absurd ⟨n, hn, hn0⟩ hh, ?_⟩
    · rw [hsz, hval]
      by_cases hc : n = origFeature ∨ n = origAlloc
      · rw [if_pos hc]; split <;> omega
      · rw [if_neg hc]; exact (t2 (fun e => hc (Or.inl e)) (fun e => hc (Or.inr e))).1
    · rw [hsz, hval]
      by_cases hc : n = origFeature ∨ n = origAlloc
      · rw [if_pos hc]; split <;> omega
      · rw [if_neg hc]; exact (t2 (fun e => hc (Or.inl e)) (fun e => hc (Or.inr e))).2
    · intro _ t len hk
      exact absurd hk (libc_owns_no_registration h ⟨n, hn, hn0⟩ t len)

/-- C47: the node_id and mm_cid fields are reported available only if the kernel maintains them. -/
theorem field_availability {env : Env} {s : Proc} (h : Reach env s) (libcArea : Nat) (ht : LibcTruthful env libcArea)
    (haux : env.auxFeature ≤ areaSize) :
    (nodeIdAvailable s.lib = true → 24 ≤ featureSize env) ∧ (mmCidAvailable s.lib = true → 28 ≤ featureSize env) := by
  have hb := (rseq_size_bound_partial h libcArea ht haux).1
  have hfa : featureSize env ≤ 1024 := by
    unfold featureSize origFeature areaSize at *
    split <;> omega
  have hint : asInt s.lib.size = s.lib.size := by
    unfold asInt
    apply Int.bmod_eq_of_le <;> omega
  unfold nodeIdAvailable mmCidAvailable
  rw [hint]
  constructor <;> intro hh <;> simp only [decide_eq_true_eq] at hh <;> omega

/-- C47: once librseq has registered a thread, the two fields are reported available exactly if the kernel maintains
them. -/
theorem field_availability_exact {env : Env} {s : Proc} (h : Reach env s) (haux : env.auxFeature ≤ areaSize)
    (ho : ¬ LibcOwns env) {t : Nat} (hl : .regRet t 0 ∈ s.log) :
    (nodeIdAvailable s.lib = true ↔ 24 ≤ featureSize env) ∧ (mmCidAvailable s.lib = true ↔ 28 ≤ featureSize env) := by
  have hi := reach_inv h
  have hown : s.lib.own = true := by rw [hi.own]; exact (init_own env).2 ho
  have hsz : s.lib.size = featureSize env :=
    (hi.size hown).resolve_left fun hz => hi.zero hown hz t hl
  have hfa : featureSize env ≤ 1024 := by
    unfold featureSize origFeature areaSize at *
    split <;> omega
  have hint : asInt s.lib.size = s.lib.size := by
    unfold asInt
    apply Int.bmod_eq_of_le <;> omega
  unfold nodeIdAvailable mmCidAvailable
  rw [hint, hsz]
  constructor <;> simp only [decide_eq_true_eq] <;> omega

/-- Before initialisation `rseq_size` is -1U, and both fields are reported unavailable because of the signed comparison. -/
theorem field_availability_before_init : nodeIdAvailable Lib.static = false ∧ mmCidAvailable Lib.static = false := by decide

/-- C47 is false against the registered length when the feature size exceeds 32 (DESIGN F4). -/
theorem size_exceeds_registered : ∃ s, Reach bigEnv s ∧ s.kern 0 = .ours 32 ∧ s.lib.size = 40 := by
  obtain ⟨s1, _, _, h1, _, _, hl, hk, _⟩ := unregister_fails_large_feature
  refine ⟨s1, h1, hk, ?_⟩
  have hi := reach_inv h1
  have ho : s1.lib.own = true := hi.oursOwn 0 32 hk
  rcases hi.size ho with h | h
  · exact absurd (show Event.regRet 0 0 ∈ s1.log by rw [hl]; simp) (hi.zero ho h 0)
  · rw [h]; rfl

/-! ### C48 -/

/-- C48: between initialisation and exit, for every registration state of the calling thread. -/
theorem available_truth_partial {env : Env} {s : Proc} (h : Reach env s) (t : Nat) :
    (rseqAvailable env s.lib (s.kern t) 0 = true ↔ env.kernelHas = true) ∧
    (rseqAvailable env s.lib (s.kern t) 1 = true ↔ LibcOwns env) ∧
    ∀ q, 1 < q → rseqAvailable env s.lib (s.kern t) q = false := by
  have hi := reach_inv h
  refine ⟨Iff.rfl, ?_, ?_⟩
  · unfold rseqAvailable
    simp only [Bool.and_eq_true, decide_eq_true_eq, Bool.not_eq_true', ne_eq]
    constructor
    · rintro ⟨_, h2⟩
      rw [hi.own] at h2
      exact Classical.not_not.1 fun hn => by rw [(init_own env).2 hn] at h2; cases h2
    · intro hl
      have ho : s.lib.own = false := by
        rw [hi.own]
        cases hh : (rseqInit env).own with
        | false => rfl
        | true => exact absurd hl ((init_own env).1 hh)
      refine ⟨?_, ho⟩
      rw [hi.sizeLibc ho]
      obtain ⟨n, hn, hn0⟩ := hl
      have hf := featureSize_pos env
      unfold rseqInit
      rw [hn]
      simp only [ne_eq, hn0, not_false_eq_true, if_true]
      unfold origAlloc
      split
      · split <;> omega
      · exact hn0
  · intro q hq
    unfold rseqAvailable
    split
    · omega
    · omega
    · rfl

/-- C48 is false before initialisation and after `rseq_exit` (DESIGN F6): with no C library support at all, the library
answers that the C library owns the registration. -/
theorem available_wrong_outside_lifetime (env : Env) (r : Reg) :
    rseqAvailable env Lib.static r 1 = true ∧ ((rseqInit env).own = true → rseqAvailable env (rseqExit (rseqInit env)) r 1 = true) := by
  refine ⟨rfl, fun h => ?_⟩
  unfold rseqExit
  rw [if_pos h]
  rfl

/-- C45 is false after `rseq_exit` (DESIGN F6): a register call returns 0 although the thread is not registered and the C
library does not own the registration. -/
theorem register_after_exit_lies : ∃ (s s' : Proc), s.lib = rseqExit (rseqInit ⟨true, 28, none⟩) ∧ s.kern 0 = .none ∧
    Step ⟨true, 28, none⟩ s s' ∧ s'.log = [.regRet 0 0] ∧ s'.kern 0 = .none ∧ ¬ LibcOwns ⟨true, 28, none⟩ := by
  refine ⟨{ lib := rseqExit (rseqInit ⟨true, 28, none⟩), kern := fun _ => .none, pc := fun _ => .idle, log := [], aborted := false }, _,
    rfl, rfl, .regLibc _ 0 rfl rfl rfl, rfl, rfl, ?_⟩
  rintro ⟨n, hn, _⟩
  cases hn

/-! ### C49 -/

/-- C49: on a registered thread the result is the CPU the thread runs on; otherwise it is the answer of `sched_getcpu`;
it is never negative (a failing `sched_getcpu` aborts). -/
theorem current_cpu_truth {reg : Bool} {cpu : Nat} {field : Int} (hf : CpuField reg cpu field) (getcpu : Int) :
    (reg = true → currentCpu field getcpu = some (cpu : Int)) ∧
    (reg = false → currentCpu field getcpu = if getcpu < 0 then none else some getcpu) ∧
    ∀ r, currentCpu field getcpu = some r → 0 ≤ r := by
  unfold currentCpu fallbackCurrentCpu
  cases hf with
  | registered =>
    refine ⟨fun _ => ?_, fun h => (by cases h), fun r h => ?_⟩
    · rw [if_neg (by omega)]
    · rw [if_neg (by omega)] at h; cases h; omega
  | uninitialized =>
    refine ⟨fun h => (by cases h), fun _ => ?_, fun r h => ?_⟩
    · rw [if_pos (by omega)]
    · rw [if_pos (by omega)] at h
      split at h <;> cases h
      omega
  | failed =>
    refine ⟨fun h => (by cases h), fun _ => ?_, fun r h => ?_⟩
    · rw [if_pos (by omega)]
    · rw [if_pos (by omega)] at h
      split at h <;> cases h
      omega

/-! ### Examples -/

def exEnv : Env := { kernelHas := true, auxFeature := 28, libc := some 0 }

/-- C45-C48: two threads register, one unregisters. -/
theorem ex_two_threads : ∃ s, Reach exEnv s ∧ s.log = [.unregRet 0 0, .regRet 1 0, .regRet 0 0] ∧ s.kern 1 = .ours 32 ∧
    s.kern 0 = .none ∧ s.lib.size = 28 ∧ s.pc 0 = .idle ∧ s.pc 1 = .idle ∧ s.aborted = false := by
  have h0 : Reach exEnv _ := .init (fun _ => .none) (fun _ _ h => by cases h)
  have h1 := Reach.step _ _ h0 (.regStart _ 0 rfl rfl rfl)
  have h2 := Reach.step _ _ h1 (.regSysOk _ 0 32 rfl rfl rfl)
  have h3 := Reach.step _ _ h2 (.regStart _ 1 rfl rfl rfl)
  have h4 := Reach.step _ _ h3 (.regDone _ 0 rfl rfl)
  have h5 := Reach.step _ _ h4 (.regSysOk _ 1 32 rfl rfl rfl)
  have h6 := Reach.step _ _ h5 (.regDone _ 1 rfl rfl)
  have h7 := Reach.step _ _ h6 (.unregStart _ 0 rfl rfl rfl)
  have h8 := Reach.step _ _ h7 (.unregSys _ 0 32 rfl rfl)
  exact ⟨_, h8, rfl, rfl, rfl, rfl, rfl, rfl, rfl⟩

/-- C45: on a kernel without rseq a register call returns -1. -/
theorem ex_no_kernel : ∃ s s', Reach ⟨false, 0, none⟩ s ∧ Step ⟨false, 0, none⟩ s s' ∧ s'.log = .regRet 3 (-1) :: s.log := by
  have h0 : Reach ⟨false, 0, none⟩ _ := .init (fun _ => .none) (fun _ _ h => by cases h)
  have h1 := Reach.step _ _ h0 (.regStart _ 3 rfl rfl rfl)
  have h2 := Reach.step _ _ h1 (.regSysFail _ 3 32 rfl rfl)
  exact ⟨_, _, h2, .regMinus _ 3 rfl rfl rfl, rfl⟩

/-- C46: the hypotheses of the two positive theorems are met. -/
example : ∃ s, Reach exEnv s ∧ exEnv.kernelHas = true ∧ featureSize exEnv ≤ origAlloc ∧ s.kern 1 = .ours 32 ∧ s.pc 1 = .idle := by
  obtain ⟨s, h, _, hk, _, _, _, hp, _⟩ := ex_two_threads
  exact ⟨s, h, rfl, by decide, hk, hp⟩

theorem ex_big : ∃ s, Reach bigEnv s ∧ s.kern 1 = .ours (minAlloc (featureSize bigEnv)) ∧ s.lib.size ≠ 0 ∧ s.pc 1 = .idle ∧ s.aborted = false := by
  have h0 : Reach bigEnv _ := .init (fun _ => .none) (fun _ _ h => by cases h)
  have h1 := Reach.step _ _ h0 (.regStart _ 0 rfl rfl rfl)
  have h2 := Reach.step _ _ h1 (.regSysOk _ 0 32 rfl rfl rfl)
  have h3 := Reach.step _ _ h2 (.regDone _ 0 rfl rfl)
  have h4 := Reach.step _ _ h3 (.regStart _ 1 rfl rfl rfl)
  have h5 := Reach.step _ _ h4 (.regSysOk _ 1 40 rfl rfl rfl)
  have h6 := Reach.step _ _ h5 (.regDone _ 1 rfl rfl)
  exact ⟨_, h6, rfl, by decide, rfl, rfl⟩

/-- C47, C48: a C library that owns the registration and advertises 32 bytes on a kernel supporting 28. -/
example : LibcTruthful ⟨true, 28, some 32⟩ 32 ∧ LibcOwns ⟨true, 28, some 32⟩ ∧ (rseqInit ⟨true, 28, some 32⟩).size = 28 :=
  ⟨fun n hn => (by cases hn; exact ⟨fun _ => by decide, fun _ h => absurd rfl h⟩), ⟨32, rfl, by decide⟩, by decide⟩

/-- C45, C47: the hypotheses of `register_abort_truth` and `field_availability_exact` are met. -/
example : ∃ s, Reach { bigEnv with auxFeature := 28 } s ∧ s.aborted = true := by
  obtain ⟨_, _, _, _, s, h, _, ha⟩ := register_twice_aborts
  exact ⟨s, h, ha⟩

example : ∃ s, Reach exEnv s ∧ exEnv.auxFeature ≤ areaSize ∧ ¬ LibcOwns exEnv ∧ .regRet 0 0 ∈ s.log ∧
    mmCidAvailable s.lib = true := by
  obtain ⟨s, h, hl, _⟩ := ex_two_threads
  have ho : ¬ LibcOwns exEnv := by rintro ⟨n, hn, h0⟩; cases hn; exact h0 rfl
  have hm : Event.regRet 0 0 ∈ s.log := by rw [hl]; simp
  exact ⟨s, h, by decide, ho, hm, (field_availability_exact h (by decide) ho hm).2.2 (by decide)⟩

end Verif.Register
