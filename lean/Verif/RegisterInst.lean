import Verif.RegisterProps
import Verif.RegInitProps
import Verif.SyscallProps
import Verif.RseqAreaEx

/-!
# The theorems about registration, applied to concrete executions
-/

namespace Verif.Register.Init

/-- `init_exactly_once`, `init_visible`: three threads called `rseq_init`. -/
example : ∃ s, Reach s ∧ s.runs = 1 ∧ s.pc 2 = .done ∧ ¬ MayReadOld s 2 3 := by
  obtain ⟨s, h, hf, h2, _, h0, h1⟩ := unsynchronised_may_be_stale
  cases hv : s.flag with
  | none => exact absurd hv hf
  | some v =>
    have hr := Reach.step _ _ h (.fast s 2 v (Or.inl h2) hv)
    have hd : (upd s.pc 2 Pc.done) 2 = .done := by simp [upd]
    exact ⟨_, hr, (init_exactly_once hr).2 ⟨2, hd⟩, hd, (init_visible hr 2 hd 3 (by decide)).1⟩

/-- `init_mutex`: thread 0 is in the body, thread 1 waits for the mutex. -/
example : ∃ s, Reach s ∧ s.pc 0 = .body 2 ∧ s.pc 1 = .lock ∧ ∀ u j, s.pc u = .body j → 0 = u := by
  have h0 : Reach _ := .init
  have h1 := Reach.step _ _ h0 (.slow _ 0 rfl)
  have h2 := Reach.step _ _ h1 (.slow _ 1 rfl)
  have h3 := Reach.step _ _ h2 (.lock _ 0 rfl rfl)
  have h4 := Reach.step _ _ h3 (.start _ 0 rfl rfl)
  have h5 := Reach.step _ _ h4 (.store _ 0 0 rfl (by decide))
  have h6 := Reach.step _ _ h5 (.store _ 0 1 rfl (by decide))
  exact ⟨_, h6, rfl, rfl, fun u j hu => init_mutex h6 0 u 2 j rfl hu⟩

end Verif.Register.Init

namespace Verif.Register

/-- The C library owns the registration. -/
def exLibcEnv : Env := ⟨true, 28, some 32⟩

theorem exLibcEnv_owns : LibcOwns exLibcEnv := ⟨32, rfl, by decide⟩

theorem exEnv_not_owns : ¬ LibcOwns exEnv := by rintro ⟨n, hn, h0⟩; cases hn; exact h0 rfl

/-- `register_zero_truth`, `unregister_zero_truth`, `unregister_succeeds_partial`, `rseq_size_bound_partial`,
`field_availability`, `available_truth_partial`. -/
example : ∃ s, Reach exEnv s ∧ (LibcOwns exEnv ∨ ∃ len, s.kern 1 = .ours len) ∧ (∀ len, s.kern 0 ≠ .ours len) ∧
    (∃ s1 s2, Step exEnv s s1 ∧ Step exEnv s1 s2 ∧ s2.log = .unregRet 1 0 :: s.log) := by
  obtain ⟨s, h, hl, k1, k0, _, p0, p1, ha⟩ := ex_two_threads
  obtain ⟨s1, s2, a, b, c, _⟩ := unregister_succeeds_partial h rfl (by decide) ha 1 32 k1 p1
  exact ⟨s, h, register_zero_truth h 1 (by rw [hl]; rfl), unregister_zero_truth h 0 (by rw [hl]; rfl) (by rw [p0]; simp), s1, s2, a, b, c⟩
example : ∃ s, Reach exEnv s ∧ s.lib.size ≤ 28 ∧ (mmCidAvailable s.lib = true → 28 ≤ featureSize exEnv) ∧ rseqAvailable exEnv s.lib (s.kern 1) 0 = true ∧
    rseqAvailable exEnv s.lib (s.kern 1) 1 = false := by
  obtain ⟨s, h, hl, k1, k0, _, p0, p1, ha⟩ := ex_two_threads
  have ht : LibcTruthful exEnv 0 := fun n hn => by cases hn; exact ⟨fun h => absurd rfl h, fun _ _ => ⟨by decide, by decide⟩⟩
  have hav := available_truth_partial h 1
  refine ⟨s, h, (rseq_size_bound_partial h 0 ht (by decide)).1, (field_availability h 0 ht (by decide)).2, hav.1.2 rfl, ?_⟩
  cases hb : rseqAvailable exEnv s.lib (s.kern 1) 1 with
  | false => rfl
  | true => exact absurd (hav.2.1.1 hb) exEnv_not_owns

/-- `register_minus_truth`: a kernel without rseq. -/
example : ∃ s s', Reach ⟨false, 0, none⟩ s ∧ Step ⟨false, 0, none⟩ s s' ∧ s'.log = .regRet 3 (-1) :: s.log ∧ ∀ t', Event.regRet t' 0 ∉ s.log := by
  obtain ⟨s, s', h, hs, hl⟩ := ex_no_kernel
  exact ⟨s, s', h, hs, hl, register_minus_truth h hs 3 hl⟩

/-- `libc_owns_no_registration`: thread 0 called the register function under an owning C library. -/
example : ∃ s, Reach exLibcEnv s ∧ s.log = [.regRet 0 0] ∧ ∀ t len, s.kern t ≠ .ours len := by
  have h0 : Reach exLibcEnv _ := .init (fun _ => .other) (fun _ _ h => by cases h)
  have h1 := Reach.step _ _ h0 (.regLibc _ 0 rfl rfl rfl)
  exact ⟨_, h1, rfl, libc_owns_no_registration h1 exLibcEnv_owns⟩

/-- `unregister_minus_truth`: thread 1 unregisters without having registered. -/
example : ∃ s s', Reach exEnv s ∧ Step exEnv s s' ∧ s'.log = [.unregRet 1 (-1), .regRet 0 0] ∧ ∀ len, s.kern 1 ≠ .ours len := by
  have h0 : Reach exEnv _ := .init (fun _ => .none) (fun _ _ h => by cases h)
  have h1 := Reach.step _ _ h0 (.regStart _ 0 rfl rfl rfl)
  have h2 := Reach.step _ _ h1 (.regSysOk _ 0 32 rfl rfl rfl)
  have h3 := Reach.step _ _ h2 (.regDone _ 0 rfl rfl)
  have h4 := Reach.step _ _ h3 (.unregStart _ 1 rfl rfl rfl)
  obtain ⟨s, h, ha, hp, hl, hk⟩ : ∃ s, Reach exEnv s ∧ s.aborted = false ∧ s.pc 1 = .unregLen 32 ∧ s.log = [.regRet 0 0] ∧
    s.kern 1 = .none := ⟨_, h4, rfl, rfl, rfl, rfl⟩
  have hs := Step.unregSys (env := exEnv) s 1 32 ha hp
  have hu : kUnregister exEnv (s.kern 1) 32 = false := by rw [hk]; rfl
  rw [hu] at hs
  exact ⟨s, _, h, hs, by simp [hl], (unregister_minus_truth h rfl hs 1 rfl).resolve_right (by decide)⟩

/-- `register_abort_truth`: a thread registers twice. -/
example : ∃ s, Reach { bigEnv with auxFeature := 28 } s ∧ s.aborted = true ∧ ∃ t, Event.regRet t 0 ∈ s.log := by
  obtain ⟨_, _, _, _, s, h, _, ha⟩ := register_twice_aborts
  exact ⟨s, h, ha, (register_abort_truth h ha).2⟩

/-- `unregister_succeeds_later_threads`. -/
example : ∃ s s1 s2, Reach bigEnv s ∧ Step bigEnv s s1 ∧ Step bigEnv s1 s2 ∧ s2.log = .unregRet 1 0 :: s.log := by
  obtain ⟨s, h, hk, hsz, hp, ha⟩ := ex_big
  obtain ⟨s1, s2, a, b, c, _⟩ := unregister_succeeds_later_threads h rfl ha 1 hk hsz hp
  exact ⟨s, s1, s2, h, a, b, c⟩

/-- `available_wrong_outside_lifetime`: after `rseq_exit` of a process in which librseq owned the registration. -/
example : rseqAvailable exEnv (rseqExit (rseqInit exEnv)) (.ours 32) 1 = true := (available_wrong_outside_lifetime exEnv (.ours 32)).2 rfl

/-- `current_cpu_truth`: registered on CPU 5; unregistered with `sched_getcpu` answering 3. -/
example : currentCpu 5 3 = some 5 := (current_cpu_truth (.registered 5) 3).1 rfl
example : currentCpu (-1) 3 = some 3 := (current_cpu_truth (.uninitialized 5) 3).2.1 rfl

end Verif.Register

namespace Verif.Area

/-- `get_abi_area`, `cpu_start_possible`, `unregistered_never_matches`, `registered_matches_iff`, `clear_rseq_cs_step`. -/
example (be : Bool) : ∃ s : State 64, Reach (exL be) s ∧ (cpuStart (exL be) s 0).toNat < 4 ∧ (exL be).getAbi 1 = (exL be).area 1 ∧
    ld32 be s.mem ((exL be).getAbi 1 + BitVec.ofNat 64 oCpuId) ≠ 2#32 ∧
    ld32 be s.mem ((exL be).getAbi 0 + BitVec.ofNat 64 oCpuId) = 3#32 ∧ Reach (exL be) { s with mem := clearRseqCs (exL be) s 0 } := by
  obtain ⟨s, h, a0, a1, r0, r1, hp, hl, hn, hm⟩ := ex_run be
  have hF := exL_fits be
  exact ⟨s, h, cpu_start_possible hF h a0 (show (4 : Nat) ≤ 2 ^ 31 by decide), get_abi_area _ 1,
    unregistered_never_matches hF h a1 r1 2#32 (by decide), (registered_matches_iff hF h a0 r0 3#32).2 (by rw [hp]),
    clear_rseq_cs_step (.inr rfl) hF h a0⟩

/-- `register_assertion`. -/
example (be : Bool) : ∃ s : State 64, Reach (exL be) s ∧ s.p.pc 1 = .regOk ∧ 0 ≤ currentCpuRaw (exL be) s 1 := by
  obtain ⟨s, h, a, hp⟩ := ex_reg_ok be
  exact ⟨s, h, hp, register_assertion (exL_fits be) h a (show (4 : Nat) ≤ 2 ^ 31 by decide) hp⟩

/-- `fallback_node_exact`. -/
example : fallbackCurrentNode 0 3#32 = 3 := (fallback_node_exact 0 3#32 (by decide) (by decide)).1 rfl
example : fallbackCurrentNode (-1) 3#32 = -1 := (fallback_node_exact (-1) 3#32 (by decide) (by decide)).2.1 (by decide)

/-- `clear_rseq_cs_exact`: on 32-bit big endian machines the pointer is in the second half of the field. -/
example (s : State 64) : clearRseqCs (exL true) s 0 ((exL true).area 0 + 8#64) = 0#8 :=
  (clear_rseq_cs_exact (.inr rfl) s 0 _).1 0 (by decide) rfl
example (s : State 32) : clearRseqCs { libcL with be := true } s 0 (Layout.area { libcL with be := true } 0 + 12#32) = 0#8 :=
  (clear_rseq_cs_exact (L := { libcL with be := true }) (.inl rfl) s 0 _).1 0 (by decide) rfl

/-- `kernel_stays_in_area_partial`. -/
example (be : Bool) : ∃ s s' : State 64, Reach (exL be) s ∧ KStep (exL be) s s' ∧ s'.mem ≠ s.mem ∧
    s'.mem ((exL be).area 1 + 32#64) = s.mem ((exL be).area 1 + 32#64) := by
  obtain ⟨s, s', h, hs, hne, hx⟩ := ex_kernel_step be
  exact ⟨s, s', h, hs, fun e => hne (by rw [e]), kernel_stays_in_area_partial (exL_fits be) h hs _ hx⟩

end Verif.Area

namespace Verif.Sys

def exReg : TReg 64 := ⟨(exW 28 none).area, 32#32, (exW 28 none).sig⟩
def exSt : St 64 := { lib := ⟨28, true, true⟩, cur := some exReg, mem := fun _ => 0#8, place := exPlace 2 }

theorem exReg_ok : CurOK (some exReg) := by
  rintro r e
  cases e
  exact ⟨by decide, by decide⟩

/-- `recorded`. -/
example : ∃ c, sysRseq (exW 28 none).K none (exW 28 none).area 32#32 0#32 (exW 28 none).sig = .ok c ∧ CurOK c :=
  have h := (register_contract (exW_sane 28 (by omega) none) (len := 32) (cur := none) (by decide) (fun _ => rfl)).1 (by decide)
  ⟨_, h, recorded _ (fun _ e => by cases e) h⟩

/-- `register_len_old`. -/
example : Register.minAlloc 40 ≤ 1024 := (register_len_old (exW_sane 40 (by omega) none) (size := 40) (.inr rfl)).1

/-- `available_exact`, `available_contract`. -/
example : (rseqAvailable (exW 28 none) exSt 0).1 = .ret true ∧ (rseqAvailable (exW 28 none) exSt 0).2.cur = some exReg :=
  have h := available_exact (W := exW 28 none) rfl (s := exSt) exReg_ok
  ⟨h.1, h.2.1⟩
example : (rseqAvailable (exW 28 none) exSt 1).1 = .ret false :=
  (available_contract (exW_sane 28 (by omega) none) rfl (s := exSt) exReg_ok 1).trans rfl

/-- `register_filtered`: a container refuses the call for a second thread. -/
example : registerCurrent (exW 28 (some .EPERM)) { exSt with cur := none } = .abort :=
  (register_filtered (W := exW 28 (some .EPERM)) rfl (s := { exSt with cur := none }) rfl).2 (by decide)

/-- `registered_reads`: after a return to user mode on CPU 2. -/
example : currentCpu (exW 28 none) { exSt with mem := onReturn (exW 28 none) (some exReg) (fun _ => 0x5a#8) (exPlace 2) } = some 2 :=
  (registered_reads (W := exW 28 none) (by decide) (r := exReg) rfl (s := { exSt with mem := onReturn (exW 28 none) (some exReg) (fun _ => 0x5a#8) (exPlace 2) })
    rfl (by decide)).2.2

/-- `unregistered_reads`. -/
example : cpuRaw (exW 28 none) (start (exW 28 none) (fun _ => 0x5a#8) (exPlace 1)) = -1 := unregistered_reads (by decide) rfl _ _

/-- `test_cpus`. -/
example : (testCpus (exW 28 none) exPlace [0, 2, 3] exSt).1 = List.replicate 15 true :=
  (test_cpus (W := exW 28 none) (by decide) (r := exReg) rfl [0, 2, 3]
    (by intro i hi; simp at hi; rcases hi with rfl | rfl | rfl <;> exact ⟨rfl, by decide⟩) exSt rfl).1

/-- `fork_test_libc`: the C library registered the thread with 32 bytes. -/
example : (call (exLibc none) (forkChild (exLibc none) { exSt with cur := some ⟨(exLibc none).abi, 32#32, (exLibc none).sig⟩ } (exPlace 3))
    (exLibc none).abi 32#32 0#32 (exLibc none).sig).1 = some .EBUSY :=
  (fork_test_libc (W := exLibc none) ⟨rfl, rfl⟩ rfl (exPlace 3)).trans rfl

end Verif.Sys
