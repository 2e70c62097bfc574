import Verif.RseqAreaProps
/-
C70, C71: concrete runs that meet the hypotheses.
-/
namespace Verif.Area

/-- Feature size 28 (Linux 6.3); librseq owns the registration; thread 1 has run `rseq_init`. -/
def exL (be : Bool) : Layout 64 where
  env := ⟨true, 28, some 0⟩
  be := be
  tp := fun t => BitVec.ofNat 64 (0x10000 * (t + 1))
  disp := -1024#64
  libcOff := 0#64
  libcLen := 0
  t0 := 1
  ncpu := 4

theorem exL_fits (be : Bool) : Fits (exL be) where
  addr := by omega
  own := fun _ => by cases be <;> decide
  libc := fun h => by cases h

/-- Thread 0 is created on CPU 2, registers, migrates to CPU 3. Thread 1 never registers. -/
theorem ex_run (be : Bool) : ∃ s : State 64, Reach (exL be) s ∧ s.alive 0 = true ∧ s.alive 1 = true ∧
    Registered (exL be) s 0 ∧ ¬ Registered (exL be) s 1 ∧ s.place 0 = ⟨3#32, 1#32, 5#32⟩ ∧
    Register.lastOf 0 s.p.log = some (.regRet 0 0) ∧ Register.nodeIdAvailable s.p.lib = true ∧
    Register.mmCidAvailable s.p.lib = true := by
  have h0 : Reach (exL be) _ := .start (fun _ => 0xaa#8) ⟨0#32, 0#32, 0#32⟩ (by cases be <;> (unfold PlaceOK; decide))
  have h1 := Reach.step h0 (.create _ 0 ⟨2#32, 0#32, 1#32⟩ rfl (by
    intro u x hu hx
    have : u = 1 := by simpa [State.start, exL] using hu
    subst this
    unfold InArea at *
    have e0 : (exL be).area 0 = 0x10000#64 - 1024#64 := by cases be <;> decide
    have e1 : (exL be).area 1 = 0x20000#64 - 1024#64 := by cases be <;> decide
    have ea : (exL be).alloc = 32 := by cases be <;> decide
    rw [e1, ea] at hx
    rw [e0, ea]
    intro h2
    simp only [BitVec.toNat_sub, BitVec.toNat_ofNat] at hx h2
    omega) (by cases be <;> (unfold PlaceOK; decide)))
  have h2 := Reach.step h1 (.lib _ _ (.regStart _ 0 rfl rfl rfl) rfl (by
    intro u hu
    have : u ≠ 0 := by rintro rfl; simp [upd] at hu
    simp [Register.upd, this]))
  have h3 := Reach.step h2 (.kernel (.register _ 0 32 (fun _ => 0#8) rfl rfl rfl rfl))
  have h4 := Reach.step h3 (.lib _ _ (.regDone _ 0 rfl rfl) rfl (by
    intro u hu
    have : u ≠ 0 := by rintro rfl; simp [upd] at hu
    simp [Register.upd, this]))
  have h5 := Reach.step h4 (.kernel (.resume _ 0 ⟨3#32, 1#32, 5#32⟩ (fun _ => 0#8) rfl (by cases be <;> (unfold PlaceOK; decide))))
  refine ⟨_, h5, rfl, rfl, .inl ⟨rfl, 32, rfl⟩, ?_, rfl, rfl, ?_, ?_⟩
  · rintro (⟨_, len, h⟩ | ⟨h, _⟩)
    · cases h
    · cases h
  · show Register.nodeIdAvailable ⟨28, true, true⟩ = true
    decide
  · show Register.mmCidAvailable ⟨28, true, true⟩ = true
    decide

/-- The theorems apply to it, in both byte orders. -/
example (be : Bool) : ∃ s : State 64, Reach (exL be) s ∧ rseqCurrentCpu (exL be) s 0 7 = some 3 ∧
    rseqCurrentCpu (exL be) s 1 7 = some 7 ∧ cpuStart (exL be) s 1 = 0#32 ∧ currentCpuRaw (exL be) s 1 = -1 ∧
    currentNodeId (exL be) s 0 = some 1#32 ∧ currentMmCid (exL be) s 0 = 5#32 := by
  obtain ⟨s, h, a0, a1, r0, r1, hp, hl, hn, hm⟩ := ex_run be
  have hF := exL_fits be
  have ht : Register.LibcTruthful (exL be).env (exL be).libcLen := by
    intro n hn
    cases hn
    exact ⟨fun h => absurd rfl h, fun _ _ => ⟨by cases be <;> decide, Nat.le_refl _⟩⟩
  have hc : (exL be).ncpu ≤ 2 ^ 31 := by show 4 ≤ 2 ^ 31; omega
  refine ⟨s, h, ?_, ?_, (unregistered_fields hF h a1 r1).1, ?_, ?_, ?_⟩
  · rw [(after_register hF h a0 hc rfl hl 7).1, hp]; rfl
  · rw [(current_cpu_exact hF h a1 hc 7).2 r1]; rfl
  · rw [(unregistered_fields hF h a1 r1).2.1]; rfl
  · rw [node_id_exact hF h a0 r0 hc ht (by cases be <;> decide), if_pos hn, hp]
  · rw [mm_cid_exact hF h a0 r0 hc ht (by cases be <;> decide) hm, hp]

/-- In the middle of a registration: `rseq_register_current_thread` is about to check the assertion. -/
theorem ex_reg_ok (be : Bool) : ∃ s : State 64, Reach (exL be) s ∧ s.alive 1 = true ∧ s.p.pc 1 = .regOk := by
  have h0 : Reach (exL be) _ := .start (fun _ => 0xaa#8) ⟨0#32, 0#32, 0#32⟩ (by cases be <;> (unfold PlaceOK; decide))
  have h2 := Reach.step h0 (.lib _ _ (.regStart _ 1 rfl rfl rfl) rfl (by
    intro u hu
    have : u ≠ 1 := by rintro rfl; simp [State.start, exL] at hu
    simp [Register.upd, this]))
  exact ⟨_, .step h2 (.kernel (.register _ 1 32 (fun _ => 0#8) rfl rfl rfl rfl)), rfl, rfl⟩

/-- The C library owns the registration (glibc 2.35 to 2.39 report 32); its area lies after the thread pointer. -/
def libcL : Layout 32 where
  env := ⟨true, 28, some 32⟩
  be := true
  tp := fun t => BitVec.ofNat 32 (0x1000 * (t + 1))
  disp := 0#32
  libcOff := 64#32
  libcLen := 32
  t0 := 0
  ncpu := 2

theorem libcL_fits : Fits libcL where
  addr := by omega
  own := fun h => by cases h
  libc := fun _ => by decide

example : ∃ s : State 32, Reach libcL s ∧ s.alive 0 = true ∧ Registered libcL s 0 ∧ currentCpuRaw libcL s 0 = 1 ∧
    currentMmCid libcL s 0 = 9#32 := by
  have h0 : Reach libcL _ := .start (fun _ => 0#8) ⟨0#32, 0#32, 0#32⟩ (by unfold PlaceOK; decide)
  have h1 := Reach.step h0 (.kernel (.libcRegister _ 0 (fun _ => 0#8) rfl rfl rfl rfl))
  have h2 := Reach.step h1 (.kernel (.resume _ 0 ⟨1#32, 0#32, 9#32⟩ (fun _ => 0#8) rfl (by unfold PlaceOK; decide)))
  have hf := registered_fields libcL_fits h2 (t := 0) rfl (.inr ⟨rfl, rfl⟩) (by decide)
  exact ⟨_, h2, rfl, .inr ⟨rfl, rfl⟩, hf.2.1, by rw [hf.2.2.2]; rfl⟩

/-- The C library's registration fails. -/
example : ∃ s : State 32, Reach libcL s ∧ currentCpuRaw libcL s 0 = -2 := by
  have h0 : Reach libcL _ := .start (fun _ => 0#8) ⟨0#32, 0#32, 0#32⟩ (by unfold PlaceOK; decide)
  have h1 := Reach.step h0 (.libcFails _ 0 rfl rfl rfl)
  refine ⟨_, h1, ?_⟩
  rw [(unregistered_fields libcL_fits h1 rfl (by rintro (⟨h, _⟩ | ⟨_, h⟩) <;> cases h)).2.1]
  rfl

/-- C71: a kernel step in a process that fits. -/
theorem ex_kernel_step (be : Bool) : ∃ s s' : State 64, Reach (exL be) s ∧ KStep (exL be) s s' ∧
    s'.mem ((exL be).area 1 + 4#64) ≠ s.mem ((exL be).area 1 + 4#64) ∧
    ∀ t, s.alive t = true → ¬ InArea (exL be) t ((exL be).area 1 + 32#64) := by
  have h0 : Reach (exL be) _ := .start (fun _ => 0xaa#8) ⟨0#32, 0#32, 0#32⟩ (by cases be <;> (unfold PlaceOK; decide))
  have h2 := Reach.step h0 (.lib _ _ (.regStart _ 1 rfl rfl rfl) rfl (by
    intro u hu
    have : u ≠ 1 := by rintro rfl; simp [State.start, exL] at hu
    simp [Register.upd, this]))
  refine ⟨_, _, h2, .register _ 1 32 (fun _ => 0#8) rfl rfl rfl rfl, ?_, ?_⟩
  · cases be <;> decide
  · intro t ht
    have : t = 1 := by simpa [State.start, exL] using ht
    subst this
    unfold InArea
    cases be <;> decide

end Verif.Area
