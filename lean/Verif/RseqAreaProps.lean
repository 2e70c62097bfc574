import Verif.RseqAreaInv
import Verif.RegisterProps
/-
C70: the accessors read the area of the calling thread, and what they return.
C71: the areas are large enough for what the kernel stores.
-/
namespace Verif.Area

open Verif.Register (Env Reg Proc Lib featureSize rseqInit minAlloc nodeIdAvailable mmCidAvailable LibcTruthful)

variable {n : Nat} {L : Layout n}

/-- The area of the thread is registered with the kernel. -/
def Registered (L : Layout n) (s : State n) (t : Nat) : Prop :=
  (L.own = true ∧ ∃ len, s.p.kern t = .ours len) ∨ (L.own = false ∧ s.libc t = .ok)

theorem registered_len {s : State n} {t : Nat} : Registered L s t ↔ ∃ len, regLen L s t = some len := by
  unfold Registered regLen
  cases ho : L.own
  · cases hl : s.libc t <;> simp
  · cases hk : s.p.kern t <;> simp

theorem not_registered_len {s : State n} {t : Nat} (h : ¬ Registered L s t) : regLen L s t = none := by
  cases hr : regLen L s t with
  | none => rfl
  | some len => exact absurd (registered_len.2 ⟨len, hr⟩) h

/-- C70: `rseq_get_abi()` is the area that is registered for the calling thread, whichever thread has run `rseq_init`,
and whether librseq or the C library owns the registration. -/
theorem get_abi_area (L : Layout n) (t : Nat) : L.getAbi t = L.area t := by
  unfold Layout.getAbi Layout.area Layout.offset
  by_cases h : L.own = true
  · simp only [h, if_true]
    congr 1
    rw [BitVec.add_comm, BitVec.add_sub_cancel]
  · rw [if_neg h, if_neg h]

section
variable {s : State n} {t : Nat}

theorem want_reg (hr : Registered L s t) : want L s t =
    img L.be (featureSize L.env) (s.place t).cpu (s.place t).cpu (s.place t).node (s.place t).cid := by
  obtain ⟨len, hl⟩ := registered_len.1 hr
  unfold want; rw [hl]

theorem want_unreg (hr : ¬ Registered L s t) : want L s t =
    img L.be (featureSize L.env) 0#32 (idleId L s t) 0#32 0#32 := by
  unfold want; rw [not_registered_len hr]

theorem img_start {be : Bool} {F : Nat} {a b c d : BitVec 32} {j : Nat} (hj : j < 4) :
    img be F a b c d (oCpuIdStart + j) = some (byteOf be a j) := by
  unfold img oCpuIdStart; rw [if_pos (by omega), Nat.zero_add]

theorem img_id {be : Bool} {F : Nat} {a b c d : BitVec 32} {j : Nat} (hj : j < 4) :
    img be F a b c d (oCpuId + j) = some (byteOf be b j) := by
  unfold img oCpuId; rw [if_neg (by omega), if_pos (by omega), Nat.add_sub_cancel_left]

theorem img_node {be : Bool} {F : Nat} {a b c d : BitVec 32} {j : Nat} (hj : j < 4) :
    img be F a b c d (oNodeId + j) = some (byteOf be (if 24 ≤ F then c else 0#32) j) := by
  unfold img oNodeId
  rw [if_neg (by omega), if_neg (by omega), if_neg (by omega), if_pos (by omega), Nat.add_sub_cancel_left]

theorem img_cid {be : Bool} {F : Nat} {a b c d : BitVec 32} {j : Nat} (hj : j < 4) :
    img be F a b c d (oMmCid + j) = some (byteOf be (if 28 ≤ F then d else 0#32) j) := by
  unfold img oMmCid
  rw [if_neg (by omega), if_neg (by omega), if_neg (by omega), if_neg (by omega), if_pos (by omega),
    Nat.add_sub_cancel_left]

/-- C70: on a registered thread `cpu_id_start` and `cpu_id` are the CPU on which the thread runs, and `node_id` and
`mm_cid` its NUMA node and concurrency ID if the kernel maintains them, otherwise 0. -/
theorem registered_fields (hF : Fits L) (h : Reach L s) (ht : s.alive t = true) (hr : Registered L s t)
    (hc : L.ncpu ≤ 2 ^ 31) :
    cpuStart L s t = (s.place t).cpu ∧ currentCpuRaw L s t = ((s.place t).cpu.toNat : Int) ∧
    ld32 L.be s.mem (L.getAbi t + BitVec.ofNat n oNodeId) =
      (if 24 ≤ featureSize L.env then (s.place t).node else 0#32) ∧
    currentMmCid L s t = (if 28 ≤ featureSize L.env then (s.place t).cid else 0#32) := by
  have hi := h.inv hF
  have hf := hi.flds t ht
  rw [want_reg hr] at hf
  have hp := hi.place t ht
  unfold PlaceOK at hp
  refine ⟨?_, ?_, ?_, ?_⟩
  · unfold cpuStart; rw [get_abi_area]
    exact hf.ld32 _ _ (by decide) fun j hj => img_start hj
  · unfold currentCpuRaw; rw [get_abi_area, hf.ld32 (be := L.be) oCpuId _ (by decide) fun j hj => img_id hj]
    exact BitVec.toInt_eq_toNat_of_lt (by omega)
  · rw [get_abi_area]; exact hf.ld32 _ _ (by decide) fun j hj => img_node hj
  · unfold currentMmCid; rw [get_abi_area]; exact hf.ld32 _ _ (by decide) fun j hj => img_cid hj

/-- C70: on a thread that is not registered `cpu_id_start` is 0 and `cpu_id` is -1, or -2 if the C library's
registration has failed; `node_id` and `mm_cid` are 0. (In programs that index by concurrency ID a thread that is not
registered thus passes for the one with ID 0, DESIGN F3.) -/
theorem unregistered_fields (hF : Fits L) (h : Reach L s) (ht : s.alive t = true) (hr : ¬ Registered L s t) :
    cpuStart L s t = 0#32 ∧
    currentCpuRaw L s t = (if L.own = false ∧ s.libc t = .failed then -2 else -1) ∧
    ld32 L.be s.mem (L.getAbi t + BitVec.ofNat n oNodeId) = 0#32 ∧ currentMmCid L s t = 0#32 := by
  have hi := h.inv hF
  have hf := hi.flds t ht
  rw [want_unreg hr] at hf
  refine ⟨?_, ?_, ?_, ?_⟩
  · unfold cpuStart; rw [get_abi_area]
    exact hf.ld32 _ _ (by decide) fun j hj => img_start hj
  · unfold currentCpuRaw; rw [get_abi_area, hf.ld32 (be := L.be) oCpuId _ (by decide) fun j hj => img_id hj]
    unfold idleId
    cases L.own <;> cases s.libc t <;> decide
  · rw [get_abi_area, hf.ld32 (be := L.be) oNodeId _ (by decide) fun j hj => img_node hj]; split <;> rfl
  · unfold currentMmCid
    rw [get_abi_area, hf.ld32 (be := L.be) oMmCid _ (by decide) fun j hj => img_cid hj]; split <;> rfl

/-- C70: `rseq_cpu_start()` is a possible CPU number on every thread, registered or not ("Returns a possible CPU
number"); it can be used as an index. -/
theorem cpu_start_possible (hF : Fits L) (h : Reach L s) (ht : s.alive t = true) (hc : L.ncpu ≤ 2 ^ 31) :
    (cpuStart L s t).toNat < L.ncpu := by
  have hp := (h.inv hF).place t ht
  unfold PlaceOK at hp
  by_cases hr : Registered L s t
  · rw [(registered_fields hF h ht hr hc).1]; exact hp
  · rw [(unregistered_fields hF h ht hr).1]; simp; omega

/-- C70: `rseq_current_cpu()`. -/
theorem current_cpu_exact (hF : Fits L) (h : Reach L s) (ht : s.alive t = true) (hc : L.ncpu ≤ 2 ^ 31) (getcpu : Int) :
    (Registered L s t → rseqCurrentCpu L s t getcpu = some ((s.place t).cpu.toNat : Int)) ∧
    (¬ Registered L s t → rseqCurrentCpu L s t getcpu = if getcpu < 0 then none else some getcpu) := by
  unfold rseqCurrentCpu Register.currentCpu Register.fallbackCurrentCpu
  refine ⟨fun hr => ?_, fun hr => ?_⟩
  · rw [(registered_fields hF h ht hr hc).2.1, if_neg (by omega)]
  · rw [(unregistered_fields hF h ht hr).2.1, if_pos (by split <;> omega)]

/-- C70: "A restartable sequence executed from a non-registered thread will always fail" (rseq.h:113-114): the `cpu_id`
of such a thread equals no CPU number that a caller may pass. -/
theorem unregistered_never_matches (hF : Fits L) (h : Reach L s) (ht : s.alive t = true) (hr : ¬ Registered L s t)
    (c : BitVec 32) (hc : c.toNat < 2 ^ 31) :
    ld32 L.be s.mem (L.getAbi t + BitVec.ofNat n oCpuId) ≠ c := by
  intro he
  have h1 := (unregistered_fields hF h ht hr).2.1
  unfold currentCpuRaw at h1
  rw [he, BitVec.toInt_eq_toNat_of_lt (by omega)] at h1
  split at h1 <;> omega

/-- C70: a check that `cpu_id` still is the number read before, as a helper does it, succeeds on a registered thread
exactly on that CPU. -/
theorem registered_matches_iff (hF : Fits L) (h : Reach L s) (ht : s.alive t = true) (hr : Registered L s t)
    (c : BitVec 32) :
    ld32 L.be s.mem (L.getAbi t + BitVec.ofNat n oCpuId) = c ↔ (s.place t).cpu = c := by
  have hf := (h.inv hF).flds t ht
  rw [want_reg hr] at hf
  rw [get_abi_area, hf.ld32 (be := L.be) oCpuId _ (by decide) fun j hj => img_id hj]

/-- C70: the assertion after a successful registration (rseq.c:177) holds. -/
theorem register_assertion (hF : Fits L) (h : Reach L s) (ht : s.alive t = true) (hc : L.ncpu ≤ 2 ^ 31)
    (hp : s.p.pc t = .regOk) : 0 ≤ currentCpuRaw L s t := by
  have hi := h.inv hF
  obtain ⟨ho, hk⟩ := (Register.reach_inv hi.p).pcOk t hp
  rw [hi.ownEq] at ho
  rw [(registered_fields hF h ht (.inl ⟨ho, hk⟩) hc).2.1]
  omega

/-- C70: after `rseq_register_current_thread` has returned 0 in a process in which librseq owns the registration, and
until the thread unregisters, `rseq_current_cpu` and `rseq_cpu_start` tell the CPU. -/
theorem after_register (hF : Fits L) (h : Reach L s) (ht : s.alive t = true) (hc : L.ncpu ≤ 2 ^ 31)
    (ho : L.own = true) (hl : Register.lastOf t s.p.log = some (.regRet t 0)) (getcpu : Int) :
    rseqCurrentCpu L s t getcpu = some ((s.place t).cpu.toNat : Int) ∧ cpuStart L s t = (s.place t).cpu := by
  have hi := h.inv hF
  have hr : Registered L s t := by
    rcases Register.register_zero_truth hi.p t hl with hx | hx
    · exact absurd hx ((Register.init_own L.env).1 ho)
    · exact .inl ⟨ho, hx⟩
  exact ⟨(current_cpu_exact hF h ht hc getcpu).1 hr, (registered_fields hF h ht hr hc).1⟩

/-- C70: `rseq_current_node_id()` aborts exactly if the node is reported unavailable; otherwise it is the node. -/
theorem node_id_exact (hF : Fits L) (h : Reach L s) (ht : s.alive t = true) (hr : Registered L s t)
    (hc : L.ncpu ≤ 2 ^ 31) (htr : LibcTruthful L.env L.libcLen) (haux : L.env.auxFeature ≤ 1024) :
    currentNodeId L s t = if nodeIdAvailable s.p.lib then some (s.place t).node else none := by
  unfold currentNodeId
  by_cases ha : nodeIdAvailable s.p.lib = true
  · rw [if_pos ha, if_pos ha]
    have := (Register.field_availability (h.inv hF).p _ htr haux).1 ha
    rw [(registered_fields hF h ht hr hc).2.2.1, if_pos this]
  · rw [if_neg ha, if_neg ha]

/-- C70: `rseq_current_mm_cid()` is the concurrency ID if it is reported available. -/
theorem mm_cid_exact (hF : Fits L) (h : Reach L s) (ht : s.alive t = true) (hr : Registered L s t)
    (hc : L.ncpu ≤ 2 ^ 31) (htr : LibcTruthful L.env L.libcLen) (haux : L.env.auxFeature ≤ 1024)
    (ha : mmCidAvailable s.p.lib = true) : currentMmCid L s t = (s.place t).cid := by
  rw [(registered_fields hF h ht hr hc).2.2.2, if_pos ((Register.field_availability (h.inv hF).p _ htr haux).2 ha)]

/-- C70: `rseq_fallback_current_node()` is the node that `getcpu` stores, or the system call's (negative) result. -/
theorem fallback_node_exact (ret : Int) (node : BitVec 32) (hret : ret ≤ 0) (hn : node.toNat < 2 ^ 31) :
    (ret = 0 → fallbackCurrentNode ret node = node.toNat) ∧
    (ret ≠ 0 → fallbackCurrentNode ret node = ret) ∧ (fallbackCurrentNode ret node < 0 ↔ ret ≠ 0) := by
  unfold fallbackCurrentNode
  have := BitVec.toInt_eq_toNat_of_lt (x := node) (by omega)
  by_cases h : ret = 0
  · simp [h]; omega
  · simp [h]; omega

/-! ### Stores -/

/-- C70: `rseq_clear_rseq_cs` / `rseq_prepare_unload`: the pointer in the caller's area is NULL afterwards, all bytes
outside the `rseq_cs` field of this area are unchanged. -/
theorem clear_rseq_cs_exact (hn : n = 32 ∨ n = 64) (s : State n) (t : Nat) (x : BitVec n) :
    (∀ j, j < n / 8 → x = L.area t + BitVec.ofNat n (8 + (if n = 32 ∧ L.be = true then 4 else 0) + j) →
      clearRseqCs L s t x = 0#8) ∧
    (¬ (8 ≤ (x - L.area t).toNat ∧ (x - L.area t).toNat < 16) → clearRseqCs L s t x = s.mem x) := by
  have hp : 2 ^ 32 ≤ 2 ^ n := Nat.pow_le_pow_right (by omega) (by omega)
  unfold clearRseqCs
  rw [get_abi_area]
  refine ⟨fun j hj hx => ?_, fun hx => ?_⟩
  · subst hx
    unfold fill oRseqCs
    rw [off_toNat _ (by split <;> omega)]
    by_cases hb : n = 32 ∧ L.be = true
    · simp only [if_pos hb]
      rw [if_pos (by omega)]
    · simp only [if_neg hb]
      rw [if_pos (by omega)]
  · apply fill_out
    rw [if_neg]
    unfold oRseqCs
    split <;> omega

/-- C70: and no field that another accessor reads changes in any thread: the store is one that the program may do. -/
theorem clear_rseq_cs_step (hn : n = 32 ∨ n = 64) (hF : Fits L) (h : Reach L s) (ht : s.alive t = true) :
    Reach L { s with mem := clearRseqCs L s t } := by
  refine .step h (.user s _ ?_)
  intro u x hu hx hno
  apply (clear_rseq_cs_exact hn s t x).2
  unfold oRseqCs oNodeId at hno
  by_cases hut : u = t
  · subst hut; omega
  · have hd := (h.inv hF).disj u t x hu ht hut hx
    have := hF.alloc
    unfold InArea at hd
    unfold abiSize at this
    omega

end

/-! ### C71 -/

/-- C71, partial (missing: feature sizes above 32, see `kernel_overwrites_neighbour`): the kernel changes no byte outside
the area of the thread for which it acts. -/
theorem kernel_stays_in_area_partial (hF : Fits L) {s s' : State n} (h : Reach L s) (hs : KStep L s s') (x : BitVec n)
    (hx : ∀ t, s.alive t = true → ¬ InArea L t x) : s'.mem x = s.mem x := by
  have hi := h.inv hF
  have out : ∀ t (g : Nat → Option Byte), s.alive t = true → (∀ o b, g o = some b → o < L.alloc) →
      fill s.mem (L.area t) g x = s.mem x := by
    intro t g ht hg
    apply fill_out
    cases hgo : g (x - L.area t).toNat with
    | none => rfl
    | some b => exact absurd (hg _ _ hgo) (hx t ht)
  cases hs with
  | register t len ext hal hab hp hk =>
    have hown : L.own = true := by rw [← hi.ownEq]; exact ((Register.reach_inv hi.p).pcLen t len (.inl hp)).1
    exact out t _ hal fun o b => kImage_lt hF (by intro hx; rw [hx] at hown; simp at hown)
  | unregister t len hal =>
    have := hF.alloc
    exact out t _ hal fun o b hg => by have := kReset_lt hg; omega
  | resume t pl ext hal hpl =>
    dsimp only
    unfold toUser
    cases hr : regLen L s t with
    | none => rfl
    | some len =>
      refine out t _ hal fun o b => kImage_lt hF ?_
      intro ho
      unfold regLen at hr
      rw [if_neg (by simp [ho])] at hr
      split at hr
      · injection hr with hr; exact hr.symm
      · simp at hr
  | libcRegister t ext hal => exact out t _ hal fun o b => kImage_lt hF fun _ => rfl

/-- A process on a kernel with 40 bytes of features; librseq owns the registration. -/
def bigL : Layout 64 where
  env := ⟨true, 40, none⟩
  be := false
  tp := fun t => BitVec.ofNat 64 (0x10000 * (t + 1))
  disp := -1024#64
  libcOff := 0#64
  libcLen := 0
  t0 := 0
  ncpu := 2

/-- C71 is false (DESIGN F30): the comment at rseq.c:66-71 takes the alignment for a size. The second thread to register
passes the kernel's feature size, 40, as length although its variable has 32 bytes. The kernel then stores at the 33rd byte:
into whatever thread-local variable follows. -/
theorem kernel_overwrites_neighbour : ∃ s s', Reach bigL s ∧ KStep bigL s s' ∧ s.p.kern 1 = .none ∧
    s'.p.kern 1 = .ours 40 ∧ (∀ t x, x = bigL.area 1 + 32#64 → s.alive t = true → ¬ InArea bigL t x) ∧
    s'.mem (bigL.area 1 + 32#64) ≠ s.mem (bigL.area 1 + 32#64) := by
  have ho : bigL.own = true := rfl
  have h0 : Reach bigL _ := .start (fun _ => 0#8) ⟨0#32, 0#32, 0#32⟩ (by unfold PlaceOK; decide)
  have h1 := Reach.step h0 (.create _ 1 ⟨1#32, 0#32, 1#32⟩ (by decide) (by
    intro u x hu hx
    have : u = 0 := by simpa [State.start, bigL] using hu
    subst this
    unfold InArea at *
    have e0 : bigL.area 0 = 0x10000#64 - 1024#64 := by decide
    have e1 : bigL.area 1 = 0x20000#64 - 1024#64 := by decide
    have ea : bigL.alloc = 32 := by decide
    rw [e0, ea] at hx
    rw [e1, ea]
    intro h2
    simp only [BitVec.toNat_sub, BitVec.toNat_ofNat] at hx h2
    omega) (by unfold PlaceOK; decide))
  have h2 := Reach.step h1 (.lib _ _ (.regStart _ 0 rfl rfl rfl) rfl (by
    intro u hu
    have : u ≠ 0 := by rintro rfl; simp [State.start, upd, bigL] at hu
    simp [Register.upd, this]))
  have h3 := Reach.step h2 (.kernel (.register _ 0 32 (fun _ => 0#8) rfl rfl rfl rfl))
  have h4 := Reach.step h3 (.lib _ _ (.regDone _ 0 rfl rfl) rfl (by
    intro u hu
    have : u ≠ 0 := by rintro rfl; simp [State.start, upd, bigL] at hu
    simp [Register.upd, this]))
  have h5 := Reach.step h4 (.lib _ _ (.regStart _ 1 rfl rfl rfl) rfl (by
    intro u hu
    have : u ≠ 1 := by rintro rfl; simp [upd] at hu
    simp [Register.upd, this]))
  refine ⟨_, _, h5, .register _ 1 40 (fun _ => 7#8) rfl rfl rfl rfl, rfl, rfl, ?_, ?_⟩
  · intro t x hx hal
    subst hx
    have : t = 0 ∨ t = 1 := by
      by_cases h1 : t = 1
      · exact .inr h1
      · left
        simpa [State.start, upd, h1, bigL] using hal
    unfold InArea
    rcases this with rfl | rfl <;> decide
  · decide

end Verif.Area
