import Verif.Syscall
import Verif.RseqAreaProps
/-
C76: what librseq relies on when it calls rseq(2), and `rseq_available`.
C77: the project's own registration tests.
-/
namespace Verif.Sys

open Verif.Register (Env Lib Reg featureSize rseqInit minAlloc kRegister kUnregister kProbe origAlloc)
open Verif.Area (Mem Place Byte Layout Holds fill kImage kReset tlsImage ld32 oCpuId oCpuIdStart byteOf)

variable {n : Nat} {W : World n}

/-! ### Specification -/

/-- What a correct Linux system and tool chain provide: `__rseq_abi` is aligned as rseq.c:74 asks, somewhere in user
space; the auxiliary vector describes the kernel's structure; the assertions of rseq.c:143-146 hold. -/
structure Sane (W : World n) : Prop where
  addr : 32 ≤ n
  areaAligned : W.area.toNat % 1024 = 0
  areaNonzero : W.area ≠ 0#n
  areaUser : W.area.toNat + 1024 ≤ W.K.userEnd
  align : W.K.structAlign ∣ 1024
  has : W.L.env.kernelHas = (W.K.has && W.K.filter.isNone)
  auxOld : W.K.legacy = true → W.L.env.auxFeature = 0
  auxNew : W.K.legacy = false → W.L.env.auxFeature = W.K.structEnd ∧ 20 ≤ W.K.structEnd ∧ W.K.structEnd ≤ 1024

/-- What a kernel can have recorded. -/
def CurOK (cur : Option (TReg n)) : Prop := ∀ r, cur = some r → r.ptr ≠ 0#n ∧ 32 ≤ r.len.toNat

/-- The view of `Register.lean`. -/
def view (W : World n) (cur : Option (TReg n)) : Reg :=
  match cur with
  | none => .none
  | some r => if r.ptr = W.area ∧ r.sig = W.sig then .ours r.len.toNat else .other

/-! ### C76 -/

theorem flags_reg : (0#32 &&& unregisterFlag ≠ 0#32) = False := by simp
theorem flags_unreg : (unregisterFlag &&& unregisterFlag ≠ 0#32) = True := by simp [unregisterFlag]
theorem flags_unreg_rest : (unregisterFlag &&& ~~~ unregisterFlag ≠ 0#32) = False := by simp [unregisterFlag]

theorem shapeOk_len {K : Kernel n} {ptr : BitVec n} {len : BitVec 32} (h : shapeOk K ptr len = true) : 32 ≤ len.toNat := by
  unfold shapeOk at h
  by_cases hl : K.legacy = true
  · rw [if_pos hl] at h
    simp only [Bool.and_eq_true, beq_iff_eq] at h
    rw [h.1]; decide
  · rw [if_neg hl] at h
    by_cases h32 : len = 32#32
    · rw [h32]; decide
    · rw [if_neg (by simpa using h32)] at h
      simp only [Bool.and_eq_true, decide_eq_true_eq] at h
      exact h.1.1

/-- C76: whatever sequence of system calls the threads of a process make, the kernel never records a null pointer or a
length below 32. -/
theorem recorded (K : Kernel n) {cur c : Option (TReg n)} {ptr : BitVec n} {len flags sig : BitVec 32} (h : CurOK cur)
    (he : sysRseq K cur ptr len flags sig = .ok c) : CurOK c := by
  unfold sysRseq at he
  cases hf : K.filter with
  | some e => rw [hf] at he; cases he
  | none =>
    rw [hf] at he
    dsimp only at he
    by_cases hh : K.has = false
    · rw [if_pos hh] at he; cases he
    rw [if_neg hh] at he
    by_cases h1 : flags &&& unregisterFlag ≠ 0#32
    · rw [if_pos h1] at he
      split at he
      · cases he
      · cases cur with
        | none => cases he
        | some r =>
          dsimp only at he
          repeat' split at he
          all_goals first | cases he; done | skip
          cases he
          intro r hr; cases hr
    · rw [if_neg h1] at he
      split at he
      · cases he
      · cases cur with
        | some r =>
          dsimp only at he
          repeat' split at he
          all_goals cases he
        | none =>
          dsimp only at he
          by_cases hs : shapeOk K ptr len = false
          · rw [if_pos hs] at he; cases he
          rw [if_neg hs] at he
          split at he
          · cases he
          · injection he with he
            subst he
            intro r hr
            by_cases h0 : ptr = 0#n
            · rw [if_pos h0] at hr; cases hr
            · rw [if_neg h0] at hr
              injection hr with hr
              subst hr
              exact ⟨h0, shapeOk_len (by simpa using hs)⟩

theorem shape_area (hs : Sane W) {len : BitVec 32} : shapeOk W.K W.area len =
    (decide (32 ≤ len.toNat) && (len == 32#32 || (!W.K.legacy && decide (W.K.structEnd ≤ len.toNat)))) := by
  have h32 : aligned W.area 32 = true := by
    unfold aligned
    have := hs.areaAligned
    rw [beq_iff_eq]
    omega
  have hal : aligned W.area W.K.structAlign = true := by
    unfold aligned
    rw [beq_iff_eq]
    exact Nat.mod_eq_zero_of_dvd (Nat.dvd_trans hs.align (Nat.dvd_of_mod_eq_zero hs.areaAligned))
  unfold shapeOk
  rw [h32, hal]
  by_cases hlen : len = 32#32
  · subst hlen
    cases W.K.legacy <;> simp
  · have : (len == 32#32) = false := by simpa using hlen
    rw [this]
    cases W.K.legacy <;> simp

/-- C76: the registration that librseq asks for (rseq.c:164) succeeds exactly in the cases that `Register.lean` allows, and
then the kernel has recorded the thread's area with this length. (Before Linux 6.3 a length other than 32 is refused; librseq
passes none, see `register_len_old`.) -/
theorem register_contract (hs : Sane W) {cur : Option (TReg n)} {len : BitVec 32} (hl : len.toNat ≤ 1024)
    (hold : W.K.legacy = true → len = 32#32) :
    (kRegister W.L.env (view W cur) len.toNat = true →
      sysRseq W.K cur W.area len 0#32 W.sig = .ok (some ⟨W.area, len, W.sig⟩)) ∧
    (kRegister W.L.env (view W cur) len.toNat = false →
      ∃ e, sysRseq W.K cur W.area len 0#32 W.sig = .error e) := by
  have hh := hs.has
  have hu := hs.areaUser
  have h0 := hs.areaNonzero
  unfold kRegister sysRseq
  rw [hh]
  cases hf : W.K.filter with
  | some e => simp
  | none =>
    cases hk : W.K.has with
    | false => simp
    | true =>
      simp only [Option.isNone_none, Bool.and_true, Bool.true_and, Bool.true_eq_false, if_false, flags_reg, ne_eq,
        not_true_eq_false, shape_area hs]
      cases cur with
      | some r =>
        have hv : (view W (some r) == Reg.none) = false := by
          unfold view; dsimp only; split <;> rfl
        rw [hv]
        refine ⟨fun h => by simp at h, fun _ => ?_⟩
        dsimp only
        repeat' split
        all_goals exact ⟨_, rfl⟩
      | none =>
        have hv : (view W (none : Option (TReg n)) == Reg.none) = true := rfl
        rw [hv]
        dsimp only
        have key : (decide (origAlloc ≤ len.toNat) &&
              (len.toNat == origAlloc || decide (W.L.env.auxFeature ≤ len.toNat))) =
            (decide (32 ≤ len.toNat) && (len == 32#32 || (!W.K.legacy && decide (W.K.structEnd ≤ len.toNat)))) := by
          have hb : (len.toNat == origAlloc) = (len == 32#32) := by
            by_cases hx : len = 32#32
            · subst hx; decide
            · have hy : ¬ len.toNat = 32 := fun h => hx (BitVec.eq_of_toNat_eq h)
              unfold origAlloc
              rw [beq_eq_false_iff_ne.2 hx, beq_eq_false_iff_ne.2 hy]
          rw [hb]
          unfold origAlloc
          by_cases hx : len = 32#32
          · subst hx; simp
          · have hlg : W.K.legacy = false := by
              cases hc : W.K.legacy with
              | false => rfl
              | true => exact absurd (hold hc) hx
            rw [hlg, (hs.auxNew hlg).1]; rfl
        rw [Bool.true_and, key]
        refine ⟨fun h => ?_, fun h => ?_⟩
        · rw [h, if_neg (by simp), if_neg (by omega), if_neg h0]
        · rw [h, if_pos rfl]; exact ⟨_, rfl⟩

/-- C76: the length that librseq passes (rseq.c:119-126). -/
theorem register_len_old (hs : Sane W) {size : Nat} (hz : size = 0 ∨ size = featureSize W.L.env) :
    minAlloc size ≤ 1024 ∧ (W.K.legacy = true → minAlloc size = 32) := by
  unfold minAlloc origAlloc
  unfold featureSize Register.origFeature at hz
  cases hl : W.K.legacy with
  | true =>
    have := hs.auxOld hl
    rw [this] at hz
    simp only [ne_eq, not_true_eq_false, if_false] at hz
    constructor
    · split <;> omega
    · intro _; split <;> omega
  | false =>
    have := hs.auxNew hl
    rw [this.1] at hz
    refine ⟨?_, fun h => by cases h⟩
    split at hz <;> split <;> omega

/-- C76: the unregistration that librseq asks for (rseq.c:198) succeeds exactly in the cases that `Register.lean` allows, and
then nothing is recorded. -/
theorem unregister_contract (hs : Sane W) {cur : Option (TReg n)} {len : BitVec 32} :
    (kUnregister W.L.env (view W cur) len.toNat = true →
      sysRseq W.K cur W.area len unregisterFlag W.sig = .ok none) ∧
    (kUnregister W.L.env (view W cur) len.toNat = false →
      ∃ e, sysRseq W.K cur W.area len unregisterFlag W.sig = .error e) := by
  unfold kUnregister sysRseq
  rw [hs.has]
  cases hf : W.K.filter with
  | some e => simp
  | none =>
    cases hk : W.K.has with
    | false => simp
    | true =>
      simp only [Option.isNone_none, Bool.and_true, Bool.true_and, Bool.true_eq_false, if_false, flags_unreg,
        if_true, flags_unreg_rest]
      cases cur with
      | none => exact ⟨fun h => by simp [view] at h, fun _ => ⟨_, rfl⟩⟩
      | some r =>
        dsimp only [view]
        by_cases hp : r.ptr = W.area
        · by_cases hg : r.sig = W.sig
          · rw [if_pos ⟨hp, hg⟩]
            by_cases hln : r.len = len
            · subst hln
              exact ⟨fun _ => by simp [hp, hg], fun h => by simp at h⟩
            · have : ¬ r.len.toNat = len.toNat := fun h => hln (BitVec.eq_of_toNat_eq h)
              exact ⟨fun h => absurd (by simpa using h) this, fun _ => ⟨.EINVAL, by simp [hp, hln]⟩⟩
          · rw [if_neg (fun h => hg h.2)]
            refine ⟨fun h => by simp at h, fun _ => ?_⟩
            by_cases hln : r.len = len
            · exact ⟨.EPERM, by simp [hp, hg, hln]⟩
            · exact ⟨.EINVAL, by simp [hp, hln]⟩
        · rw [if_neg (fun h => hp h.1)]
          exact ⟨fun h => by simp at h, fun _ => ⟨.EINVAL, by simp [hp]⟩⟩

theorem probe {K : Kernel n} (hf : K.filter = none) {cur : Option (TReg n)} (hc : CurOK cur) :
    sysRseq K cur 0#n 0#32 0#32 0#32 = .error (if K.has then .EINVAL else .ENOSYS) := by
  unfold sysRseq
  rw [hf]
  cases hk : K.has with
  | false => simp
  | true =>
    simp only [Bool.true_eq_false, if_false, flags_reg, ne_eq, not_true_eq_false, if_true]
    cases cur with
    | some r => simp [(hc r rfl).1]
    | none =>
      have : shapeOk K 0#n 0#32 = false := by
        cases hx : shapeOk K 0#n 0#32 with
        | false => rfl
        | true => have := shapeOk_len hx; simp at this
      dsimp only
      rw [if_pos this]

/-- C76: without a filter, `rseq_available(RSEQ_AVAILABLE_QUERY_KERNEL)` does not abort, tells whether the kernel implements
the system call, and does not change the registration: in registered and in unregistered threads, whoever has
registered them. -/
theorem available_exact (hf : W.K.filter = none) {s : St n} (hc : CurOK s.cur) :
    (rseqAvailable W s 0).1 = .ret W.K.has ∧ (rseqAvailable W s 0).2.cur = s.cur ∧
    (rseqAvailable W s 0).2.lib = s.lib := by
  unfold rseqAvailable call
  dsimp only
  rw [probe hf hc]
  cases W.K.has <;> exact ⟨rfl, rfl, rfl⟩

/-- C76: this is the answer in `Register.lean`. -/
theorem available_contract (hs : Sane W) (hf : W.K.filter = none) {s : St n} (hc : CurOK s.cur) (query : Nat) :
    (rseqAvailable W s query).1 = .ret (Register.rseqAvailable W.L.env s.lib (view W s.cur) query) := by
  match query with
  | 0 =>
    rw [(available_exact hf hc).1]
    unfold Register.rseqAvailable kProbe
    rw [hs.has, hf]; simp
  | 1 => rfl
  | q + 2 => rfl

theorem sys_filtered {K : Kernel n} {e : Errno} (hf : K.filter = some e) (cur : Option (TReg n)) (ptr : BitVec n)
    (len flags sig : BitVec 32) : sysRseq K cur ptr len flags sig = .error e := by
  unfold sysRseq; rw [hf]

/-- C76: with a filter that refuses the system call, the answer depends on the error it has been configured with: ENOSYS is
"unavailable", EINVAL is mistaken for "available", and any other, such as the usual EPERM, terminates the process. -/
theorem available_filtered {e : Errno} (hf : W.K.filter = some e) (s : St n) :
    (rseqAvailable W s 0).1 =
      if e = .ENOSYS then .ret false else if e = .EINVAL then .ret true else .abort := by
  unfold rseqAvailable call
  dsimp only
  rw [sys_filtered hf]
  cases e <;> simp

/-- C76: `rseq_register_current_thread` under such a filter: -1 if no thread has been registered yet. If the filter was
installed after the first registration, the next thread terminates the process. -/
theorem register_filtered {e : Errno} (hf : W.K.filter = some e) {s : St n} (ho : s.lib.own = true) :
    (s.lib.size = 0 → ∃ s', registerCurrent W s = .ret (-1, s') ∧ s'.cur = s.cur ∧ s'.lib = s.lib) ∧
    (s.lib.size ≠ 0 → registerCurrent W s = .abort) := by
  unfold registerCurrent call
  rw [if_neg (by simp [ho]), sys_filtered hf]
  dsimp only
  refine ⟨fun h => ?_, fun h => ?_⟩
  · rw [if_neg (by omega)]; exact ⟨_, rfl, rfl, rfl⟩
  · rw [if_pos (by omega)]

/-! ### Reading the area -/

theorem fill_holds (hn : 32 ≤ n) (m : Mem n) (a : BitVec n) (g : Nat → Option Byte) : Holds (fill m a g) a g :=
  Holds.own (by omega) fun _ _ _ h => .inl h

theorem area_eq (ho : W.L.own = true) : W.abi = W.area := by
  unfold World.abi World.area
  rw [Area.get_abi_area]
  unfold Layout.area
  rw [if_pos ho]

/-- C77: after the kernel has returned to a registered thread. -/
theorem registered_reads (hn : 32 ≤ n) {s : St n} {r : TReg n} (hr : r.ptr = W.abi) {m : Mem n}
    (hm : s.mem = onReturn W (some r) m s.place) (hp : s.place.cpu.toNat < 2 ^ 31) :
    cpuRaw W s = (s.place.cpu.toNat : Int) ∧ cpuStart W s = s.place.cpu ∧
    currentCpu W s = some (s.place.cpu.toNat : Int) := by
  have hh : Holds s.mem W.abi (kImage W.L.be (featureSize W.L.env) r.len.toNat s.place W.K.ext) := by
    rw [hm, ← hr]; exact fill_holds hn _ _ _
  have h1 : cpuRaw W s = (s.place.cpu.toNat : Int) := by
    unfold cpuRaw
    rw [hh.ld32 (be := W.L.be) oCpuId s.place.cpu (by decide) ?_]
    · exact BitVec.toInt_eq_toNat_of_lt (by omega)
    · intro j hj
      unfold kImage oCpuId
      rw [if_neg (by omega), if_pos (by omega), Nat.add_sub_cancel_left]
  refine ⟨h1, ?_, ?_⟩
  · unfold cpuStart
    apply hh.ld32 (be := W.L.be) oCpuIdStart s.place.cpu (by decide)
    intro j hj
    unfold kImage oCpuIdStart
    rw [if_pos (by omega), Nat.zero_add]
  · unfold currentCpu Register.currentCpu
    rw [h1, if_neg (by omega)]

/-- C77: before the registration. -/
theorem unregistered_reads (hn : 32 ≤ n) (ho : W.L.own = true) (m : Mem n) (p : Place) :
    cpuRaw W (start W m p) = -1 := by
  unfold cpuRaw
  have hh : Holds (start W m p).mem W.abi (tlsImage W.L.alloc) := by
    unfold start onReturn
    rw [ho]
    dsimp only [if_true]
    unfold World.abi
    rw [Area.get_abi_area]
    exact fill_holds hn _ _ _
  rw [hh.ld32 (be := W.L.be) oCpuId (-1#32) (by decide) ?_]
  · decide
  · intro j hj
    unfold tlsImage Layout.alloc Area.abiSize oCpuId
    rw [if_pos ho, if_pos (by omega), if_pos (by omega), Area.byteOf_ones _ _ hj]

/-! ### C77: the registration tests -/

/-- The kernel supports rseq and no filter interferes. -/
structure Up (W : World n) : Prop where
  filter : W.K.filter = none
  has : W.K.has = true

theorem Up.env (h : Up W) (hs : Sane W) : W.L.env.kernelHas = true := by rw [hs.has, h.filter, h.has]; rfl

theorem start_own (ho : W.L.own = true) (m : Mem n) (p : Place) :
    (start W m p).cur = none ∧ (start W m p).lib.size = 0 ∧ (start W m p).lib.own = true ∧ (start W m p).place = p := by
  refine ⟨?_, ?_, ho, rfl⟩
  · unfold start; simp [ho]
  · have : (rseqInit W.L.env).own = true := ho
    show (rseqInit W.L.env).size = 0
    unfold rseqInit at this ⊢
    cases hl : W.L.env.libc with
    | none => rfl
    | some k =>
      rw [hl] at this
      dsimp only at this ⊢
      by_cases hk : k ≠ 0
      · rw [if_pos hk] at this; cases this
      · rw [if_neg hk]

/-- After the query nothing has changed but what the kernel refreshes. -/
theorem available_state (hu : Up W) {s : St n} (hc : CurOK s.cur) :
    rseqAvailable W s 0 = (.ret true, { s with mem := onReturn W s.cur s.mem s.place }) := by
  unfold rseqAvailable call
  dsimp only
  rw [probe hu.filter hc, hu.has]
  rfl

theorem call_ok_none {s : St n} {ptr : BitVec n} {len flags sig : BitVec 32} {r : TReg n} (hc : s.cur = none)
    (h : sysRseq W.K s.cur ptr len flags sig = .ok (some r)) :
    call W s ptr len flags sig = (none, { s with cur := some r, mem := onReturn W (some r) s.mem s.place }) := by
  unfold call
  rw [h, hc]

theorem call_error {s : St n} {ptr : BitVec n} {len flags sig : BitVec 32} {e : Errno}
    (h : sysRseq W.K s.cur ptr len flags sig = .error e) :
    call W s ptr len flags sig = (some e, { s with mem := onReturn W s.cur s.mem s.place }) := by
  unfold call
  rw [h]

theorem sys_first (hs : Sane W) (hu : Up W) :
    sysRseq W.K none W.area 32#32 0#32 W.sig = .ok (some ⟨W.area, 32#32, W.sig⟩) := by
  apply (register_contract hs (cur := none) (len := 32#32) (by decide) (fun _ => rfl)).1
  unfold kRegister
  rw [hu.env hs]; simp [view, origAlloc]

/-- C77: the first registration. -/
theorem register_first (hs : Sane W) (hu : Up W) (ho : W.L.own = true) {s : St n} (hc : s.cur = none)
    (hz : s.lib.size = 0) (hw : s.lib.own = true) (hp : s.place.cpu.toNat < 2 ^ 31) :
    registerCurrent W s = .ret (0, { s with
      cur := some ⟨W.area, 32#32, W.sig⟩
      mem := onReturn W (some ⟨W.area, 32#32, W.sig⟩) s.mem s.place
      lib := { s.lib with size := featureSize W.L.env } }) := by
  unfold registerCurrent
  rw [if_neg (by simp [hw])]
  have hlen : BitVec.ofNat 32 (minAlloc s.lib.size) = 32#32 := by rw [hz]; rfl
  have hcall := call_ok_none (W := W) (s := s) (ptr := W.area) (len := 32#32) (flags := 0#32) (sig := W.sig) hc
    (by rw [hc]; exact sys_first hs hu)
  rw [hlen, hcall]
  dsimp only
  have hrd := (registered_reads (W := W) hs.addr
    (s := { s with cur := some ⟨W.area, 32#32, W.sig⟩, mem := onReturn W (some ⟨W.area, 32#32, W.sig⟩) s.mem s.place })
    (r := ⟨W.area, 32#32, W.sig⟩) (area_eq ho).symm rfl hp).1
  rw [if_neg (by rw [hrd]; omega), if_pos hz]

/-- The places used by basic_test.c. -/
def PlacesOK (pl : Nat → Place) (cpus : List Nat) : Prop := ∀ i ∈ cpus, (pl i).cpu = BitVec.ofNat 32 i ∧ i < 2 ^ 31

/-- The checks of basic_test.c:58-68 hold on every CPU, in any order. -/
theorem test_cpus (hn : 32 ≤ n) {pl : Nat → Place} {r : TReg n} (hr : r.ptr = W.abi) (cpus : List Nat)
    (hpl : PlacesOK pl cpus) : ∀ s : St n, s.cur = some r →
      (testCpus W pl cpus s).1 = List.replicate (5 * cpus.length) true ∧ (testCpus W pl cpus s).2.cur = some r ∧
      (testCpus W pl cpus s).2.lib = s.lib := by
  induction cpus with
  | nil => intro s hc; exact ⟨rfl, hc, rfl⟩
  | cons i is ih =>
    intro s hc
    obtain ⟨hi, hlt⟩ := hpl i (by simp)
    have hto : (pl i).cpu.toNat = i := by
      rw [hi, BitVec.toNat_ofNat, Nat.mod_eq_of_lt (by omega)]
    have hrd := registered_reads (W := W) hn (s := migrate W s (pl i)) hr (m := s.mem)
      (by unfold migrate; rw [hc]) (by show (pl i).cpu.toNat < _; omega)
    have hint : (migrate W s (pl i)).place.cpu.toInt = (i : Int) := by
      show (pl i).cpu.toInt = _
      rw [BitVec.toInt_eq_toNat_of_lt (by omega), hto]
    obtain ⟨h1, h2, h3⟩ := ih (fun j hj => hpl j (by simp [hj])) (migrate W s (pl i)) hc
    have hpc : (migrate W s (pl i)).place.cpu = (pl i).cpu := rfl
    unfold testCpus
    dsimp only
    rw [hint, hrd.1, hrd.2.1, hrd.2.2, hpc, hto, h1, hi]
    refine ⟨?_, h2, h3⟩
    rw [List.length_cons, Nat.mul_add, Nat.add_comm, ← List.replicate_append_replicate]
    simp [List.replicate]

theorem unregister_result (hs : Sane W) (hu : Up W) {s : St n} (hc : s.cur = some ⟨W.area, 32#32, W.sig⟩)
    (hw : s.lib.own = true) (hz : s.lib.size ≤ 1024) :
    (unregisterCurrent W s).1 = if s.lib.size ≤ 32 then 0 else -1 := by
  unfold unregisterCurrent
  rw [if_neg (by simp [hw])]
  have hm : (BitVec.ofNat 32 (minAlloc s.lib.size)).toNat = minAlloc s.lib.size := by
    rw [BitVec.toNat_ofNat, Nat.mod_eq_of_lt]
    unfold minAlloc origAlloc; split <;> omega
  have hv : view W s.cur = .ours 32 := by rw [hc]; simp [view]
  have hcon := unregister_contract hs (cur := s.cur) (len := BitVec.ofNat 32 (minAlloc s.lib.size))
  rw [hm, hv] at hcon
  have hk : kUnregister W.L.env (.ours 32) (minAlloc s.lib.size) = decide (s.lib.size ≤ 32) := by
    unfold kUnregister minAlloc origAlloc
    rw [hu.env hs]
    by_cases h : s.lib.size ≤ 32
    · have : (if s.lib.size < 32 then 32 else s.lib.size) = 32 := by split <;> omega
      rw [this]; simp [h]
    · rw [if_neg (by omega)]
      have : ¬ 32 = s.lib.size := by omega
      simp [h, this]
  rw [hk] at hcon
  by_cases h : s.lib.size ≤ 32
  · have he := hcon.1 (by simp [h])
    rw [if_pos h]
    unfold call; rw [he]
  · obtain ⟨e, he⟩ := hcon.2 (by simp [h])
    rw [if_neg h, call_error he]

/-- C77: basic_test.c in a process in which librseq owns the registration. All checks succeed but possibly the last, that
`rseq_unregister_current_thread` returns 0: it fails if the kernel has more than 32 bytes of features (F4). -/
theorem basic_test_own (hs : Sane W) (hu : Up W) (ho : W.L.own = true) (htls : W.L.disp ≠ 0#n) {pl : Nat → Place}
    {cpus : List Nat} (hpl : PlacesOK pl cpus) {p p0 : Place} (hp : p.cpu.toNat < 2 ^ 31) (m : Mem n) :
    basicTest W pl cpus p0 (start W m p) =
      .done (List.replicate (5 + 5 * cpus.length) true ++ [decide (featureSize W.L.env ≤ 32)]) := by
  obtain ⟨h1, h2, h3, h4⟩ := start_own ho m p
  have hF : 20 ≤ featureSize W.L.env ∧ featureSize W.L.env ≤ 1024 := by
    unfold featureSize Register.origFeature
    cases hl : W.K.legacy with
    | true => rw [hs.auxOld hl]; simp
    | false =>
      have := hs.auxNew hl
      rw [this.1]; split <;> omega
  have hoff : W.L.offset ≠ 0#n := by
    unfold Layout.offset
    rw [if_pos ho, BitVec.add_comm, BitVec.add_sub_cancel]; exact htls
  unfold basicTest
  rw [available_state hu (by rw [h1]; intro r hr; cases hr)]
  dsimp only
  generalize hs0 : ({ lib := (start W m p).lib, cur := (start W m p).cur, mem := _, place := _ } : St n) = s0
  have k1 : s0.cur = none := by rw [← hs0]; exact h1
  have k2 : s0.lib.size = 0 := by rw [← hs0]; exact h2
  have k3 : s0.lib.own = true := by rw [← hs0]; exact h3
  have k4 : s0.place = p := by rw [← hs0]; exact h4
  rw [register_first hs hu ho k1 k2 k3 (by rw [k4]; exact hp)]
  dsimp only
  rw [if_neg (by simp)]
  have hrd := (registered_reads (W := W) hs.addr
    (s := { s0 with
      cur := some ⟨W.area, 32#32, W.sig⟩
      mem := onReturn W (some ⟨W.area, 32#32, W.sig⟩) s0.mem s0.place
      lib := { s0.lib with size := featureSize W.L.env } })
    (r := ⟨W.area, 32#32, W.sig⟩) (area_eq ho).symm rfl (by show s0.place.cpu.toNat < _; rw [k4]; exact hp)).1
  obtain ⟨c1, c2, c3⟩ := test_cpus (W := W) hs.addr (pl := pl) (r := ⟨W.area, 32#32, W.sig⟩) (area_eq ho).symm cpus hpl
    { s0 with
      cur := some ⟨W.area, 32#32, W.sig⟩
      mem := onReturn W (some ⟨W.area, 32#32, W.sig⟩) s0.mem s0.place
      lib := { s0.lib with size := featureSize W.L.env } } rfl
  generalize testCpus W pl cpus _ = tc at *
  have hun := unregister_result hs hu (s := migrate W tc.2 p0) c2 (by show tc.2.lib.own = true; rw [c3]; exact k3)
    (by show tc.2.lib.size ≤ _; rw [c3]; exact hF.2)
  have hsz : (migrate W tc.2 p0).lib.size = featureSize W.L.env := by show tc.2.lib.size = _; rw [c3]
  rw [hsz] at hun
  rw [hun, c1]
  unfold testRegistered World.flags
  rw [hrd]
  have e1 : (W.L.offset != 0#n) = true := by simpa using hoff
  have e2 : decide (20 ≤ featureSize W.L.env) = true := decide_eq_true hF.1
  dsimp only
  rw [e1, e2, if_pos ho]
  congr 1
  rw [← List.replicate_append_replicate]
  by_cases h32 : featureSize W.L.env ≤ 32
  · simp [h32, List.replicate]
  · simp [h32, List.replicate]

/-- C77: basic_test.c in a process in which the C library owns the registration: all checks succeed. -/
theorem basic_test_libc (hn : 32 ≤ n) (hu : Up W) (ho : W.L.own = false) (htls : W.L.libcOff ≠ 0#n)
    (hfl : W.libcFlags = 0#32) (hsz : 20 ≤ (rseqInit W.L.env).size) (ha0 : W.abi ≠ 0#n)
    (hlen : 32 ≤ W.L.libcLen ∧ W.L.libcLen < 2 ^ 32) {pl : Nat → Place}
    {cpus : List Nat} (hpl : PlacesOK pl cpus) {p p0 : Place} (hp : p.cpu.toNat < 2 ^ 31) (m : Mem n) :
    basicTest W pl cpus p0 (start W m p) = .done (List.replicate (6 + 5 * cpus.length) true) := by
  have hab : W.L.area W.L.t0 = W.abi := by unfold World.abi; rw [Area.get_abi_area]
  have hcur : (start W m p).cur = some ⟨W.abi, BitVec.ofNat 32 W.L.libcLen, W.sig⟩ := by
    unfold start; rw [hab]; simp [ho]
  have hok : CurOK (start W m p).cur := by
    rw [hcur]
    intro r hr
    injection hr with hr
    subst hr
    refine ⟨ha0, ?_⟩
    rw [BitVec.toNat_ofNat, Nat.mod_eq_of_lt hlen.2]; exact hlen.1
  have hoff : W.L.offset ≠ 0#n := by
    unfold Layout.offset
    rw [if_neg (by simp [ho])]; exact htls
  unfold basicTest
  rw [available_state hu hok]
  dsimp only
  have hreg : ∀ s : St n, s.lib = rseqInit W.L.env → registerCurrent W s = .ret (0, s) := by
    intro s hs
    unfold registerCurrent
    rw [if_pos (by rw [hs]; exact ho)]
  rw [hreg _ rfl]
  dsimp only
  rw [if_neg (by simp)]
  have hrd := (registered_reads (W := W) hn
    (s := { start W m p with mem := onReturn W (start W m p).cur (start W m p).mem (start W m p).place })
    (r := ⟨W.abi, BitVec.ofNat 32 W.L.libcLen, W.sig⟩) rfl (m := (start W m p).mem)
    (by show onReturn W (start W m p).cur _ _ = _; rw [hcur]) hp).1
  obtain ⟨c1, c2, c3⟩ := test_cpus (W := W) hn (pl := pl) (r := ⟨W.abi, BitVec.ofNat 32 W.L.libcLen, W.sig⟩) rfl cpus hpl
    { start W m p with mem := onReturn W (start W m p).cur (start W m p).mem (start W m p).place } hcur
  generalize testCpus W pl cpus _ = tc at *
  have hun : (unregisterCurrent W (migrate W tc.2 p0)).1 = 0 := by
    unfold unregisterCurrent
    rw [if_pos (by show tc.2.lib.own = false; rw [c3]; exact ho)]
  rw [hun, c1]
  unfold testRegistered World.flags
  rw [hrd]
  have e1 : (W.L.offset != 0#n) = true := by simpa using hoff
  have e2 : decide (20 ≤ (start W m p).lib.size) = true := decide_eq_true hsz
  dsimp only
  rw [e1, e2, if_neg (by simp [ho]), hfl]
  congr 1
  have : 6 + 5 * cpus.length = 5 + 5 * cpus.length + 1 := by omega
  rw [this, ← List.replicate_append_replicate, ← List.replicate_append_replicate]
  simp [List.replicate]

/-- C77: unregistered_test.c (run with the C library's registration disabled). -/
theorem unregistered_test (hs : Sane W) (hu : Up W) (ho : W.L.own = true) (htls : W.L.disp ≠ 0#n) (m : Mem n) (p : Place) :
    unregisteredTest W (start W m p) = .done [true, true, true, true] := by
  obtain ⟨h1, h2, h3, h4⟩ := start_own ho m p
  have hoff : W.L.offset ≠ 0#n := by
    unfold Layout.offset
    rw [if_pos ho, BitVec.add_comm, BitVec.add_sub_cancel]; exact htls
  have hr := unregistered_reads (W := W) hs.addr ho m p
  unfold unregisteredTest
  rw [available_state hu (by rw [h1]; intro r hr; cases hr), h1]
  show TestRun.done (testSymbols W (start W m p)) = _
  unfold testSymbols World.flags
  have e1 : (W.L.offset != 0#n) = true := by simpa using hoff
  rw [h2, hr, e1, if_pos ho]
  rfl

/-- C77: no_syscall_test.c in a process in which the C library has not registered the thread: on a kernel without the system
call, or under the filter of disable-rseq-syscall.c. -/
theorem no_syscall_test (hs : Sane W) (hno : W.K.filter = some .ENOSYS ∨ (W.K.filter = none ∧ W.K.has = false))
    (ho : W.L.own = true) (htls : W.L.disp ≠ 0#n) (m : Mem n) (p : Place) :
    noSyscallTest W (start W m p) = .done [true, true, true, true] := by
  obtain ⟨h1, h2, h3, h4⟩ := start_own ho m p
  have hoff : W.L.offset ≠ 0#n := by
    unfold Layout.offset
    rw [if_pos ho, BitVec.add_comm, BitVec.add_sub_cancel]; exact htls
  have hr := unregistered_reads (W := W) hs.addr ho m p
  have hcall : sysRseq W.K (start W m p).cur 0#n 0#32 0#32 0#32 = .error .ENOSYS := by
    rcases hno with hf | ⟨hf, hh⟩
    · exact sys_filtered hf ..
    · rw [probe hf (by rw [h1]; intro r hr; cases hr), hh]; rfl
  have hav : rseqAvailable W (start W m p) 0 = (.ret false, start W m p) := by
    unfold rseqAvailable
    dsimp only
    rw [call_error hcall]
    show (Out.ret false, { start W m p with mem := onReturn W (start W m p).cur (start W m p).mem (start W m p).place }) = _
    have : onReturn W (start W m p).cur (start W m p).mem (start W m p).place = (start W m p).mem := by rw [h1]; rfl
    rw [this]
  unfold noSyscallTest
  rw [hav]
  show TestRun.done (testSymbols W (start W m p)) = _
  unfold testSymbols World.flags
  have e1 : (W.L.offset != 0#n) = true := by simpa using hoff
  rw [h2, hr, e1, if_pos ho]
  rfl

/-- C77: run_no_syscall_test.tap installs that filter with a preloaded library and, unlike the other scripts, leaves the C
library's registration enabled. A C library that registers threads has done so before the constructors of
preloaded libraries run; the second and the fourth check of the test fail then. -/
theorem no_syscall_test_libc (hn : 32 ≤ n) (hno : W.K.filter = some .ENOSYS) (ho : W.L.own = false)
    (hsz : (rseqInit W.L.env).size ≠ 0) {p : Place} (hp : p.cpu.toNat < 2 ^ 31) (m : Mem n) :
    ∃ a b, noSyscallTest W (start W m p) = .done [a, false, b, false] := by
  have hab : W.L.area W.L.t0 = W.abi := by unfold World.abi; rw [Area.get_abi_area]
  have hcur : (start W m p).cur = some ⟨W.abi, BitVec.ofNat 32 W.L.libcLen, W.sig⟩ := by
    unfold start; rw [hab]; simp [ho]
  have hrd := (registered_reads (W := W) hn
    (s := { start W m p with mem := onReturn W (start W m p).cur (start W m p).mem (start W m p).place })
    (r := ⟨W.abi, BitVec.ofNat 32 W.L.libcLen, W.sig⟩) rfl (m := (start W m p).mem)
    (by show onReturn W (start W m p).cur _ _ = _; rw [hcur]) hp).1
  refine ⟨W.flags == 0#32, W.L.offset != 0#n, ?_⟩
  unfold noSyscallTest rseqAvailable
  dsimp only
  rw [call_error (sys_filtered hno ..)]
  show TestRun.done (testSymbols W _) = _
  unfold testSymbols
  have e2 : ((start W m p).lib.size == 0) = false := beq_eq_false_iff_ne.2 hsz
  have e3 : ((((start W m p).place.cpu.toNat : Int)) == -1) = false := by
    rw [beq_eq_false_iff_ne]; omega
  rw [hrd, e3]
  dsimp only
  rw [e2]

/-- C77: on a kernel without the system call, or under the filter, the tests that need it are skipped in a thread without a
registration, whatever else they are given. -/
theorem tests_skipped (hno : W.K.filter = some .ENOSYS ∨ (W.K.filter = none ∧ W.K.has = false)) (s : St n) (hc : s.cur = none)
    (pl : Nat → Place) (cpus : List Nat) (p0 pc : Place) (invalid : Bool) :
    basicTest W pl cpus p0 s = .skipped ∧ unregisteredTest W s = .skipped ∧ forkTest W pc s = .skipped ∧
    syscallErrorsTest W invalid s = .skipped := by
  have hcall : sysRseq W.K s.cur 0#n 0#32 0#32 0#32 = .error .ENOSYS := by
    rcases hno with hf | ⟨hf, hh⟩
    · exact sys_filtered hf ..
    · rw [probe hf (by rw [hc]; intro r hr; cases hr), hh]; rfl
  have hav : ∃ s', rseqAvailable W s 0 = (.ret false, s') := by
    unfold rseqAvailable
    dsimp only
    rw [call_error hcall]
    exact ⟨_, rfl⟩
  obtain ⟨s', hav⟩ := hav
  unfold basicTest unregisteredTest forkTest syscallErrorsTest
  rw [hav]
  exact ⟨rfl, rfl, rfl, rfl⟩

/-- C77: no_syscall_test.c on a kernel with the system call, not filtered: one check, and it fails. -/
theorem no_syscall_test_available (hu : Up W) (s : St n) (hc : CurOK s.cur) : noSyscallTest W s = .done [false] := by
  unfold noSyscallTest
  rw [available_state hu hc]

theorem fork_sys (hu : Up W) {len : BitVec 32} : sysRseq W.K (some ⟨W.abi, len, W.sig⟩) W.abi 32#32 0#32 W.sig =
    .error (if len = 32#32 then .EBUSY else .EINVAL) := by
  unfold sysRseq
  rw [hu.filter, hu.has]
  simp only [Bool.true_eq_false, if_false, flags_reg, ne_eq, not_true_eq_false, false_or]
  by_cases h : len = 32#32 <;> simp [h]

/-- C77: fork_test.c (run with the C library's registration disabled): the registration is still active in the child. -/
theorem fork_test (hs : Sane W) (hu : Up W) (ho : W.L.own = true) {p pl : Place} (hp : p.cpu.toNat < 2 ^ 31)
    (hpl : pl.cpu.toNat < 2 ^ 31) (m : Mem n) :
    forkTest W pl (start W m p) = .done [true, true, true, true] := by
  obtain ⟨h1, h2, h3, h4⟩ := start_own ho m p
  unfold forkTest
  rw [available_state hu (by rw [h1]; intro r hr; cases hr)]
  dsimp only
  generalize hs0 : ({ lib := (start W m p).lib, cur := (start W m p).cur, mem := _, place := _ } : St n) = s0
  have k1 : s0.cur = none := by rw [← hs0]; exact h1
  have k2 : s0.lib.size = 0 := by rw [← hs0]; exact h2
  have k3 : s0.lib.own = true := by rw [← hs0]; exact h3
  have k4 : s0.place = p := by rw [← hs0]; exact h4
  rw [register_first hs hu ho k1 k2 k3 (by rw [k4]; exact hp)]
  dsimp only
  have hrd := (registered_reads (W := W) hs.addr
    (s := { s0 with
      cur := some ⟨W.area, 32#32, W.sig⟩
      mem := onReturn W (some ⟨W.area, 32#32, W.sig⟩) s0.mem s0.place
      lib := { s0.lib with size := featureSize W.L.env } })
    (r := ⟨W.area, 32#32, W.sig⟩) (area_eq ho).symm rfl (by show s0.place.cpu.toNat < _; rw [k4]; exact hp)).1
  rw [hrd, ← area_eq ho]
  rw [call_error (W := W) (e := .EBUSY) (by exact fork_sys hu)]
  dsimp only
  have hrd2 := fun mm => (registered_reads (W := W) hs.addr
    (s := { cur := some ⟨W.abi, 32#32, W.sig⟩, mem := onReturn W (some ⟨W.abi, 32#32, W.sig⟩) mm pl,
            lib := { s0.lib with size := featureSize W.L.env }, place := pl })
    (r := ⟨W.abi, 32#32, W.sig⟩) rfl rfl hpl).1
  unfold forkChild migrate
  dsimp only
  rw [hrd2]
  simp

/-- C77: the test passes the length 32. If the C library owns the registration - the script prevents that -, the check
succeeds exactly if it has registered this length. -/
theorem fork_test_libc (hu : Up W) {s : St n} {len : BitVec 32} (hc : s.cur = some ⟨W.abi, len, W.sig⟩) (pl : Place) :
    (call W (forkChild W s pl) W.abi 32#32 0#32 W.sig).1 = some (if len = 32#32 then .EBUSY else .EINVAL) := by
  rw [call_error (W := W) (e := if len = 32#32 then .EBUSY else .EINVAL)
    (by show sysRseq W.K s.cur _ _ _ _ = _; rw [hc]; exact fork_sys hu)]

/-- C77: in a child the thread is still registered, so a call of `rseq_register_current_thread` there terminates the child,
as a second call in the parent would; `rseq_unregister_current_thread` has the same result in both. -/
theorem fork_child {s : St n} {len : BitVec 32}
    (hc : s.cur = some ⟨W.area, len, W.sig⟩) (hw : s.lib.own = true) (hz : s.lib.size = featureSize W.L.env) (pl : Place) :
    registerCurrent W (forkChild W s pl) = .abort ∧ registerCurrent W s = .abort ∧
    (unregisterCurrent W (forkChild W s pl)).1 = (unregisterCurrent W s).1 := by
  have hF : 0 < featureSize W.L.env := by
    unfold featureSize Register.origFeature; split <;> omega
  have key : ∀ s : St n, s.cur = some ⟨W.area, len, W.sig⟩ → s.lib.own = true → s.lib.size = featureSize W.L.env →
      registerCurrent W s = .abort := by
    intro s hc hw hz
    unfold registerCurrent
    rw [if_neg (by simp [hw])]
    have hx : ∃ e, sysRseq W.K s.cur W.area (BitVec.ofNat 32 (minAlloc s.lib.size)) 0#32 W.sig = .error e := by
      unfold sysRseq
      rw [hc]
      cases W.K.filter with
      | some e => exact ⟨_, rfl⟩
      | none =>
        simp only [flags_reg, if_false, ne_eq, not_true_eq_false]
        repeat' split
        all_goals exact ⟨_, rfl⟩
    obtain ⟨e, he⟩ := hx
    rw [call_error he]
    dsimp only
    rw [if_pos (by omega)]
  refine ⟨key _ hc hw hz, key _ hc hw hz, ?_⟩
  unfold unregisterCurrent forkChild migrate call
  dsimp only
  cases sysRseq W.K s.cur W.area (BitVec.ofNat 32 (minAlloc s.lib.size)) unregisterFlag W.sig <;> split <;> rfl

theorem aligned_area (hs : Sane W) (ho : W.L.own = true) : aligned W.abi 32 = true ∧ aligned (W.abi + 1#n) 32 = false := by
  have ha := hs.areaAligned
  have hn : 2 ^ 32 ≤ 2 ^ n := Nat.pow_le_pow_right (by omega) hs.addr
  have hd : (2 : Nat) ^ 5 ∣ 2 ^ n := Nat.pow_dvd_pow 2 (by have := hs.addr; omega)
  rw [area_eq ho]
  unfold aligned
  constructor
  · rw [beq_iff_eq]; omega
  · rw [beq_eq_false_iff_ne, BitVec.toNat_add, BitVec.toNat_ofNat, Nat.mod_eq_of_lt (a := 1) (by omega)]
    have h := Nat.mod_mod_of_dvd (W.area.toNat + 1) hd
    have h5 : (2 : Nat) ^ 5 = 32 := by decide
    rw [h5] at h
    rw [h]; omega

/-- C77: syscall_errors_test.c (run with the C library's registration disabled). The check of an invalid address is part of it
on 64-bit machines; no program can access the last page there. -/
theorem syscall_errors_test (hs : Sane W) (hu : Up W) (ho : W.L.own = true) {invalid : Bool}
    (hinv : invalid = true → n = 64 ∧ W.K.userEnd ≤ 2 ^ 64 - 4096) (m : Mem n) (p : Place) :
    syscallErrorsTest W invalid (start W m p) = .done (List.replicate (if invalid then 8 else 7) true) := by
  obtain ⟨h1, h2, h3, h4⟩ := start_own ho m p
  have hab := area_eq ho
  obtain ⟨hal, hun⟩ := aligned_area hs ho
  have e1 : sysRseq W.K none W.abi 32#32 (-1#32) W.sig = .error .EINVAL := by
    unfold sysRseq; rw [hu.filter, hu.has]; simp [unregisterFlag]
  have e2 : sysRseq W.K none (W.abi + 1#n) 32#32 0#32 W.sig = .error .EINVAL := by
    have : shapeOk W.K (W.abi + 1#n) 32#32 = false := by unfold shapeOk; rw [hun]; simp
    unfold sysRseq; rw [hu.filter, hu.has, this]; simp
  have e3 : sysRseq W.K none W.abi 31#32 0#32 W.sig = .error .EINVAL := by
    have : shapeOk W.K W.abi 31#32 = false := by
      cases hx : shapeOk W.K W.abi 31#32 with
      | false => rfl
      | true => exact absurd (shapeOk_len hx) (by decide)
    unfold sysRseq; rw [hu.filter, hu.has, this]; simp
  have e4 : invalid = true → sysRseq W.K none (-(BitVec.ofNat n 4096)) 32#32 0#32 W.sig = .error .EFAULT := by
    intro hi
    obtain ⟨hn, hend⟩ := hinv hi
    have hto : (-(BitVec.ofNat n 4096)).toNat = 2 ^ 64 - 4096 := by subst hn; decide
    have : shapeOk W.K (-(BitVec.ofNat n 4096)) 32#32 = true := by
      unfold shapeOk aligned; rw [hto]; simp
    unfold sysRseq; rw [hu.filter, hu.has, this, hto]
    have h32 : (32#32).toNat = 32 := by decide
    simp only [Bool.true_eq_false, if_false, flags_reg, ne_eq, not_true_eq_false, h32]
    rw [if_pos (by omega)]
  have e5 : sysRseq W.K none W.abi 32#32 0#32 W.sig = .ok (some ⟨W.abi, 32#32, W.sig⟩) := by
    rw [hab]; exact sys_first hs hu
  have e6 : sysRseq W.K (some ⟨W.abi, 32#32, W.sig⟩) W.abi 32#32 0#32 W.sig = .error .EBUSY := by
    rw [fork_sys hu, if_pos rfl]
  have hsig : ¬ W.sig = W.sig + 1#32 := by
    intro h
    have h0 : W.sig + 0#32 = W.sig + 1#32 := by rw [BitVec.add_zero]; exact h
    exact absurd ((BitVec.add_right_inj _).1 h0) (by decide)
  have e7 : sysRseq W.K (some ⟨W.abi, 32#32, W.sig⟩) W.abi 32#32 unregisterFlag (W.sig + 1#32) = .error .EPERM := by
    unfold sysRseq; rw [hu.filter, hu.has]; simp [unregisterFlag, hsig]
  have e8 : sysRseq W.K (some ⟨W.abi, 32#32, W.sig⟩) W.abi 32#32 unregisterFlag W.sig = .ok none := by
    unfold sysRseq; rw [hu.filter, hu.has]; simp [unregisterFlag]
  have hE : ∀ (s : St n) c ptr len fl sg e, s.cur = c → sysRseq W.K c ptr len fl sg = .error e →
      (call W s ptr len fl sg).1 = some e ∧ (call W s ptr len fl sg).2.cur = c := by
    intro s c ptr len fl sg e hc he
    rw [← hc] at he
    rw [call_error he]; exact ⟨rfl, hc⟩
  have hO : ∀ (s : St n) c ptr len fl sg c', s.cur = c → sysRseq W.K c ptr len fl sg = .ok c' →
      (call W s ptr len fl sg).1 = none ∧ (call W s ptr len fl sg).2.cur = c' := by
    intro s c ptr len fl sg c' hc he
    rw [← hc] at he
    unfold call; rw [he]; exact ⟨rfl, rfl⟩
  unfold syscallErrorsTest
  rw [available_state hu (by rw [h1]; intro r hr; cases hr)]
  dsimp only
  generalize hs0 : ({ start W m p with mem := _ } : St n) = s0
  have k0 : s0.cur = none := by rw [← hs0]; exact h1
  obtain ⟨a1, k1⟩ := hE s0 _ _ _ _ _ _ k0 e1
  generalize call W s0 W.abi 32#32 (-1#32) W.sig = x1 at *
  obtain ⟨a2, k2⟩ := hE x1.2 _ _ _ _ _ _ k1 e2
  generalize call W x1.2 (W.abi + 1#n) 32#32 0#32 W.sig = x2 at *
  obtain ⟨a3, k3⟩ := hE x2.2 _ _ _ _ _ _ k2 e3
  generalize call W x2.2 W.abi 31#32 0#32 W.sig = x3 at *
  have fin : ∀ s : St n, s.cur = none → ∀ c4 : List Bool,
      TestRun.done ([x1.1 == some .EINVAL, x2.1 == some .EINVAL, x3.1 == some .EINVAL] ++ c4 ++
        [(call W s W.abi 32#32 0#32 W.sig).1 == none,
         (call W (call W s W.abi 32#32 0#32 W.sig).2 W.abi 32#32 0#32 W.sig).1 == some .EBUSY,
         (call W (call W (call W s W.abi 32#32 0#32 W.sig).2 W.abi 32#32 0#32 W.sig).2 W.abi 32#32 unregisterFlag
            (W.sig + 1#32)).1 == some .EPERM,
         (call W (call W (call W (call W s W.abi 32#32 0#32 W.sig).2 W.abi 32#32 0#32 W.sig).2 W.abi 32#32
            unregisterFlag (W.sig + 1#32)).2 W.abi 32#32 unregisterFlag W.sig).1 == none]) =
      .done ([true, true, true] ++ c4 ++ [true, true, true, true]) := by
    intro s k4 c4
    obtain ⟨a5, k5⟩ := hO s _ _ _ _ _ _ k4 e5
    generalize call W s W.abi 32#32 0#32 W.sig = x5 at *
    obtain ⟨a6, k6⟩ := hE x5.2 _ _ _ _ _ _ k5 e6
    generalize call W x5.2 W.abi 32#32 0#32 W.sig = x6 at *
    obtain ⟨a7, k7⟩ := hE x6.2 _ _ _ _ _ _ k6 e7
    generalize call W x6.2 W.abi 32#32 unregisterFlag (W.sig + 1#32) = x7 at *
    obtain ⟨a8, _⟩ := hO x7.2 _ _ _ _ _ _ k7 e8
    generalize call W x7.2 W.abi 32#32 unregisterFlag W.sig = x8 at *
    rw [a1, a2, a3, a5, a6, a7, a8]; rfl
  cases invalid with
  | false => exact fin x3.2 k3 []
  | true =>
    obtain ⟨a4, k4⟩ := hE x3.2 _ _ _ _ _ _ k3 (e4 rfl)
    generalize call W x3.2 (-(BitVec.ofNat n 4096)) 32#32 0#32 W.sig = x4 at *
    have := fin x4.2 k4 [x4.1 == some .EFAULT]
    rw [a4] at this
    rw [a4]
    exact this

/-! ### Examples -/

/-- A 64-bit machine whose kernel has `F` bytes of features; librseq owns the registration. -/
def exW (F : Nat) (filter : Option Errno) : World 64 where
  L := {
    env := ⟨filter.isNone, F, none⟩
    be := false
    tp := fun _ => 0x7f0000010000#64
    disp := -1024#64
    libcOff := 0#64
    libcLen := 0
    t0 := 0
    ncpu := 4 }
  K := { has := true, filter := filter, legacy := false, structEnd := F, structAlign := 32, userEnd := 2 ^ 47 - 4096,
         ext := fun _ => 0#8 }
  sig := 0x53053053#32
  libcFlags := 0#32

theorem exW_sane (F : Nat) (hF : 20 ≤ F ∧ F ≤ 1024) (filter : Option Errno) : Sane (exW F filter) where
  addr := by decide
  areaAligned := by show (0x7f0000010000#64 + -1024#64).toNat % 1024 = 0; decide
  areaNonzero := by show 0x7f0000010000#64 + -1024#64 ≠ 0#64; decide
  areaUser := by show (0x7f0000010000#64 + -1024#64).toNat + 1024 ≤ 2 ^ 47 - 4096; decide
  align := by show 32 ∣ 1024; decide
  has := rfl
  auxOld := fun h => by cases h
  auxNew := fun _ => ⟨rfl, hF⟩

/-- The same with a C library that has registered the thread. -/
def exLibc (filter : Option Errno) : World 64 :=
  { exW 28 filter with L := { (exW 28 filter).L with env := ⟨true, 28, some 32⟩, libcOff := 64#64, libcLen := 32 } }

def exPlace (i : Nat) : Place := ⟨BitVec.ofNat 32 i, 0#32, BitVec.ofNat 32 i⟩

example : basicTest (exW 28 none) exPlace [0, 2, 3] (exPlace 1) (start (exW 28 none) (fun _ => 0x5a#8) (exPlace 1)) =
    .done (List.replicate 20 true ++ [true]) :=
  basic_test_own (exW_sane 28 (by omega) none) ⟨rfl, rfl⟩ rfl (by decide)
    (by intro i hi; simp at hi; rcases hi with rfl | rfl | rfl <;> exact ⟨rfl, by decide⟩) (by decide) _
example : basicTest (exW 40 none) exPlace [0, 2, 3] (exPlace 1) (start (exW 40 none) (fun _ => 0x5a#8) (exPlace 1)) =
    .done (List.replicate 20 true ++ [false]) :=
  basic_test_own (exW_sane 40 (by omega) none) ⟨rfl, rfl⟩ rfl (by decide)
    (by intro i hi; simp at hi; rcases hi with rfl | rfl | rfl <;> exact ⟨rfl, by decide⟩) (by decide) _
example : basicTest (exLibc none) exPlace [0, 3] (exPlace 1) (start (exLibc none) (fun _ => 0x5a#8) (exPlace 1)) =
    .done (List.replicate 16 true) :=
  basic_test_libc (by decide) ⟨rfl, rfl⟩ rfl (by decide) rfl (by decide) (by decide) (by decide)
    (by intro i hi; simp at hi; rcases hi with rfl | rfl <;> exact ⟨rfl, by decide⟩) (by decide) _
example : unregisteredTest (exW 28 none) (start (exW 28 none) (fun _ => 0x5a#8) (exPlace 1)) =
    .done [true, true, true, true] := unregistered_test (exW_sane 28 (by omega) none) ⟨rfl, rfl⟩ rfl (by decide) _ _
example : forkTest (exW 28 (some .ENOSYS)) (exPlace 2) (start (exW 28 (some .ENOSYS)) (fun _ => 0x5a#8) (exPlace 1)) =
    .skipped :=
  (tests_skipped (.inl rfl) _ rfl exPlace [] (exPlace 1) _ false).2.2.1
example : noSyscallTest (exW 28 none) (start (exW 28 none) (fun _ => 0x5a#8) (exPlace 1)) = .done [false] :=
  no_syscall_test_available ⟨rfl, rfl⟩ _ (by intro r hr; cases hr)
example : noSyscallTest (exW 28 (some .ENOSYS)) (start (exW 28 (some .ENOSYS)) (fun _ => 0x5a#8) (exPlace 1)) =
    .done [true, true, true, true] :=
  no_syscall_test (exW_sane 28 (by omega) _) (.inl rfl) rfl (by decide) _ _
example : ∃ a b, noSyscallTest (exLibc (some .ENOSYS)) (start (exLibc (some .ENOSYS)) (fun _ => 0x5a#8) (exPlace 1)) =
    .done [a, false, b, false] := no_syscall_test_libc (by decide) rfl rfl (by decide) (by decide) _
example : forkTest (exW 40 none) (exPlace 3) (start (exW 40 none) (fun _ => 0x5a#8) (exPlace 1)) =
    .done [true, true, true, true] :=
  fork_test (exW_sane 40 (by omega) none) ⟨rfl, rfl⟩ rfl (by decide) (by decide) _
example : syscallErrorsTest (exW 28 none) true (start (exW 28 none) (fun _ => 0x5a#8) (exPlace 1)) =
    .done (List.replicate 8 true) :=
  syscall_errors_test (exW_sane 28 (by omega) none) ⟨rfl, rfl⟩ rfl (fun _ => ⟨rfl, by decide⟩) _ _
/-- A container whose filter answers EPERM. -/
example : (rseqAvailable (exW 28 (some .EPERM)) (start (exW 28 (some .EPERM)) (fun _ => 0#8) (exPlace 1)) 0).1 = .abort := by
  rw [available_filtered (e := .EPERM) rfl]; rfl
/-- A second registration in a registered thread. -/
example : registerCurrent (exW 28 none)
    { lib := ⟨28, true, true⟩, cur := some ⟨(exW 28 none).area, 32#32, (exW 28 none).sig⟩, mem := fun _ => 0#8,
      place := exPlace 0 } = .abort :=
  (fork_child rfl rfl rfl (exPlace 0)).2.1
/-- Register, then unregister, at the level of the system call. -/
example : sysRseq (exW 28 none).K none (exW 28 none).area 32#32 0#32 (exW 28 none).sig =
    .ok (some ⟨(exW 28 none).area, 32#32, (exW 28 none).sig⟩) :=
  (register_contract (exW_sane 28 (by omega) none) (by decide) (fun _ => rfl)).1 (by decide)
example : sysRseq (exW 28 none).K (some ⟨(exW 28 none).area, 32#32, (exW 28 none).sig⟩) (exW 28 none).area 32#32
    unregisterFlag (exW 28 none).sig = .ok none :=
  (unregister_contract (exW_sane 28 (by omega) none)).1 (by decide)

end Verif.Sys
