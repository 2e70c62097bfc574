import Verif.AcquireLemmas
/-
C94: `rseq_smp_load_acquire` and `rseq_smp_store_release` transfer the values of all integer types and pointers exactly,
on every architecture and in both byte orders (the unit test tests/unit/arch-mo.c); not so for other sizes on aarch64.
-/

namespace Verif.Acquire

open Verif.Rseq (Arch)

theorem pow_eq (k : Nat) : 2 ^ (8 * k) = 256 ^ k := by rw [Nat.pow_mul]

theorem load_acquire_rd {arch : Arch} {be : Bool} {ty : Ty} (hty : ty.Common) {junk : List Byte} {m : Mem}
    {p : BitVec 64} : loadAcquire arch be ty junk m p = ty.value be (rd m p ty.size) := by
  have h8 : ∀ k, k ≤ 8 → ofNat be k (ldar be m p k).toNat = rd m p k := by
    intro k hk
    have h1 := toNat_lt be (rd m p k)
    rw [rd_length] at h1
    have h2 : 256 ^ k ≤ 256 ^ 8 := Nat.pow_le_pow_right (by omega) hk
    have h3 : (256 : Nat) ^ 8 = 2 ^ 64 := rfl
    unfold ldar
    rw [BitVec.toNat_ofNat, Nat.mod_eq_of_lt (by omega)]
    have := ofNat_toNat be (rd m p k)
    rwa [rd_length] at this
  cases arch <;> first | rfl | skip
  unfold loadAcquire
  rcases hty with h | h | h | h <;> simp only [h] <;> rw [h8 _ (by omega)]

theorem store_release_wr {arch : Arch} {be : Bool} {ty : Ty} (hty : ty.Common) {m : Mem} {p : BitVec 64} {v : Int} :
    storeRelease arch be ty m p v = wr m p (ty.repr be v) := by
  have h8 : ∀ k, k ≤ 8 → ty.size = k →
      stlr be m p k (BitVec.ofNat 64 (toNat be (ty.repr be v))) = wr m p (ty.repr be v) := by
    intro k hk e
    have h1 := toNat_lt be (ty.repr be v)
    have hl : (ty.repr be v).length = k := by unfold Ty.repr; rw [ofNat_length, e]
    rw [hl] at h1
    have h2 : 256 ^ k ≤ 256 ^ 8 := Nat.pow_le_pow_right (by omega) hk
    have h3 : (256 : Nat) ^ 8 = 2 ^ 64 := rfl
    unfold stlr
    rw [BitVec.toNat_ofNat, Nat.mod_eq_of_lt (by omega)]
    have := ofNat_toNat be (ty.repr be v)
    rw [hl] at this
    rw [this]
  cases arch <;> first | rfl | skip
  unfold storeRelease
  rcases hty with h | h | h | h <;> simp only [h] <;> exact h8 _ (by omega) h

/-- **C94: the load.**  An object of 1, 2, 4 or 8 bytes is loaded with its value and sign. -/
theorem load_acquire_value {arch : Arch} {be : Bool} {ty : Ty} (hty : ty.Common) (junk : List Byte) {m : Mem}
    {p : BitVec 64} {v : Int} (h : Holds be ty m p v) : loadAcquire arch be ty junk m p = v := by
  rw [load_acquire_rd hty]
  obtain ⟨u, h1, h2, rfl⟩ := h
  have he : rd m p ty.size = ofNat be ty.size u := eq_ofNat (rd_length ..) fun i hi => by
    refine ⟨_, rd_get m _ p _ ?_, h1 i hi⟩
    split <;> omega
  unfold Ty.value
  rw [he, toNat_ofNat, Nat.mod_eq_of_lt h2]
  have e1 : (2 : Nat) ^ (8 * ty.size) = 256 ^ ty.size := pow_eq _
  have e2 : (2 : Int) ^ (8 * ty.size) = 256 ^ ty.size := by rw [Int.pow_mul]; rfl
  rw [e1, e2]

/-- **C94: the store.**  Afterwards the object has the value stored, converted to its type; no other byte changes. -/
theorem store_release_value {arch : Arch} {be : Bool} {ty : Ty} (hty : ty.Common) {m : Mem} {p : BitVec 64}
    {v v' : Int} (hr : ty.InRange v') (hv : (v' - v) % 256 ^ ty.size = 0) :
    Holds be ty (storeRelease arch be ty m p v) p v' ∧
      ∀ a, (∀ i, i < ty.size → a ≠ p + BitVec.ofNat 64 i) → storeRelease arch be ty m p v a = m a := by
  rw [store_release_wr hty]
  have hs : ty.size ≤ 8 := by rcases hty with h | h | h | h <;> omega
  have hlen : (ty.repr be v).length = ty.size := by unfold Ty.repr; rw [ofNat_length]
  obtain ⟨M, hM⟩ : ∃ M : Nat, M = 256 ^ ty.size := ⟨_, rfl⟩
  have hMp : 0 < M := hM ▸ Nat.pow_pos (by omega)
  have hMi : (256 : Int) ^ ty.size = (M : Int) := by rw [hM]; simp
  have e2 : (2 : Int) ^ (8 * ty.size) = (M : Int) := by rw [Int.pow_mul, ← hMi]; rfl
  refine ⟨⟨(v % M).toNat, ?_, ?_, ?_⟩, fun a ha => wr_other (by rw [hlen]; exact ha)⟩
  · intro i hi
    have hg : (ty.repr be v)[if be then ty.size - 1 - i else i]? =
        some (BitVec.ofNat 8 ((v % M).toNat / 256 ^ i)) := by
      unfold Ty.repr
      rw [e2]
      exact ofNat_get be ty.size _ i hi
    rw [wr_get (by rw [hlen]; omega) _ hg, BitVec.toNat_ofNat]
  · rw [← hM]
    have := Int.emod_lt_of_pos v (show (0 : Int) < M by omega)
    have := Int.emod_nonneg v (show (M : Int) ≠ 0 by omega)
    omega
  · rw [← hM, hMi]
    have h1 := Int.emod_lt_of_pos v (show (0 : Int) < M by omega)
    have h2 := Int.emod_nonneg v (show (M : Int) ≠ 0 by omega)
    rw [hMi] at hv
    unfold Ty.InRange at hr
    rw [hMi] at hr
    have h3 : v' % M = v % M := Int.emod_eq_emod_iff_emod_sub_eq_zero.2 hv
    have h4 : ((v % M).toNat : Int) = v % M := Int.toNat_of_nonneg h2
    rw [h4]
    split at hr
    · next hsg =>
      by_cases hneg : v' < 0
      · have h5 : v' % M = v' + M := by
          rw [← Int.add_emod_right]
          exact Int.emod_eq_of_lt (by omega) (by omega)
        rw [if_pos ⟨hsg, by omega⟩]
        omega
      · have h5 : v' % M = v' := Int.emod_eq_of_lt (by omega) (by omega)
        rw [if_neg (fun hh => by omega)]
        omega
    · next hsg =>
      have h5 : v' % M = v' := Int.emod_eq_of_lt hr.1 hr.2
      rw [if_neg (fun hh => hsg hh.1)]
      omega

/-- **C94: release, then acquire, between two CPUs with memory in between.** -/
theorem release_then_acquire {arch : Arch} {be : Bool} {ty : Ty} (hty : ty.Common) (junk : List Byte) {m : Mem}
    {p : BitVec 64} {v : Int} (hr : ty.InRange v) :
    loadAcquire arch be ty junk (storeRelease arch be ty m p v) p = v :=
  load_acquire_value hty junk (store_release_value hty hr (by simp)).1

/-- **C94, F41: other sizes on aarch64.**  The load does not access the object and its result is whatever the union
contained; the store does nothing. -/
theorem other_size_lost {be : Bool} {ty : Ty} (hty : ¬ ty.Common) (junk : List Byte) (m : Mem) (p : BitVec 64)
    (v : Int) : loadAcquire .aarch64 be ty junk m p = ty.value be junk ∧
      storeRelease .aarch64 be ty m p v = m := by
  have h : ty.size ≠ 1 ∧ ty.size ≠ 2 ∧ ty.size ≠ 4 ∧ ty.size ≠ 8 := by unfold Ty.Common at hty; omega
  unfold loadAcquire storeRelease
  dsimp only
  constructor
  · split <;> first | rfl | omega
  · split <;> first | rfl | omega

/-- F41: `unsigned __int128` on aarch64, where the object has value 5: the result can be 0. -/
theorem load_acquire_int128 : ∃ (m : Mem) (junk : List Byte), Holds false ⟨16, false⟩ m 0x1000#64 5 ∧
    junk.length = 16 ∧ loadAcquire .aarch64 false ⟨16, false⟩ junk m 0x1000#64 = 0 ∧
    loadAcquire .riscv false ⟨16, false⟩ junk m 0x1000#64 = 5 := by
  refine ⟨fun a => if a = 0x1000#64 then 5#8 else 0#8, List.replicate 16 0#8, ⟨5, ?_, by decide, by decide⟩, rfl,
    by decide, by decide⟩
  intro i hi
  have hi : i < 16 := hi
  rcases i with _ | i
  · decide
  · have h1 : 0x1000#64 + BitVec.ofNat 64 (i + 1) ≠ 0x1000#64 := by
      intro e
      have := congrArg BitVec.toNat e
      rw [BitVec.toNat_add, BitVec.toNat_ofNat, BitVec.toNat_ofNat] at this
      omega
    have h2 : 5 / 256 ^ (i + 1) = 0 := Nat.div_eq_of_lt (Nat.lt_of_lt_of_le (by decide : 5 < 256 ^ 1)
      (Nat.pow_le_pow_right (by omega) (by omega)))
    simp [h1, h2]

/-! ### Examples: the checks of tests/unit/arch-mo.c -/

/-- `.v_s8 = -(0x11)` (:29) on any architecture, at 0x1000. -/
example (arch : Arch) (junk : List Byte) :
    loadAcquire arch false ⟨1, true⟩ junk (fun _ => 0xef#8) 0x1000#64 = -0x11 :=
  load_acquire_value (.inl rfl) junk ⟨0xef, fun i hi => by
    have hi : i < 1 := hi
    have : i = 0 := by omega
    subst this; decide, by decide, by decide⟩

/-- `rseq_smp_store_release(&store_s.v_s32, -(0x11223344))` (:102), big-endian data. -/
example (arch : Arch) (m : Mem) : Holds true ⟨4, true⟩ (storeRelease arch true ⟨4, true⟩ m 0x1000#64 (-0x11223344))
    0x1000#64 (-0x11223344) :=
  (store_release_value (.inr (.inr (.inl rfl))) (by unfold Ty.InRange; decide) (by decide)).1

/-- Storing 300 to a `uint8_t`. -/
example (arch : Arch) (m : Mem) : Holds true ⟨1, false⟩ (storeRelease arch true ⟨1, false⟩ m 0x1000#64 300)
    0x1000#64 44 :=
  (store_release_value (.inl rfl) (by unfold Ty.InRange; decide) (by decide)).1

/-- `uint64_t` (:53, :107) -/
example (arch : Arch) (be : Bool) (junk : List Byte) (m : Mem) :
    loadAcquire arch be ⟨8, false⟩ junk (storeRelease arch be ⟨8, false⟩ m 0x1000#64 0x1122334455667788) 0x1000#64 =
      0x1122334455667788 :=
  release_then_acquire (.inr (.inr (.inr rfl))) junk (by unfold Ty.InRange; decide)

example : storeRelease .aarch64 false ⟨16, false⟩ (fun _ => 0#8) 0x1000#64 5 = fun _ => 0#8 :=
  (other_size_lost (by unfold Ty.Common; decide) [] _ _ 5).2

end Verif.Acquire
