import Verif.RangeSysProps
import Verif.MmapWrapProps
/-
C66, outside its precondition (F56): a range that fits the address space, but not with the room for its alignment.
-/
namespace Verif.RangeSys
open Verif Verif.Mem Verif.Mempool

section
variable [Abi]

/-- C66: creating such a range ends the process, whatever the system would answer; no result NULL. -/
theorem rangeCreateSys_asserts {c : Config} (hv : Valid c) (nr : Nat) (hnr : c.maxRanges = 0 ∨ nr < c.maxRanges) (env : SysEnv) (s : Sys)
    (hfit : 2 * c.pg + rangeLen c < 2 ^ (8 * wb)) (hbig : 2 ^ (8 * wb) ≤ 2 * c.pg + rangeLen c + (c.stride - c.pg)) :
    rangeCreateSys c nr env s = .killed := by
  have hcols : 1 ≤ c.nCols := by
    have := hv.ncpu_pos
    unfold Config.nCols
    split <;> split <;> omega
  have hlen := rangeLen_eq c
  have hsl : c.stride ≤ rangeLen c := by
    rw [hlen]; exact Nat.le_mul_of_pos_right _ hcols
  have hpl := hv.pg_le
  obtain ⟨kp, hkp⟩ := hv.pg_pow
  have hp0 := Nat.two_pow_pos kp
  have t1 : (BitVec.ofNat (8 * wb) c.pg).toNat = c.pg := by
    rw [BitVec.toNat_ofNat]; exact Nat.mod_eq_of_lt (by omega)
  have t2 : (rangeLenW c).toNat = rangeLen c := rangeLenW_toNat (by omega)
  have t3 : (BitVec.ofNat (8 * wb) c.stride).toNat = c.stride := by
    rw [BitVec.toNat_ofNat]; exact Nat.mod_eq_of_lt (by omega)
  have t4 : (BitVec.ofNat (8 * wb) 2 * BitVec.ofNat _ c.pg).toNat = 2 * c.pg := by
    rw [BitVec.toNat_mul, t1, BitVec.toNat_ofNat, Nat.mod_eq_of_lt (show 2 < 2 ^ (8 * wb) by omega)]
    exact Nat.mod_eq_of_lt (by omega)
  have h := Mmap.alignedMmap_assert bits_eq env.k (BitVec.ofNat _ c.pg) (rangeLenW c) (BitVec.ofNat _ c.stride)
    (BitVec.ofNat _ 2 * BitVec.ofNat _ c.pg)
    (by rw [t1, t2, t3, t4]; exact ⟨hv.pg_pow, hv.stride_pow, hpl, by omega, by rw [hlen]; exact Nat.dvd_mul_right _ _, Nat.dvd_mul_left _ _⟩)
    (by rw [t2, t4]; exact hfit) (by rw [t1, t2, t3, t4]; exact hbig)
  unfold rangeCreateSys
  rw [if_neg (by omega)]
  dsimp only
  rw [h]

end

/-- A stride of 2^63 bytes for one CPU, which `rseq_mempool_create` accepts. -/
example : let _ := le64
    ∃ c : Config, validate (some { stride := 0x8000000000000000#64, maxNrCpus := 1, policy := 1 }) 8#64 4096 8 = .cfg c ∧ Valid c ∧
      2 * c.pg + rangeLen c < 2 ^ 64 ∧ 2 ^ 64 ≤ 2 * c.pg + rangeLen c + (c.stride - c.pg) := by
  intro _
  exact ⟨{ pg := 4096, order := 3, stride := 2 ^ 63, ncpu := 1, cow := false, robust := false, poison := none, maxRanges := 0, initSet := false, global := false },
    by decide, ⟨by decide, by decide, ⟨63, by decide⟩, ⟨12, by decide⟩, by decide, by decide, fun h => (by cases h), fun h => (by cases h)⟩, by decide, by decide⟩

end Verif.RangeSys
