import Verif.MmapProps
/-
C31, outside its precondition: requests whose size does not fit a `size_t` (rseq-mempool.c:644-647).
-/
namespace Verif.Mmap
open Verif.Bits

variable {n : Nat}

/-- Arguments that pass the checks of 629-642. -/
structure Accepted (page len align pre : Nat) : Prop where
  page_pow : IsPowTwo page
  align_pow : IsPowTwo align
  page_le_align : page ≤ align
  len_pos : 0 < len
  align_dvd_len : align ∣ len
  page_dvd_pre : page ∣ pre

theorem Accepted.not_einval (hn : n = 32 ∨ n = 64) (k : Kernel n) {page len align pre : BitVec n}
    (h : Accepted page.toNat len.toNat align.toNat pre.toNat) : alignedMmap k page len align pre ≠ .einval := by
  rw [Ne, alignedMmap_einval_iff hn k page len align pre h.page_pow]
  have := Nat.le_of_dvd h.len_pos h.align_dvd_len
  have := h.page_le_align
  rintro (h1 | h1 | h1 | h1 | h1)
  · omega
  · omega
  · exact h1 h.align_pow
  · exact h1 h.align_dvd_len
  · exact h1 h.page_dvd_pre

/-- The request to the kernel, when the checks are passed: the assertion of 647, and the length of the block. -/
theorem request (hn : n = 32 ∨ n = 64) (k : Kernel n) {page len align pre : BitVec n} {po : Nat} (hpo : page.toNat = 2 ^ po)
    (h : Accepted page.toNat len.toNat align.toNat pre.toNat) :
    let mn := (pre + len) >>> po
    let cnt := (pre + len + align - page) >>> po
    (¬ mn ≤ cnt → alignedMmap k page len align pre = .assertFailed) ∧
    (mn ≤ cnt → (k.mmap (cnt <<< po) = none → alignedMmap k page len align pre = .mmapFailed) ∧
      ∀ base header mapped unmaps, alignedMmap k page len align pre = .ok base header mapped unmaps →
        mapped.2 = cnt <<< po ∧ k.mmap mapped.2 = some mapped.1) := by
  intro mn cnt
  have hne := h.not_einval hn k
  have order : (countOrderUlong page).toNat = po := by rw [countOrderUlong_pow hn hpo]; rfl
  have hfin : ∀ {ptr c' tot mapped unmaps base header m' u'},
      finish k po len align pre ptr c' mn tot mapped unmaps = .ok base header m' u' → m' = mapped := by
    intro ptr c' tot mapped unmaps base header m' u' hf
    unfold finish at hf
    split at hf
    · cases hf
    · simp only [] at hf
      split at hf
      · cases hf
      · (repeat' split at hf) <;> first | (injection hf with _ _ e _; exact e.symm) | cases hf
  unfold alignedMmap at hne ⊢
  split at hne
  · exact absurd rfl hne
  rename_i n1
  split at hne
  · exact absurd rfl hne
  rename_i n2
  simp only [] at hne
  split at hne
  · exact absurd rfl hne
  rename_i n3
  clear hne
  rw [if_neg n1, if_neg n2, order]
  simp only []
  rw [if_neg n3]
  constructor
  · intro hc
    rw [if_pos hc]
  · intro hc
    rw [if_neg (not_not_intro hc)]
    show ((k.mmap (cnt <<< po) = none) → _) ∧ _
    cases hm : k.mmap (cnt <<< po) with
    | none =>
      exact ⟨fun _ => rfl, fun _ _ _ _ e => by cases e⟩
    | some ptr =>
      refine ⟨(fun e => by cases e), fun base header mapped unmaps e => ?_⟩
      have key : mapped = (ptr, cnt <<< po) := by
        simp only [] at e
        split at e
        · exact hfin e
        · split at e
          · cases e
          · split at e
            · cases e
            · exact hfin e
      rw [key]
      exact ⟨rfl, hm⟩

/-- C31: if header and range fit a `size_t`, but not with the room for the alignment, the assertion of 647 fails: an abort where
the documentation has a NULL result (and, without assertions, a block that is too short). -/
theorem alignedMmap_assert (hn : n = 32 ∨ n = 64) (k : Kernel n) (page len align pre : BitVec n)
    (h : Accepted page.toNat len.toNat align.toNat pre.toNat) (hfit : pre.toNat + len.toNat < 2 ^ n)
    (hwrap : 2 ^ n ≤ pre.toNat + len.toNat + (align.toNat - page.toNat)) : alignedMmap k page len align pre = .assertFailed := by
  obtain ⟨po, hpo⟩ := h.page_pow
  refine (request hn k hpo h).1 ?_
  have hP := Nat.two_pow_pos po
  have hpa := h.page_le_align
  have e1 : (pre + len).toNat = pre.toNat + len.toNat := add_toNat hfit
  have e2 : (pre + len + align - page).toNat = pre.toNat + len.toNat + (align.toNat - page.toNat) - 2 ^ n := by
    have ha := align.isLt
    have hp := page.isLt
    rw [BitVec.toNat_sub, BitVec.toNat_add, e1]
    have h1 : (pre.toNat + len.toNat + align.toNat) % 2 ^ n = pre.toNat + len.toNat + align.toNat - 2 ^ n := by
      rw [Nat.mod_eq_sub_mod (by omega), Nat.mod_eq_of_lt (by omega)]
    rw [h1, Nat.mod_eq_sub_mod (by omega), Nat.mod_eq_of_lt (by omega)]
    omega
  rw [BitVec.le_def, shr_toNat, shr_toNat, e1, e2]
  intro hle
  -- both are whole numbers of pages
  have hdl : 2 ^ po ∣ len.toNat := by
    obtain ⟨ka, hka⟩ := h.align_pow
    rw [hpo, hka] at hpa
    exact Nat.dvd_trans (Nat.pow_dvd_pow 2 ((Nat.pow_le_pow_iff_right (by decide)).1 hpa)) (hka ▸ h.align_dvd_len)
  have hd1 : 2 ^ po ∣ pre.toNat + len.toNat := Nat.dvd_add (hpo ▸ h.page_dvd_pre) hdl
  obtain ⟨q, hq⟩ := hd1
  have ha := align.isLt
  have hlt : pre.toNat + len.toNat + (align.toNat - page.toNat) - 2 ^ n < 2 ^ po * q := by omega
  rw [hq, Nat.mul_div_cancel_left _ hP] at hle
  have := Nat.div_lt_of_lt_mul hlt
  rw [hq] at this
  omega

/-- C31: if header and range together do not fit a `size_t`, the block asked of the kernel is smaller than the header and one alignment
unit; the function may return it as a range. -/
theorem alignedMmap_short (hn : n = 32 ∨ n = 64) (k : Kernel n) (page len align pre : BitVec n)
    (h : Accepted page.toNat len.toNat align.toNat pre.toNat) (hwrap : 2 ^ n ≤ pre.toNat + len.toNat)
    (hsmall : pre.toNat + align.toNat ≤ 2 ^ n) (base header : BitVec n) (mapped : BitVec n × BitVec n) (unmaps : List (BitVec n × BitVec n))
    (hok : alignedMmap k page len align pre = .ok base header mapped unmaps) :
    mapped.2.toNat = pre.toNat + len.toNat - 2 ^ n + (align.toNat - page.toNat) ∧ mapped.2.toNat < pre.toNat + align.toNat := by
  obtain ⟨po, hpo⟩ := h.page_pow
  have hr := request hn k hpo h
  dsimp only at hr
  have hP := Nat.two_pow_pos po
  have hpa := h.page_le_align
  have hl := len.isLt
  have hp := pre.isLt
  have e1 : (pre + len).toNat = pre.toNat + len.toNat - 2 ^ n := by
    rw [BitVec.toNat_add, Nat.mod_eq_sub_mod (by omega), Nat.mod_eq_of_lt (by omega)]
  have e2 : (pre + len + align - page).toNat = pre.toNat + len.toNat - 2 ^ n + (align.toNat - page.toNat) := by
    have h1 : (pre + len + align).toNat = pre.toNat + len.toNat - 2 ^ n + align.toNat := by
      rw [add_toNat (by rw [e1]; omega), e1]
    rw [sub_toNat (by rw [h1]; omega), h1]; omega
  by_cases hc : (pre + len) >>> po ≤ (pre + len + align - page) >>> po
  · have hm := ((hr.2 hc).2 _ _ _ _ hok).1
    have hpow : ∃ j, 2 ^ n = 2 ^ po * j := by
      have hpn : po ≤ n := by
        have := page.isLt
        rw [hpo] at this
        exact Nat.le_of_lt ((Nat.pow_lt_pow_iff_right (by decide)).1 this)
      exact Nat.pow_dvd_pow 2 hpn
    have hda : 2 ^ po ∣ align.toNat := by
      obtain ⟨ka, hka⟩ := h.align_pow
      rw [hpo, hka] at hpa
      rw [hka]
      exact Nat.pow_dvd_pow 2 ((Nat.pow_le_pow_iff_right (by decide)).1 hpa)
    have hdl : 2 ^ po ∣ len.toNat := Nat.dvd_trans hda h.align_dvd_len
    have hd : 2 ^ po ∣ pre.toNat + len.toNat - 2 ^ n + (align.toNat - page.toNat) :=
      Nat.dvd_add (Nat.dvd_sub (Nat.dvd_add (hpo ▸ h.page_dvd_pre) hdl) hpow) (Nat.dvd_sub hda (hpo ▸ Nat.dvd_refl _))
    have e3 : mapped.2.toNat = pre.toNat + len.toNat - 2 ^ n + (align.toNat - page.toNat) := by
      have hdiv : (pre.toNat + len.toNat - 2 ^ n + (align.toNat - page.toNat)) / 2 ^ po * 2 ^ po =
          pre.toNat + len.toNat - 2 ^ n + (align.toNat - page.toNat) := Nat.div_mul_cancel hd
      rw [hm, shl_toNat (by rw [shr_toNat, e2, hdiv]; omega), shr_toNat, e2, hdiv]
    exact ⟨e3, by omega⟩
  · rw [hr.1 hc] at hok
    cases hok

/-- 32 bits, pages and stride of 4 kB: 2^20 - 1 CPUs (no init copy, not robust) make a range of 4 GB less a page; with the two header pages
the sum is one page, and that is what is mapped: neither the second page of the header nor the range. -/
example : Accepted (4096#32).toNat (0xFFFFF000#32).toNat (4096#32).toNat (8192#32).toNat ∧
    alignedMmap (⟨fun _ => some 0xB0000000#32, fun _ _ => true⟩ : Kernel 32) 4096#32 0xFFFFF000#32 4096#32 8192#32 =
      .ok 0xB0002000#32 0xB0000000#32 (0xB0000000#32, 4096#32) [] :=
  ⟨⟨⟨12, by decide⟩, ⟨12, by decide⟩, by decide, by decide, by decide, by decide⟩, by decide⟩

/-- 32 bits, stride of 1 GB, three CPUs: 3 GB and the header fit, not so with the room for the alignment. -/
example : Accepted (4096#32).toNat (0xC0000000#32).toNat (0x40000000#32).toNat (8192#32).toNat ∧
    2 ^ 32 ≤ (8192#32).toNat + (0xC0000000#32).toNat + ((0x40000000#32).toNat - (4096#32).toNat) :=
  ⟨⟨⟨12, by decide⟩, ⟨30, by decide⟩, by decide, by decide, by decide, by decide⟩, by decide⟩

/-- 64 bits, a stride of 2^63 bytes and one CPU: whatever the kernel would say, the process ends. -/
example (k : Kernel 64) : alignedMmap k 4096#64 0x8000000000000000#64 0x8000000000000000#64 8192#64 = .assertFailed :=
  alignedMmap_assert (Or.inr rfl) k _ _ _ _ ⟨⟨12, by decide⟩, ⟨63, by decide⟩, by decide, by decide, by decide, by decide⟩ (by decide) (by decide)

end Verif.Mmap
