import Verif.Mmap
import Verif.BitsProps
/-!
C31: the aligned mapping helper keeps exactly the requested memory.

Specification vocabulary (independent of the model): a call is *well formed* when page size and
alignment are powers of two, the alignment is at least a page, the length is a positive multiple of
the alignment, the header length is a multiple of the page size and the total request does not
exceed the address space. The kernel is *conforming* when every address it returns is page aligned,
not NULL, and the mapped block ends at or below 2^n, n the number of bits of an address.
-/
namespace Verif.Mmap
open Verif.Bits

variable {n : Nat}

/-- Preconditions under which the caller may rely on the helper. -/
structure WellFormed (n page len align pre : Nat) : Prop where
  page_pow : IsPowTwo page
  align_pow : IsPowTwo align
  page_le_align : page ≤ align
  len_pos : 0 < len
  align_dvd_len : align ∣ len
  page_dvd_pre : page ∣ pre
  fits : pre + len + align < 2 ^ n

/-- Contract of the `mmap` system call for anonymous memory. -/
def KernelOk (k : Kernel n) (page : Nat) : Prop :=
  ∀ l a, k.mmap l = some a → page ∣ a.toNat ∧ 0 < a.toNat ∧ a.toNat + l.toNat < 2 ^ n

/-- Byte `x` belongs to the block `(address, length)`. -/
def InBlock (x : Nat) (b : BitVec n × BitVec n) : Prop :=
  b.1.toNat ≤ x ∧ x < b.1.toNat + b.2.toNat

/-- Bytes left mapped after the call: mapped by `mmap` and not in any unmapped block. -/
def StillMapped (mapped : BitVec n × BitVec n) (unmaps : List (BitVec n × BitVec n)) (x : Nat) : Prop :=
  InBlock x mapped ∧ ∀ u ∈ unmaps, ¬ InBlock x u

theorem and_mask_eq_zero_iff {v m : BitVec n} {k : Nat} (hm : m.toNat = 2 ^ k) :
    v &&& (m - 1#n) = 0#n ↔ 2 ^ k ∣ v.toNat := by
  rw [← BitVec.toNat_inj, BitVec.toNat_and, toNat_sub_one_of_pow hm, Nat.and_two_pow_sub_one_eq_mod,
    BitVec.toNat_ofNat, Nat.zero_mod, Nat.dvd_iff_mod_eq_zero]

theorem countOrderUlong_pow (hn : n = 32 ∨ n = 64) {p : BitVec n} {k : Nat} (hp : p.toNat = 2 ^ k) : countOrderUlong p = k := by
  have h0 : p ≠ 0#n := by
    intro h; rw [h] at hp
    have : 0 < 2 ^ k := Nat.two_pow_pos k
    simp at hp; omega
  obtain ⟨j, hj, ⟨h1, h2⟩, _⟩ := countOrderUlong_isLeast hn p h0
  rw [hp] at h1
  have a : k ≤ j := (Nat.pow_le_pow_iff_right (by decide)).1 h1
  have b : j ≤ k := h2 k (by omega)
  rw [hj]; omega

/-- Converting a `size_t` to `uint64_t` keeps its value. -/
theorem widen_toNat (hn : n = 32 ∨ n = 64) (x : BitVec n) : (x.setWidth 64).toNat = x.toNat := by
  rcases hn with rfl | rfl
  · rw [BitVec.toNat_setWidth]
    have := x.isLt
    omega
  · rw [BitVec.setWidth_eq]

theorem add_toNat {a b : BitVec n} (h : a.toNat + b.toNat < 2 ^ n) : (a + b).toNat = a.toNat + b.toNat := by
  rw [BitVec.toNat_add, Nat.mod_eq_of_lt h]

theorem sub_toNat {a b : BitVec n} (h : b.toNat ≤ a.toNat) : (a - b).toNat = a.toNat - b.toNat := by
  exact BitVec.toNat_sub_of_le (BitVec.le_def.2 h)

theorem shr_toNat (a : BitVec n) (k : Nat) : (a >>> k).toNat = a.toNat / 2 ^ k := by
  rw [BitVec.toNat_ushiftRight, Nat.shiftRight_eq_div_pow]

theorem shl_toNat {a : BitVec n} {k : Nat} (h : a.toNat * 2 ^ k < 2 ^ n) :
    (a <<< k).toNat = a.toNat * 2 ^ k := by
  rw [BitVec.toNat_shiftLeft, Nat.shiftLeft_eq, Nat.mod_eq_of_lt h]

/-- What the tail of the function does when the pages before have been trimmed. All quantities in
pages: `c` pages remain at `ptr`, `m` of them are wanted. -/
theorem finish_spec {k : Kernel n} {po ka : Nat} {len align pre ptr cnt mn tot : BitVec n} {mapped} {unmaps}
    (halign : align.toNat = 2 ^ ka)
    (hmn : mn.toNat ≤ cnt.toNat)
    (hptr : 2 ^ ka ∣ ptr.toNat + pre.toNat)
    (hfit : ptr.toNat + cnt.toNat * 2 ^ po < 2 ^ n)
    (hwant : mn.toNat * 2 ^ po = pre.toNat + len.toNat)
    (htot : tot.toNat = cnt.toNat * 2 ^ po)
    {o : Outcome n} (ho : finish k po len align pre ptr cnt mn tot mapped unmaps = o) :
    o = .aborted ∨ ∃ base, o = .ok base ptr mapped
        (if mn.toNat < cnt.toNat then unmaps ++ [(ptr + (mn <<< po), (cnt - mn) <<< po)] else unmaps) ∧
      base.toNat = ptr.toNat + pre.toNat ∧
      (ptr + (mn <<< po)).toNat = ptr.toNat + mn.toNat * 2 ^ po ∧
      ((cnt - mn) <<< po).toNat = (cnt.toNat - mn.toNat) * 2 ^ po := by
  have hmc : mn.toNat * 2 ^ po ≤ cnt.toNat * 2 ^ po := Nat.mul_le_mul_right _ hmn
  have e1 : (mn <<< po).toNat = mn.toNat * 2 ^ po := shl_toNat (by omega)
  have e2 : (ptr + (mn <<< po)).toNat = ptr.toNat + mn.toNat * 2 ^ po := by
    rw [add_toNat (by omega), e1]
  have e3 : (cnt - mn).toNat = cnt.toNat - mn.toNat := sub_toNat hmn
  have e4 : ((cnt - mn) <<< po).toNat = (cnt.toNat - mn.toNat) * 2 ^ po := by
    rw [shl_toNat (by rw [e3, Nat.sub_mul]; omega), e3]
  have e5 : (ptr + pre).toNat = ptr.toNat + pre.toNat := add_toNat (by omega)
  have e6 : (len + pre).toNat = len.toNat + pre.toNat := add_toNat (by omega)
  unfold finish at ho
  have c1 : mn ≤ cnt := by rw [BitVec.le_def]; exact hmn
  rw [if_neg (not_not_intro c1)] at ho
  simp only [BitVec.lt_def] at ho
  have c2 : (ptr + pre) &&& (align - 1#n) = 0#n := by
    rw [and_mask_eq_zero_iff halign, e5]; exact hptr
  rw [if_neg (not_not_intro c2)] at ho
  by_cases hab : (decide (mn.toNat < cnt.toNat) && !k.munmapOk (ptr + mn <<< po) ((cnt - mn) <<< po)) = true
  · rw [if_pos hab] at ho; exact Or.inl ho.symm
  · rw [if_neg hab] at ho
    right
    refine ⟨ptr + pre, ?_, e5, e2, e4⟩
    have c3 : (if decide (mn.toNat < cnt.toNat) = true then tot - (cnt - mn) <<< po else tot) = len + pre := by
      apply BitVec.eq_of_toNat_eq
      rw [e6]
      by_cases h : mn.toNat < cnt.toNat
      · rw [if_pos (decide_eq_true h), sub_toNat (by rw [e4, htot]; exact Nat.mul_le_mul_right _ (by omega)), e4, htot, Nat.sub_mul]
        omega
      · rw [if_neg (by simpa using h), htot]
        have : mn.toNat = cnt.toNat := by omega
        rw [← this]; omega
    rw [if_neg (not_not_intro c3)] at ho
    rw [← ho]
    simp only [decide_eq_true_eq]

theorem finish_aborted {k : Kernel n} {po len align pre ptr cnt mn tot mapped unmaps}
    (h : finish k po len align pre ptr cnt mn tot mapped unmaps = .aborted) :
    ∃ a l, k.munmapOk a l = false := by
  unfold finish at h
  split at h
  · cases h
  · simp only [] at h
    split at h
    · rename_i h2
      rw [Bool.and_eq_true, Bool.not_eq_true'] at h2
      exact ⟨_, _, h2.2⟩
    · exfalso
      split at h
      · cases h
      · (repeat' split at h) <;> cases h

theorem finish_ne_einval {k : Kernel n} {po len align pre ptr cnt mn tot mapped unmaps} :
    finish k po len align pre ptr cnt mn tot mapped unmaps ≠ .einval := by
  intro h
  unfold finish at h
  split at h
  · cases h
  · simp only [] at h
    split at h
    · cases h
    · split at h
      · cases h
      · (repeat' split at h) <;> cases h

/-- C31 (main statement). For every well-formed request and every conforming kernel the helper
reports `mmap` failure when the kernel refuses the request for the needed length, aborts because the kernel refused a `munmap`, or returns a base
address that is aligned, preceded by the header, such that exactly the bytes
`[header, header + pre + len)` remain mapped. Every `munmap` it issues is page-aligned, not empty and inside
the block just mapped, so no other mapping is touched. It never fails an assertion and never reports EINVAL. -/
theorem alignedMmap_exact (hn : n = 32 ∨ n = 64) (k : Kernel n) (page len align pre : BitVec n)
    (wf : WellFormed n page.toNat len.toNat align.toNat pre.toNat) (hk : KernelOk k page.toNat) :
    (alignedMmap k page len align pre = .mmapFailed ∧
      ∃ l, l.toNat = pre.toNat + len.toNat + (align.toNat - page.toNat) ∧ k.mmap l = none) ∨
    (alignedMmap k page len align pre = .aborted ∧ ∃ a l, k.munmapOk a l = false) ∨
    ∃ base header mapped unmaps,
      alignedMmap k page len align pre = .ok base header mapped unmaps ∧
      align.toNat ∣ base.toNat ∧
      base.toNat = header.toNat + pre.toNat ∧
      base.toNat + len.toNat < 2 ^ n ∧ 0 < header.toNat ∧
      (∀ x, StillMapped mapped unmaps x ↔ header.toNat ≤ x ∧ x < base.toNat + len.toNat) ∧
      mapped.2.toNat = pre.toNat + len.toNat + (align.toNat - page.toNat) ∧ k.mmap mapped.2 = some mapped.1 ∧
      ∀ u ∈ unmaps, page.toNat ∣ u.1.toNat ∧ page.toNat ∣ u.2.toNat ∧ 0 < u.2.toNat ∧
        mapped.1.toNat ≤ u.1.toNat ∧ u.1.toNat + u.2.toNat ≤ mapped.1.toNat + mapped.2.toNat := by
  obtain ⟨⟨po, hpo⟩, ⟨ka, hka⟩, hpa, hlp, hal, hpp, hfit⟩ := wf
  rw [hpo] at hpa hpp
  rw [hka] at hpa hal hfit
  have hPpos : 0 < 2 ^ po := Nat.two_pow_pos po
  have hApos : 0 < 2 ^ ka := Nat.two_pow_pos ka
  have hpk : po ≤ ka := (Nat.pow_le_pow_iff_right (by decide)).1 hpa
  have hPA : 2 ^ po ∣ 2 ^ ka := Nat.pow_dvd_pow 2 hpk
  have hPlen : 2 ^ po ∣ len.toNat := Nat.dvd_trans hPA hal
  have hAlen : 2 ^ ka ≤ len.toNat := Nat.le_of_dvd hlp hal
  -- the validity checks all pass
  have n1 : ¬ (len < page ∨ align < page ∨ isPow2 (align.setWidth 64) = false ∨ len &&& (align - 1#n) ≠ 0#n) := by
    rw [BitVec.lt_def, BitVec.lt_def, hpo, hka]
    have p1 : isPow2 (align.setWidth 64) = true := (isPow2_iff (align.setWidth 64)).2 (Or.inr ⟨ka, by rw [widen_toNat hn, hka]⟩)
    have p2 : len &&& (align - 1#n) = 0#n := (and_mask_eq_zero_iff hka).2 hal
    rintro (h | h | h | h)
    · omega
    · omega
    · rw [p1] at h; cases h
    · exact h p2
  have n2 : ¬ countOrderUlong page < 0 := by rw [countOrderUlong_pow hn hpo]; omega
  have n3 : ¬ (pre ≠ 0#n ∧ pre &&& (page - 1#n) ≠ 0#n) := by
    rintro ⟨_, h⟩; exact h ((and_mask_eq_zero_iff hpo).2 hpp)
  have order : (countOrderUlong page).toNat = po := by rw [countOrderUlong_pow hn hpo]; rfl
  -- arithmetic of the request
  have e1 : (pre + len).toNat = pre.toNat + len.toNat := add_toNat (by omega)
  have e2 : (pre + len + align).toNat = pre.toNat + len.toNat + 2 ^ ka := by
    rw [add_toNat (by rw [e1, hka]; exact hfit), e1, hka]
  have e3 : (pre + len + align - page).toNat = pre.toNat + len.toNat + (2 ^ ka - 2 ^ po) := by
    rw [sub_toNat (by rw [e2, hpo]; omega), e2, hpo]; omega
  obtain ⟨cp, hcp⟩ := hpp
  obtain ⟨cl, hcl⟩ := hPlen
  obtain ⟨ca, hca⟩ := hPA
  have hca1 : 1 ≤ ca := by
    rcases Nat.eq_zero_or_pos ca with h | h
    · rw [h] at hca; omega
    · exact h
  have e4 : ((pre + len) >>> po).toNat = cp + cl := by
    rw [shr_toNat, e1, hcp, hcl, ← Nat.mul_add, Nat.mul_div_cancel_left _ hPpos]
  have e5 : ((pre + len + align - page) >>> po).toNat = cp + cl + (ca - 1) := by
    rw [shr_toNat, e3, hcp, hcl, hca, show 2 ^ po * ca - 2 ^ po = 2 ^ po * (ca - 1) from by
      rw [Nat.mul_sub, Nat.mul_one], ← Nat.mul_add, ← Nat.mul_add, Nat.mul_div_cancel_left _ hPpos]
  have hT : (cp + cl + (ca - 1)) * 2 ^ po = pre.toNat + len.toNat + (2 ^ ka - 2 ^ po) := by
    rw [hcp, hcl, hca, Nat.mul_comm _ (2 ^ po), Nat.mul_add, Nat.mul_add, Nat.mul_sub, Nat.mul_one]
  have e6 : (((pre + len + align - page) >>> po) <<< po).toNat = pre.toNat + len.toNat + (2 ^ ka - 2 ^ po) := by
    rw [shl_toNat (by rw [e5, hT]; omega), e5, hT]
  have n4 : ¬ ¬ ((pre + len) >>> po ≤ (pre + len + align - page) >>> po) := by
    rw [BitVec.le_def, e4, e5]; omega
  have hwant : (cp + cl) * 2 ^ po = pre.toNat + len.toNat := by
    rw [hcp, hcl, Nat.mul_comm, Nat.mul_add]
  unfold alignedMmap
  rw [if_neg n1, if_neg n2, order]
  simp only []
  rw [if_neg n3, if_neg n4]
  cases hm : k.mmap (((pre + len + align - page) >>> po) <<< po) with
  | none => exact Or.inl ⟨rfl, _, by rw [e6, hka, hpo], hm⟩
  | some ptr =>
    right
    obtain ⟨hpd, hpz, hpe⟩ := hk _ _ hm
    rw [hpo] at hpd
    rw [e6] at hpe
    have e7 : (ptr + pre).toNat = ptr.toNat + pre.toNat := add_toNat (by omega)
    simp only []
    by_cases hal0 : (ptr + pre) &&& (align - 1#n) = 0#n
    · -- already aligned
      rw [if_pos hal0]
      have hd : 2 ^ ka ∣ ptr.toNat + pre.toNat := by
        rw [← e7]; exact (and_mask_eq_zero_iff hka).1 hal0
      rcases finish_spec (k := k) (po := po) (ka := ka) (len := len) (align := align) (pre := pre) (ptr := ptr)
        (mn := (pre + len) >>> po) (cnt := (pre + len + align - page) >>> po)
        (tot := ((pre + len + align - page) >>> po) <<< po)
        (mapped := (ptr, ((pre + len + align - page) >>> po) <<< po)) (unmaps := []) hka
        (by rw [e4, e5]; omega) hd (by rw [e5, hT]; exact hpe) (by rw [e4, hwant]) (by rw [e6, e5, hT]) rfl with hab | ⟨base, ho, hb, hu1, hu2⟩
      · left
        exact ⟨hab, finish_aborted hab⟩
      · right
        refine ⟨base, ptr, _, _, ho, ?_, hb, by omega, hpz, ?_, by rw [e6, hka, hpo], hm, ?_⟩
        · rw [hb, hka]; exact hd
        · intro x
          unfold StillMapped InBlock
          simp only [e6]
          rw [e4, e5] at *
          split
          · rename_i hlt
            simp only [List.nil_append, List.mem_singleton, forall_eq]
            rw [hu1, hu2, hwant, Nat.sub_mul, hT, hwant]
            omega
          · rename_i hlt
            have : ca = 1 := by omega
            rw [this] at hca
            simp only [List.not_mem_nil, false_implies, implies_true, and_true]
            omega
        · intro u hu
          rw [e4, e5] at *
          split at hu
          · rename_i hlt
            simp only [List.nil_append, List.mem_singleton] at hu
            subst hu
            simp only []
            rw [hu1, hu2, e6, hpo]
            refine ⟨Nat.dvd_add hpd (Nat.dvd_mul_left _ _), Nat.dvd_mul_left _ _, Nat.mul_pos (by omega) hPpos, by omega, ?_⟩
            rw [Nat.sub_mul, hT, hwant]
            omega
          · cases hu
    · -- unmap before
      rw [if_neg hal0]
      have hex := offsetAlign_least (ptr + pre) align ⟨ka, hka⟩
      have hexv := offsetAlign_toNat (p := ptr + pre) hka
      rw [hka] at hex
      generalize hxe : offsetAlign (ptr + pre) align = ex at *
      have hexlt : ex.toNat < 2 ^ ka := by rw [hexv]; exact Nat.mod_lt _ hApos
      rw [e7] at hex
      -- extra is a multiple of the page size
      have hexP : 2 ^ po ∣ ex.toNat := by
        have h1 : 2 ^ po ∣ ptr.toNat + pre.toNat + ex.toNat := Nat.dvd_trans ⟨ca, hca⟩ hex.1
        have h2 : 2 ^ po ∣ ptr.toNat + pre.toNat := Nat.dvd_add hpd ⟨cp, hcp⟩
        exact (Nat.dvd_add_right h2).1 h1
      obtain ⟨ce, hce⟩ := hexP
      have hce_lt : ce ≤ ca - 1 := by
        have : 2 ^ po * ce < 2 ^ po * ca := by rw [← hce, ← hca]; exact hexlt
        have := Nat.lt_of_mul_lt_mul_left this
        omega
      have hexle : ex.toNat ≤ 2 ^ ka - 2 ^ po := by
        have : 2 ^ po * ce ≤ 2 ^ po * (ca - 1) := Nat.mul_le_mul_left _ hce_lt
        rw [Nat.mul_sub, Nat.mul_one] at this
        omega
      have n5 : ¬ ¬ (ex &&& (page - 1#n) = 0#n) := by
        rw [and_mask_eq_zero_iff hpo]; exact not_not_intro ⟨ce, hce⟩
      rw [if_neg n5]
      have e8 : (ptr + ex).toNat = ptr.toNat + ex.toNat := add_toNat (by omega)
      have e9 : (ex >>> po).toNat = ce := by rw [shr_toNat, hce, Nat.mul_div_cancel_left _ hPpos]
      have e10 : ((pre + len + align - page) >>> po - ex >>> po).toNat = cp + cl + (ca - 1 - ce) := by
        rw [sub_toNat (by rw [e5, e9]; omega), e5, e9]; omega
      have e11 : (((pre + len + align - page) >>> po) <<< po - ex).toNat
          = pre.toNat + len.toNat + (2 ^ ka - 2 ^ po) - ex.toNat := by
        rw [sub_toNat (by rw [e6]; omega), e6]
      have hT2 : (cp + cl + (ca - 1 - ce)) * 2 ^ po = pre.toNat + len.toNat + (2 ^ ka - 2 ^ po) - ex.toNat := by
        rw [← hT, hce, Nat.mul_comm _ (2 ^ po), Nat.mul_comm _ (2 ^ po), ← Nat.mul_sub]
        congr 1; omega
      by_cases hun : (!k.munmapOk ptr ex) = true
      · rw [if_pos hun]
        left
        exact ⟨rfl, ptr, ex, by simpa using hun⟩
      · rw [if_neg hun]
        rcases finish_spec (k := k) (po := po) (ka := ka) (len := len) (align := align) (pre := pre) (ptr := ptr + ex)
          (mapped := (ptr, ((pre + len + align - page) >>> po) <<< po)) (unmaps := [(ptr, ex)]) hka
          (mn := (pre + len) >>> po) (cnt := (pre + len + align - page) >>> po - ex >>> po)
          (tot := ((pre + len + align - page) >>> po) <<< po - ex)
          (by rw [e4, e10]; omega) (by rw [e8]; have := hex.1; rwa [show ptr.toNat + pre.toNat + ex.toNat = ptr.toNat + ex.toNat + pre.toNat by omega] at this)
          (by rw [e10, hT2, e8]; omega) (by rw [e4, hwant]) (by rw [e11, e10, hT2]) rfl with hab | ⟨base, ho, hb, hu1, hu2⟩
        · left
          exact ⟨hab, finish_aborted hab⟩
        · right
          refine ⟨base, ptr + ex, _, _, ho, ?_, hb, by omega, by omega, ?_, by rw [e6, hka, hpo], hm, ?_⟩
          · rw [hb, hka, e8]; have := hex.1; rwa [show ptr.toNat + pre.toNat + ex.toNat = ptr.toNat + ex.toNat + pre.toNat by omega] at this
          · intro x
            unfold StillMapped InBlock
            simp only [e6]
            rw [hb, e8]
            rw [e4, e10] at *
            split
            · rename_i hlt
              simp only [List.singleton_append, List.mem_cons, List.not_mem_nil, or_false,
                forall_eq_or_imp, forall_eq]
              rw [hu1, hu2, e8, hwant, Nat.sub_mul, hT2, hwant]
              omega
            · rename_i hlt
              have : ce = ca - 1 := by omega
              rw [this, Nat.mul_sub, Nat.mul_one, ← hca] at hce
              simp only [List.mem_singleton, forall_eq]
              omega
          · have hexpos : 0 < ex.toNat := by
              rcases Nat.eq_zero_or_pos ex.toNat with h | h
              · refine absurd ((and_mask_eq_zero_iff hka).2 ?_) hal0
                rw [e7]
                have := hex.1
                rwa [h, Nat.add_zero] at this
              · exact h
            have first : page.toNat ∣ ptr.toNat ∧ page.toNat ∣ ex.toNat ∧ 0 < ex.toNat ∧ ptr.toNat ≤ ptr.toNat ∧
                ptr.toNat + ex.toNat ≤ ptr.toNat + (((pre + len + align - page) >>> po) <<< po).toNat := by
              rw [hpo, e6]
              exact ⟨hpd, ⟨ce, hce⟩, hexpos, Nat.le_refl _, by omega⟩
            intro u hu
            rw [e4, e10] at *
            split at hu
            · rename_i hlt
              simp only [List.singleton_append, List.mem_cons, List.not_mem_nil, or_false] at hu
              rcases hu with rfl | rfl
              · exact first
              · simp only []
                rw [hu1, hu2, e6, hpo, e8]
                refine ⟨Nat.dvd_add (Nat.dvd_add hpd ⟨ce, hce⟩) (Nat.dvd_mul_left _ _), Nat.dvd_mul_left _ _,
                  Nat.mul_pos (by omega) hPpos, by omega, ?_⟩
                rw [Nat.sub_mul, hT2, hwant]
                omega
            · rw [List.mem_singleton] at hu
              subst hu
              exact first

/-- A well-formed request: 4 KiB pages, 64 KiB alignment, 3 strides, two header pages. -/
example : WellFormed 64 (4096#64).toNat (196608#64).toNat (65536#64).toNat (8192#64).toNat :=
  ⟨⟨12, by decide⟩, ⟨16, by decide⟩, by decide, by decide, by decide, by decide, by decide⟩

/-- A kernel placing every block at 0x7f1234561000: both ends get trimmed. -/
def sampleKernel : Kernel 64 := ⟨fun _ => some 0x7f1234561000#64, fun _ _ => true⟩

example : alignedMmap sampleKernel 4096#64 196608#64 65536#64 8192#64 =
    .ok 0x7f1234570000#64 0x7f123456e000#64 (0x7f1234561000#64, 0x41000#64)
      [(0x7f1234561000#64, 0xd000#64), (0x7f12345a0000#64, 0x2000#64)] := by decide

/-- A 32-bit request near the top of a 4 GiB address space. -/
example : alignedMmap (⟨fun _ => some 0xC0001000#32, fun _ _ => true⟩ : Kernel 32) 4096#32 196608#32 65536#32 8192#32 =
    .ok 0xC0010000#32 0xC000e000#32 (0xC0001000#32, 0x41000#32)
      [(0xC0001000#32, 0xd000#32), (0xC0040000#32, 0x2000#32)] := by decide

/-- C31 (validation): EINVAL, before any system call, exactly for a length or alignment below a
page, an alignment that is not a power of two (or zero), a length that is not a multiple of the
alignment, or a header that is not a whole number of pages (page size a power of two). -/
theorem alignedMmap_einval_iff (hn : n = 32 ∨ n = 64) (k : Kernel n) (page len align pre : BitVec n) (hp : IsPowTwo page.toNat) :
    alignedMmap k page len align pre = .einval ↔
      (len.toNat < page.toNat ∨ align.toNat < page.toNat ∨ ¬ IsPowTwo align.toNat ∨
        ¬ align.toNat ∣ len.toNat ∨ ¬ page.toNat ∣ pre.toNat) := by
  obtain ⟨po, hpo⟩ := hp
  have hPpos : 0 < 2 ^ po := Nat.two_pow_pos po
  have n2 : ¬ countOrderUlong page < 0 := by rw [countOrderUlong_pow hn hpo]; omega
  have pre_iff : (pre ≠ 0#n ∧ pre &&& (page - 1#n) ≠ 0#n) ↔ ¬ page.toNat ∣ pre.toNat := by
    rw [Ne, Ne, and_mask_eq_zero_iff hpo, hpo]
    constructor
    · exact fun h => h.2
    · intro h
      refine ⟨?_, h⟩
      rintro rfl
      exact h (by simp)
  have c1 : (len < page ∨ align < page ∨ isPow2 (align.setWidth 64) = false ∨ len &&& (align - 1#n) ≠ 0#n) ↔
      (len.toNat < page.toNat ∨ align.toNat < page.toNat ∨ ¬ IsPowTwo align.toNat ∨
        ¬ align.toNat ∣ len.toNat) := by
    rw [BitVec.lt_def, BitVec.lt_def]
    by_cases ha : align.toNat < page.toNat
    · simp [ha]
    · have haz : align.toNat ≠ 0 := by rw [hpo] at ha; omega
      have hpw : isPow2 (align.setWidth 64) = false ↔ ¬ IsPowTwo align.toNat := by
        rw [← Bool.not_eq_true, isPow2_iff, widen_toNat hn]; simp [haz]
      rw [hpw]
      by_cases hq : IsPowTwo align.toNat
      · obtain ⟨ka, hka⟩ := hq
        rw [Ne, and_mask_eq_zero_iff hka, hka]
      · simp [hq]
  unfold alignedMmap
  by_cases h1 : (len < page ∨ align < page ∨ isPow2 (align.setWidth 64) = false ∨ len &&& (align - 1#n) ≠ 0#n)
  · rw [if_pos h1]
    have := c1.1 h1
    simp only [true_iff]
    grind
  · rw [if_neg h1, if_neg n2]
    simp only []
    by_cases h3 : (pre ≠ 0#n ∧ pre &&& (page - 1#n) ≠ 0#n)
    · rw [if_pos h3]
      have := pre_iff.1 h3
      simp only [true_iff]
      grind
    · rw [if_neg h3]
      have h1' := mt c1.2 h1
      have h3' := mt pre_iff.2 h3
      constructor
      · intro h
        exfalso
        split at h
        · cases h
        · split at h
          · cases h
          · split at h
            · exact finish_ne_einval h
            · split at h
              · cases h
              · split at h
                · cases h
                · exact finish_ne_einval h
      · intro h; grind

example : alignedMmap sampleKernel 4096#64 196608#64 65537#64 8192#64 = .einval := by decide

end Verif.Mmap
