import Verif.AsmTableAddr
import Verif.AsmTableSpec
import Verif.RseqInv
/-
C64: what the kernel reads from the directives around a helper (`AsmTableSpec.lean`) is the helper's
critical section.
-/

namespace Verif.Asm

open Verif.Rseq (Arch Byte Kind Opnd Prog W program)
open Verif.KernelCs (rd look U64 Cs)

/-- Positions of the parts of a modelled helper. -/
def Shape.of {n : Nat} (p : Prog n) : Shape := ⟨p.start, p.commit, p.abort, p.ne, p.code.length⟩

/-- What is assumed of compiler and linker: every instruction takes at least one byte, no section is at
address 0, everything lies below the end of the address space, and the two sections with instructions do
not overlap. -/
structure Linked (c : Cfg) (sz : Nat → Nat) (base : Loc) (sh : Shape) (exits : List Nat) (task : Nat) : Prop where
  size : ∀ i, 0 < sz i
  pos : ∀ s, 0 < base s
  fits : ∀ s, (run sz (st0 base) (source c sh exits)).loc s ≤ task
  word : task ≤ 256 ^ c.w
  apart : (run sz (st0 base) (source c sh exits)).loc .text ≤ base .failure ∨
    (run sz (st0 base) (source c sh exits)).loc .failure ≤ base .text

theorem shape_ok {n : Nat} {al : Opnd → Nat} {be : Bool} {csa : W n} {arch : Arch} {kind : Kind} {rel : Bool}
    {p : Prog n} (hp : program al be csa arch kind rel = some p) : (Shape.of p).Ok := by
  have h := Verif.Rseq.zoneOK_facts (Verif.Rseq.program_zoneOK al be csa arch kind rel p hp)
  have h1 := h.sc
  have h2 := h.cc
  exact ⟨by simp only [Shape.of]; omega, h.ca, h.an, h.nl⟩

theorem total_pos {sz : Nat → Nat} (h : ∀ i, 0 < sz i) {i j : Nat} (hij : i < j) : 0 < total sz i j := by
  rw [total_split i (i + 1) j (by omega) hij, total_one]
  have := h i
  omega

theorem Linked.below {c : Cfg} {sz : Nat → Nat} {base : Loc} {sh : Shape} {exits : List Nat} {task : Nat}
    (hk : Linked c sz base sh exits task) (hv : c.valid = true) (ho : sh.Ok) : Below c base sz sh task := by
  have o1 := ho.sc
  have o2 := ho.ca
  have o3 := ho.an
  have o4 := ho.nl
  have hE := ends (sz := sz) hv ho base exits
  have p1 := total_pos hk.size o2
  have p2 := total_pos hk.size (i := sh.abort) (j := sh.len) (by omega)
  have m1 := T_mono (sz := sz) base o1
  have m2 : T sz base sh.commit < T sz base sh.abort := by
    simp only [T]; rw [total_split 0 sh.commit sh.abort (by omega) (by omega)]; omega
  have m3 : T sz base sh.abort ≤ task := by
    rcases abSec_two c with hf | ht
    · rw [← hE.2 hf]; exact hk.fits _
    · have h := hk.fits (abSec c)
      rw [hE.1] at h
      have : T sz base sh.abort ≤ abortAddr c base (T sz base sh.abort) := by
        have h4 := alignUp_ge (T sz base sh.abort) (a := 4) (by omega)
        have h32 := alignUp_ge (T sz base sh.abort) (a := 32) (by omega)
        obtain ⟨arch, be, w, isa⟩ := c
        cases arch <;> simp [abSec] at ht <;> simp only [abortAddr] <;> omega
      omega
  have m4 := hk.fits (abSec c)
  rw [hE.1] at m4
  exact ⟨by omega, by omega, by omega, hk.word, pow_w hv⟩

theorem descAddr_ok {c : Cfg} {sz : Nat → Nat} {base : Loc} {sh : Shape} {exits : List Nat} {task : Nat}
    (hk : Linked c sz base sh exits task) (hv : c.valid = true) (ho : sh.Ok) :
    0 < descAddr c base (T sz base sh.abort) ∧ descAddr c base (T sz base sh.abort) < task ∧
    32 ∣ descAddr c base (T sz base sh.abort) := by
  have hb := hk.below hv ho
  unfold descAddr
  split
  · rename_i hc
    have h := hb.abort
    have e : abortAddr c base (T sz base sh.abort) = alignUp (T sz base sh.abort) 32 + 36 := by
      revert hc; cases h : c.arch <;> simp [hasCopy, abortAddr, h]
    have h2 := alignUp_ge (T sz base sh.abort) (a := 32) (by omega)
    have h3 := hk.pos .text
    have h4 : base .text ≤ T sz base sh.abort := by simp only [T]; omega
    exact ⟨by omega, by omega, alignUp_dvd _ _⟩
  · have h2 := alignUp_ge (base .cs) (a := 32) (by omega)
    have h3 := hk.pos .cs
    have h4 := table_end (sz := sz) hv sh base exits
    have h5 := hk.fits .cs
    exact ⟨by omega, by omega, alignUp_dvd _ _⟩

/-- Positions of addresses relative to the critical section, for the kernel's wrapping comparison. -/
theorem covers_iff {s e ip : Nat} (h1 : s ≤ e) (h2 : e < U64) (h3 : ip < U64) :
    ((ip + U64 - s) % U64 < e - s) ↔ (s ≤ ip ∧ ip < e) := by
  simp only [U64, Nat.reducePow] at *
  omega

/-- Where an instruction is, relative to the critical section. -/
theorem A_pos {c : Cfg} {sz : Nat → Nat} {base : Loc} {sh : Shape} {exits : List Nat} {task : Nat}
    (hk : Linked c sz base sh exits task) (hv : c.valid = true) (ho : sh.Ok) {i d : Nat} (hi : i < sh.len)
    (hd : d < sz i) : A c sz base sh i + d < task ∧
      ((T sz base sh.start ≤ A c sz base sh i + d ∧ A c sz base sh i + d < T sz base sh.commit) ↔
        sh.start ≤ i ∧ i < sh.commit) := by
  have o1 := ho.sc
  have o2 := ho.ca
  have o3 := ho.an
  have o4 := ho.nl
  have hb := hk.below hv ho
  have hE := ends (sz := sz) hv ho base exits
  have hTs : ∀ a, T sz base (a + 1) = T sz base a + sz a := by
    intro a; simp only [T]; rw [total_split 0 a (a + 1) (by omega) (by omega), total_one]; omega
  by_cases ha : i < sh.abort
  · simp only [A, if_pos ha]
    have e1 := hTs i
    have hb3 := hb.commit
    have hb2 := hb.abort
    have m1 := T_mono (sz := sz) base (i := i + 1) (j := sh.abort) (by omega)
    have m3 : T sz base sh.abort ≤ task := by
      rcases abSec_two c with hf | ht
      · rw [← hE.2 hf]; exact hk.fits _
      · have : T sz base sh.abort ≤ abortAddr c base (T sz base sh.abort) := by
          have h4 := alignUp_ge (T sz base sh.abort) (a := 4) (by omega)
          have h32 := alignUp_ge (T sz base sh.abort) (a := 32) (by omega)
          obtain ⟨arch, be, w, isa⟩ := c
          cases arch <;> simp [abSec] at ht <;> simp only [abortAddr] <;> omega
        omega
    refine ⟨by omega, ?_⟩
    constructor
    · rintro ⟨h1, h2⟩
      refine ⟨?_, ?_⟩
      · refine Decidable.byContradiction fun hn => ?_
        have := T_mono (sz := sz) base (i := i + 1) (j := sh.start) (by omega)
        omega
      · refine Decidable.byContradiction fun hn => ?_
        have := T_mono (sz := sz) base (i := sh.commit) (j := i) (by omega)
        omega
    · rintro ⟨h1, h2⟩
      have := T_mono (sz := sz) base (i := sh.start) (j := i) h1
      have := T_mono (sz := sz) base (i := i + 1) (j := sh.commit) (by omega)
      omega
  · simp only [A, if_neg ha]
    have e1 : total sz sh.abort (i + 1) = total sz sh.abort i + sz i := by
      rw [total_split sh.abort i (i + 1) (by omega) (by omega), total_one]
    have e2 := total_split (sz := sz) sh.abort (i + 1) sh.len (by omega) (by omega)
    have hf0 := hk.fits (abSec c)
    have hE1 := hE.1
    rw [hE1] at hf0
    refine ⟨by omega, ?_⟩
    constructor
    · rintro ⟨h1, h2⟩
      exfalso
      have m2 := T_mono (sz := sz) base (i := sh.commit) (j := sh.abort) (by omega)
      rcases abSec_two c with hf | ht
      · rw [hf] at hE1
        have hE2 := hE.2 hf
        have hap := hk.apart
        have hge : base .failure ≤ abortAddr c base (T sz base sh.abort) := by
          obtain ⟨arch, be, w, isa⟩ := c
          cases arch <;> simp [abSec] at hf <;> simp [abortAddr]
        have hts : base .text ≤ T sz base sh.start := by simp only [T]; omega
        rcases hap with hap | hap
        · rw [hE2] at hap
          omega
        · rw [hE1] at hap
          omega
      · have : T sz base sh.abort ≤ abortAddr c base (T sz base sh.abort) := by
          have h4 := alignUp_ge (T sz base sh.abort) (a := 4) (by omega)
          have h32 := alignUp_ge (T sz base sh.abort) (a := 32) (by omega)
          obtain ⟨arch, be, w, isa⟩ := c
          cases arch <;> simp [abSec] at ht <;> simp only [abortAddr] <;> omega
        omega
    · rintro ⟨h1, h2⟩; omega

/-- **C64.** For every helper of every architecture, byte order and pointer size: after the helper has
stored the address of its descriptor into `rseq_cs`, the kernel accepts the descriptor, its abort address is
the helper's abort handler, and the instruction pointers it restarts are exactly those inside instructions
from the start label up to (not including) the post-commit label. -/
theorem kernel_sees_critical_section {n : Nat} {al : Opnd → Nat} {csa : W n} {kind : Kind} {rel : Bool}
    {p : Prog n} {c : Cfg} (hp : program al c.be csa c.arch kind rel = some p) (hv : c.valid = true)
    {sz : Nat → Nat} {base : Loc} {exits : List Nat} {task : Nat} (hk : Linked c sz base (Shape.of p) exits task)
    {mem : Nat → Byte} {area P : Nat} (hP : storedPtr c sz base (Shape.of p) exits = some P)
    (hz : rd c.be mem (area + 8) 8 < 256 ^ c.w)
    (hl : Loaded c.be (storeCs c mem area P) (assembled c sz base (Shape.of p) exits)) :
    32 ∣ P ∧ ∃ cs : Cs, look c.be (storeCs c mem area P) area task (sig c) = .ok cs ∧
      codeAddr (assembled c sz base (Shape.of p) exits) p.abort = some cs.abort ∧
      ∀ i, i < p.code.length → ∃ a, codeAddr (assembled c sz base (Shape.of p) exits) i = some a ∧
        ∀ d, d < sz i → (cs.covers (a + d) ↔ p.start ≤ i ∧ i < p.commit) := by
  have ho := shape_ok hp
  rw [storedPtr_eq hv ho] at hP
  obtain rfl := Option.some.inj hP
  have hb := hk.below hv ho
  obtain ⟨d1, d2, d3⟩ := descAddr_ok hk hv ho
  have hg := stored_good hv ho hb hl
  have hsg := sig_read hv ho hl
  have hw : (256 : Nat) ^ c.w ≤ 256 ^ 8 := Nat.pow_le_pow_right (by omega) hb.word8
  have hw2 : task ≤ U64 := by
    have := hb.word
    simp only [U64, Nat.reducePow] at hw ⊢
    omega
  have hptr := rd_storeCs hv mem area (descAddr c base (T sz base (Shape.of p).abort))
    (by have := hb.word; omega) hz
  generalize storeCs c mem area (descAddr c base (T sz base (Shape.of p).abort)) = mem' at *
  have hmono := T_mono (sz := sz) base ho.sc
  have hb1 := hb.start
  have hb2 := hb.commit
  have hb3 := hb.abort
  have hAb : A c sz base (Shape.of p) p.abort = abortAddr c base (T sz base (Shape.of p).abort) := by
    have : ¬ p.abort < (Shape.of p).abort := by simp [Shape.of]
    rw [A, if_neg this]
    have : total sz (Shape.of p).abort p.abort = 0 := total_self _
    omega
  have habl : p.abort < (Shape.of p).len := by
    have h1 := ho.an
    have h2 := ho.nl
    have : p.abort = (Shape.of p).abort := rfl
    omega
  have hapos := A_pos hk hv ho habl (d := 0) (hk.size _)
  rw [hAb, Nat.add_zero] at hapos
  refine ⟨d3, ⟨T sz base (Shape.of p).start, T sz base (Shape.of p).commit - T sz base (Shape.of p).start,
    abortAddr c base (T sz base (Shape.of p).abort)⟩, ?_, ?_, ?_⟩
  · simp only [look]
    rw [hptr, hg.version, hg.flags, hg.start, hg.off, hg.abort, hsg]
    have hsum : T sz base (Shape.of p).start + (T sz base (Shape.of p).commit - T sz base (Shape.of p).start) =
        T sz base (Shape.of p).commit := by omega
    have hmod : T sz base (Shape.of p).commit % U64 = T sz base (Shape.of p).commit :=
      Nat.mod_eq_of_lt (by omega)
    rw [hsum, hmod]
    have hcv := covers_iff (s := T sz base (Shape.of p).start) (e := T sz base (Shape.of p).commit)
      (ip := abortAddr c base (T sz base (Shape.of p).abort)) hmono (by omega) (by omega)
    have hno : ¬ ((abortAddr c base (T sz base (Shape.of p).abort) + U64 - T sz base (Shape.of p).start) % U64 <
        T sz base (Shape.of p).commit - T sz base (Shape.of p).start) := by
      rw [hcv, hapos.2]
      have := ho.ca
      simp only [Shape.of] at this ⊢
      omega
    rw [if_neg (by omega), if_neg (by omega), if_neg (by omega), if_neg (by omega), if_neg hno]
    simp
  · rw [codeAddr_eq hv ho base exits habl, hAb]
  · intro i hi
    refine ⟨A c sz base (Shape.of p) i, codeAddr_eq hv ho base exits hi, fun d hd => ?_⟩
    have h := A_pos hk hv ho hi hd
    simp only [Cs.covers]
    rw [covers_iff hmono (by omega) (by omega), h.2]
    rfl

/-- **C64.** After `rseq_clear_rseq_cs` the kernel finds no critical section, whatever the field held. -/
theorem kernel_sees_none {c : Cfg} (hv : c.valid = true) {mem : Nat → Byte} {area task s : Nat}
    (hz : rd c.be mem (area + 8) 8 < 256 ^ c.w) : look c.be (storeCs c mem area 0) area task s = .none := by
  simp only [look]
  rw [rd_storeCs hv mem area 0 (Nat.pow_pos (by omega)) hz, if_pos rfl]

/-- **C64.** A pointer store leaves the other half of the field 0, so the condition on the old field of the
two theorems above holds again. -/
theorem field_stays_small {c : Cfg} (hv : c.valid = true) {mem : Nat → Byte} {area v : Nat} (hx : v < 256 ^ c.w)
    (hz : rd c.be mem (area + 8) 8 < 256 ^ c.w) : rd c.be (storeCs c mem area v) (area + 8) 8 < 256 ^ c.w := by
  rw [rd_storeCs hv mem area v hx hz]; exact hx

/-- **C64.** The kernel kills a thread that registered with another signature. -/
theorem wrong_signature_rejected {n : Nat} {al : Opnd → Nat} {csa : W n} {kind : Kind} {rel : Bool}
    {p : Prog n} {c : Cfg} (hp : program al c.be csa c.arch kind rel = some p) (hv : c.valid = true)
    {sz : Nat → Nat} {base : Loc} {exits : List Nat} {task : Nat} (hk : Linked c sz base (Shape.of p) exits task)
    {mem : Nat → Byte} {area P s : Nat} (hP : storedPtr c sz base (Shape.of p) exits = some P)
    (hz : rd c.be mem (area + 8) 8 < 256 ^ c.w)
    (hl : Loaded c.be (storeCs c mem area P) (assembled c sz base (Shape.of p) exits)) (hs : s ≠ sig c) :
    look c.be (storeCs c mem area P) area task s = .bad := by
  obtain ⟨-, cs, h, -⟩ := kernel_sees_critical_section hp hv hk hP hz hl
  simp only [look] at h ⊢
  repeat' split at h
  all_goals first
    | cases h; done
    | skip
  rename_i h1 h2 h3 h4 h5 h6 h7
  rw [if_neg h1, if_neg h2, if_neg h3, if_neg h4, if_neg h5]
  rw [if_pos]
  intro he
  exact hs (he.symm.trans (Decidable.of_not_not h6))

/-- **C64.** The arrays for debuggers: the entry of `__rseq_cs_ptr_array` points to a descriptor with the same
contents as the one the kernel sees, and every entry of `__rseq_exit_point_array` is the pair of the start
address and the exit label. -/
theorem debug_arrays {n : Nat} {al : Opnd → Nat} {csa : W n} {kind : Kind} {rel : Bool}
    {p : Prog n} {c : Cfg} (hp : program al c.be csa c.arch kind rel = some p) (hv : c.valid = true)
    {sz : Nat → Nat} {base : Loc} {exits : List Nat} {task : Nat} (hk : Linked c sz base (Shape.of p) exits task)
    {mem : Nat → Byte} {P : Nat} (hP : storedPtr c sz base (Shape.of p) exits = some P)
    (hl : Loaded c.be mem (assembled c sz base (Shape.of p) exits)) :
    (∃ q, rd c.be mem (base .ptrs) 8 = q ∧ 32 ∣ q ∧ q < task ∧
      ∀ o, (o = 8 ∨ o = 16 ∨ o = 24) → rd c.be mem (q + o) 8 = rd c.be mem (P + o) 8) ∧
    ∀ xs x ys, exits = xs ++ x :: ys → x < 256 ^ c.w →
      some (rd c.be mem (base .exits + 16 * xs.length) 8) =
        codeAddr (assembled c sz base (Shape.of p) exits) p.start ∧
      rd c.be mem (base .exits + 16 * xs.length + 8) 8 = x := by
  have ho := shape_ok hp
  rw [storedPtr_eq hv ho] at hP
  obtain rfl := Option.some.inj hP
  have hb := hk.below hv ho
  have h4 := table_end (sz := sz) hv (Shape.of p) base exits
  have h5 := hk.fits .cs
  have hw := hb.word
  have hg := stored_good hv ho hb hl
  have ht := table_good hv ho hb hl
  refine ⟨⟨_, ptr_read hv hl (by omega), alignUp_dvd _ _, by omega, ?_⟩, ?_⟩
  · rintro o (rfl | rfl | rfl)
    · rw [hg.start, ht.start]
    · rw [hg.off, ht.off]
    · rw [hg.abort, ht.abort]
  · intro xs x ys he hx
    subst he
    have h := exit_read hv ho hl (by have := hb.start; omega) hx
    have o1 := ho.sc
    have o2 := ho.ca
    have o3 := ho.an
    have o4 := ho.nl
    have hsl : p.start < (Shape.of p).len := by
      have : p.start = (Shape.of p).start := rfl
      omega
    refine ⟨?_, h.2⟩
    rw [codeAddr_eq hv ho base _ hsl, h.1, A, if_pos]
    · rfl
    · have : p.start = (Shape.of p).start := rfl
      omega

/-! ### The instruction sequences that form the descriptor's address -/

/-- **C64.** ppc64: five instructions of 16 bits each give the 64-bit address. -/
theorem ppc64_address (x : BitVec 64) : ppc64Addr x = x := by
  ext i hi
  simp only [ppc64Addr, BitVec.getElem_or, BitVec.getElem_shiftLeft, BitVec.getElem_setWidth,
    BitVec.getLsbD_extractLsb']
  have e : x[i] = x.getLsbD i := (BitVec.getLsbD_eq_getElem hi).symm
  rw [e]
  rcases Nat.lt_or_ge i 16 with h | h
  · simp [h, show i < 32 by omega]
  rcases Nat.lt_or_ge i 32 with h' | h'
  · simp [h', show ¬ i < 16 by omega, show i - 16 < 16 by omega, show 16 + (i - 16) = i by omega, hi]
  rcases Nat.lt_or_ge i 48 with h'' | h''
  · simp [show ¬ i < 16 by omega, show ¬ i < 32 by omega, show ¬ i - 16 < 16 by omega, show i - 32 < 16 by omega,
      show i - 32 < 64 by omega, show 32 + (i - 32) = i by omega, hi]
  · simp [show ¬ i < 16 by omega, show ¬ i < 32 by omega, show ¬ i - 16 < 16 by omega, show ¬ i - 32 < 16 by omega,
      show i - 32 < 64 by omega, show i - 32 - 16 < 16 by omega, show 48 + (i - 32 - 16) = i by omega,
      show i - 32 - 16 < 64 by omega, hi, BitVec.getElem_signExtend]

/-- **C64.** ppc32: `@ha` and the sign-extended `@l` give the 32-bit address. -/
theorem ppc32_address (x : BitVec 32) : ppc32Addr x = x := by
  apply BitVec.eq_of_toNat_eq
  have hx := x.isLt
  simp only [ppc32Addr, BitVec.toNat_add, BitVec.toNat_shiftLeft, BitVec.toNat_setWidth, BitVec.extractLsb'_toNat,
    BitVec.toNat_signExtend, BitVec.toNat_ofNat, Nat.shiftRight_eq_div_pow, Nat.shiftLeft_eq, BitVec.msb_eq_decide,
    decide_eq_true_eq]
  split <;> omega

/-- **C64.** aarch64: page distance and low 12 bits give the address, from any place. -/
theorem aarch64_address (pc x : BitVec 64) : aarch64Addr pc x = x := by
  simp only [aarch64Addr]
  rw [BitVec.add_comm (pc &&& _), BitVec.sub_add_cancel]
  have hd : (x &&& ~~~ 0xfff#64) &&& (x &&& 0xfff#64) = 0#64 := by
    ext i hi
    simp only [BitVec.getElem_and, BitVec.getElem_not, BitVec.getElem_zero]
    cases (0xfff#64)[i] <;> simp
  rw [BitVec.add_eq_or_of_and_eq_zero _ _ hd]
  ext i hi
  simp only [BitVec.getElem_or, BitVec.getElem_and, BitVec.getElem_not]
  cases x[i] <;> simp

/-- **C64.** x86-32: the distance from the return address of a `call` gives the address. -/
theorem i386_address (ref x : BitVec 32) : i386Addr ref x = x := by
  simp only [i386Addr]
  rw [BitVec.add_comm, BitVec.sub_add_cancel]

end Verif.Asm
