import Verif.AsmTableProps
/-
C64: images that satisfy the hypotheses of `AsmTableProps.lean`, for x86_64, 32-bit big-endian arm, and
big-endian aarch64.
-/

namespace Verif.Asm.Ex

open Verif.Asm
open Verif.Rseq (Arch Byte Kind Opnd Prog W program)
open Verif.KernelCs (rd look U64 Cs)

/-- Bytes of the `k`-th item. -/
def itemBytes (be : Bool) (l : List Placed) (k : Nat) : Option (Nat × List Byte) :=
  match l[k]? with
  | none => none
  | some p => (encode be (l.take k) (l.drop (k + 1)) p.item).map fun bs => (p.addr, bs)

/-- Does memory hold all bytes? -/
def check (be : Bool) (mem : Nat → Byte) (l : List Placed) : Bool :=
  (List.range l.length).all fun k =>
    match itemBytes be l k with
    | none => false
    | some (a, bs) => (List.range bs.length).all fun i => bs[i]? == some (mem (a + i))

theorem check_loaded {be : Bool} {mem : Nat → Byte} {l : List Placed} (h : check be mem l = true) :
    Loaded be mem l := by
  intro pre p post e
  simp only [check, List.all_eq_true, List.mem_range] at h
  have hk := h pre.length (by rw [e]; simp)
  have h1 : l[pre.length]? = some p := by rw [e]; simp
  have h2 : l.take pre.length = pre := by rw [e]; simp
  have h3 : l.drop (pre.length + 1) = post := by rw [e]; simp
  simp only [itemBytes, h1, h2, h3] at hk
  cases hb : encode be pre post p.item with
  | none => rw [hb] at hk; simp at hk
  | some bs =>
    rw [hb] at hk
    simp only [Option.map_some, List.all_eq_true, List.mem_range, beq_iff_eq] at hk
    refine ⟨bs, rfl, fun i hi => ?_⟩
    have := hk i hi
    rw [List.getElem?_eq_getElem hi] at this
    exact (Option.some.inj this).symm

/-- Memory with the bytes of all items, 0 elsewhere. -/
def image (be : Bool) (l : List Placed) : Nat → Byte := fun a =>
  ((List.range l.length).findSome? fun k =>
    match itemBytes be l k with
    | none => none
    | some (b, bs) => if b ≤ a then bs[a - b]? else none).getD 0#8

/-- Operands in registers 1, 2, ... -/
def al (_ : Opnd) : Nat := 1

/-- Every instruction takes 4 bytes. -/
def sz (_ : Nat) : Nat := 4

/-- Section addresses. -/
def base : Loc
  | .text => 0x1004
  | .failure => 0x2001
  | .cs => 0x3008
  | .ptrs => 0x4000
  | .exits => 0x5000

def area : Nat := 0x6000

/-- One run of everything. -/
def demo {n : Nat} (c : Cfg) (p : Prog n) : Bool :=
  let sh := Shape.of p
  let l := assembled c sz base sh [0x7000, 0x7004]
  let s := run sz (st0 base) (source c sh [0x7000, 0x7004])
  match storedPtr c sz base sh [0x7000, 0x7004] with
  | none => false
  | some P =>
    check c.be (storeCs c (image c.be l) area P) l &&
    rd c.be (image c.be l) (area + 8) 8 == 0 &&
    ([Sec.text, .failure, .cs, .ptrs, .exits].all fun x => decide (s.loc x ≤ 0x10000)) &&
    decide (s.loc .text ≤ base .failure) && c.valid

theorem demo_hyps {n : Nat} {csa : W n} {kind : Kind} {rel : Bool} {c : Cfg} {p : Prog n}
    (_ : program al c.be csa c.arch kind rel = some p) (h : demo c p = true) :
    c.valid = true ∧ Linked c sz base (Shape.of p) [0x7000, 0x7004] 0x10000 ∧
    ∃ P, storedPtr c sz base (Shape.of p) [0x7000, 0x7004] = some P ∧
      ∃ mem : Nat → Byte, rd c.be mem (area + 8) 8 < 256 ^ c.w ∧
        Loaded c.be (storeCs c mem area P) (assembled c sz base (Shape.of p) [0x7000, 0x7004]) := by
  unfold demo at h
  simp only at h
  split at h
  · simp at h
  · rename_i P hP
    simp only [Bool.and_eq_true, decide_eq_true_eq, beq_iff_eq, List.all_cons, List.all_nil, and_true] at h
    obtain ⟨⟨⟨⟨h1, h2⟩, h3⟩, h4⟩, h5⟩ := h
    have hw : 4 ≤ c.w := by
      revert h5
      obtain ⟨arch, be, w, isa⟩ := c
      cases arch <;> cases be <;> simp [Cfg.valid] <;> omega
    have hpw : (256 : Nat) ^ 4 ≤ 256 ^ c.w := Nat.pow_le_pow_right (by omega) hw
    refine ⟨h5, ⟨fun _ => by simp [sz], fun s => by cases s <;> decide, ?_, by omega, .inl h4⟩, P, hP, _, ?_,
      check_loaded h1⟩
    · intro s
      cases s
      · exact h3.1
      · exact h3.2.1
      · exact h3.2.2.1
      · exact h3.2.2.2.1
      · exact h3.2.2.2.2
    · rw [h2]; omega

def x86 : Cfg := ⟨.x86_64, false, 8, .plain⟩
def armBe : Cfg := ⟨.arm, true, 4, .plain⟩
def a64Be : Cfg := ⟨.aarch64, true, 8, .plain⟩
def ppc32 : Cfg := ⟨.ppc, true, 4, .plain⟩

def px86 : Prog 8 := (program al false 0x3020 .x86_64 .cbneMemcpyStore true).getD ⟨[], false, 0, 0, 0, 0, 0, 0⟩
def parm : Prog 4 := (program al true 0x1060 .arm .addStore false).getD ⟨[], false, 0, 0, 0, 0, 0, 0⟩
def pa64 : Prog 8 := (program al true 0x3020 .aarch64 .cbneStore false).getD ⟨[], false, 0, 0, 0, 0, 0, 0⟩
def pppc : Prog 4 := (program al true 0x3020 .ppc .cbneStore false).getD ⟨[], false, 0, 0, 0, 0, 0, 0⟩

theorem px86_some : program (n := 8) al false 0x3020 .x86_64 .cbneMemcpyStore true = some px86 := rfl
theorem parm_some : program (n := 4) al true 0x1060 .arm .addStore false = some parm := rfl
theorem pa64_some : program (n := 8) al true 0x3020 .aarch64 .cbneStore false = some pa64 := rfl
theorem pppc_some : program (n := 4) al true 0x3020 .ppc .cbneStore false = some pppc := rfl

theorem demo_x86 : demo x86 px86 = true := by decide +kernel
theorem demo_arm : demo armBe parm = true := by decide +kernel
theorem demo_a64 : demo a64Be pa64 = true := by decide +kernel
theorem demo_ppc : demo ppc32 pppc = true := by decide +kernel

/-- The main theorem applies to the x86_64 image: this memcpy helper has instructions in both
sections. -/
example : ∃ P mem, ∃ cs : Cs, look false (storeCs x86 mem area P) area 0x10000 0x53053053 = .ok cs ∧
    ∀ i, i < px86.code.length → ∃ a, codeAddr (assembled x86 sz base (Shape.of px86) [0x7000, 0x7004]) i = some a ∧
      ∀ d, d < 4 → (cs.covers (a + d) ↔ px86.start ≤ i ∧ i < px86.commit) := by
  obtain ⟨hv, hk, P, hP, mem, hz, hl⟩ := demo_hyps (c := x86) px86_some demo_x86
  obtain ⟨-, cs, h, -, h2⟩ := kernel_sees_critical_section (c := x86) px86_some hv hk hP hz hl
  exact ⟨P, mem, cs, h, h2⟩

/-- The addresses in the big-endian arm image, by evaluation of the kernel's rule: here the abort handler
follows the copy of the descriptor. -/
example : ∃ P, storedPtr armBe sz base (Shape.of parm) [0x7000, 0x7004] = some P ∧
    look true (storeCs armBe (image true (assembled armBe sz base (Shape.of parm) [0x7000, 0x7004])) area P)
      area 0x10000 0xf3def5e7 = .ok ⟨T sz base parm.start, 4 * (parm.commit - parm.start), P + 36⟩ := by
  refine ⟨_, storedPtr_eq (c := armBe) (by decide) (shape_ok parm_some) base _, ?_⟩
  decide +kernel

/-- With the little-endian signature the same big-endian aarch64 image would be rejected. -/
example : look true (storeCs a64Be (image true (assembled a64Be sz base (Shape.of pa64) [0x7000, 0x7004])) area 0x3020)
      area 0x10000 0xd428bc00 = .bad := by
  decide +kernel

/-- The condition on the old field is needed: with garbage in the upper half (big endian, 32-bit) the kernel
sees another pointer. -/
example : look true (storeCs armBe (fun _ => 1#8) area 0x1060) area 0x10000 0xf3def5e7 = .bad := by
  decide +kernel

end Verif.Asm.Ex
