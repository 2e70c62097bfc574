import Verif.AsmTableCore
/-
The bytes of an assembled helper: descriptor(s), signature; addresses of its instructions.
-/

namespace Verif.Asm

open Verif.Rseq (Arch Byte pos)
open Verif.KernelCs (rd)

variable {sz : Nat → Nat}

theorem resolve_f (pre post : List Placed) (n : Nat) : resolve pre post (f n) = firstL n post := rfl
theorem resolve_b (pre post : List Placed) (n : Nat) : resolve pre post (b n) = firstL n pre.reverse := rfl

/-- A descriptor with the right contents is at `a`. -/
structure Good (c : Cfg) (mem : Nat → Byte) (a start off abort : Nat) : Prop where
  version : rd c.be mem a 4 = 0
  flags : rd c.be mem (a + 4) 4 = 0
  start : rd c.be mem (a + 8) 8 = start
  off : rd c.be mem (a + 16) 8 = off
  abort : rd c.be mem (a + 24) 8 = abort

/-- All parts of the helper fit below `256 ^ w`. -/
structure Below (c : Cfg) (base : Loc) (sz : Nat → Nat) (sh : Shape) (t : Nat) : Prop where
  start : T sz base sh.start < t
  commit : T sz base sh.commit < t
  abort : abortAddr c base (T sz base sh.abort) < t
  word : t ≤ 256 ^ c.w
  word8 : c.w ≤ 8

theorem pow_w {c : Cfg} (hv : c.valid = true) : c.w ≤ 8 := by
  obtain ⟨arch, be, w, isa⟩ := c
  cases arch <;> cases be <;> simp [Cfg.valid] at hv ⊢ <;> omega

theorem T_mono (base : Loc) {i j : Nat} (h : i ≤ j) : T sz base i ≤ T sz base j := by
  simp only [T]; rw [total_split 0 i j (by omega) h]; omega

/-- The descriptor in section `__rseq_cs`. -/
theorem table_good {c : Cfg} (hv : c.valid = true) {sh : Shape} (ho : sh.Ok) {base : Loc} {exits : List Nat}
    {mem : Nat → Byte} {t : Nat} (hb : Below c base sz sh t)
    (hl : Loaded c.be mem (assembled c sz base sh exits)) :
    Good c mem (alignUp (base .cs) 32) (T sz base sh.start) (T sz base sh.commit - T sz base sh.start)
      (abortAddr c base (T sz base sh.abort)) := by
  have hsrc : source c sh exits = [.push .cs, .balign 32, .lbl (tableL c.arch)] ++
      (csFields c 0 0 (.lab (f (startL c.arch))) (.sub (f (commitL c.arch)) (f (startL c.arch))) (.lab (f 4)) ++
        (headRest c sh exits ++ tail c sh)) := by
    simp [source, head_eq]
  have hw : 256 ^ c.w ≤ 256 ^ 8 := Nat.pow_le_pow_right (by omega) hb.word8
  have hb1 := hb.start
  have hb2 := hb.commit
  have hb3 := hb.abort
  have hb4 := hb.word
  have hm := T_mono (sz := sz) base ho.sc
  have hr := fwd_refs (sz := sz) (c := c) (sh := sh) base exits
    (l1 := [.push .cs, .balign 32, .lbl (tableL c.arch)] ++
      csFields c 0 0 (.lab (f (startL c.arch))) (.sub (f (commitL c.arch)) (f (startL c.arch))) (.lab (f 4)))
    (m := headRest c sh exits) (by rw [hsrc]; simp)
    ⟨noL_headRest _ _ _ _, noL_headRest _ _ _ _, noL_headRest _ _ _ _⟩ hv ho
  rw [assembled, hsrc] at hl
  change Loaded c.be mem (place sz (st0 base) _) at hl
  have := csFields_read hv (x1 := T sz base sh.start) (x2 := T sz base sh.commit - T sz base sh.start)
    (x3 := abortAddr c base (T sz base sh.abort)) hl
    (by simp only [value, resolve_f]; exact hr.1)
    (by
      simp only [value, resolve_f]
      rw [hr.1, hr.2.1]
      simp only [Option.bind_eq_bind, Option.bind_some, Option.pure_def, Option.some.injEq]
      simp only [Nat.reducePow] at hw hb4 ⊢
      omega)
    (by simp only [value, resolve_f]; exact hr.2.2)
    (by omega) (by omega) (by omega)
  have ha : addr sz (st0 base) [.push .cs, .balign 32, .lbl (tableL c.arch)] = alignUp (base .cs) 32 := by
    simp [addr, step, next, Loc.set]
  rw [ha] at this
  exact ⟨this.1, this.2.1, this.2.2.1, this.2.2.2.1, this.2.2.2.2⟩

/-- Architectures with a copy of the descriptor next to the abort handler. -/
def hasCopy : Arch → Bool
  | .arm | .mips | .loongarch => true
  | _ => false

/-- The copy. -/
theorem copy_good {c : Cfg} (hv : c.valid = true) (hc : hasCopy c.arch = true) {sh : Shape} (ho : sh.Ok)
    {base : Loc} {exits : List Nat} {mem : Nat → Byte} {t : Nat} (hb : Below c base sz sh t)
    (hl : Loaded c.be mem (assembled c sz base sh exits)) :
    Good c mem (alignUp (T sz base sh.abort) 32) (T sz base sh.start)
      (T sz base sh.commit - T sz base sh.start) (abortAddr c base (T sz base sh.abort)) := by
  have h1 : startL c.arch = 1 := by revert hc; cases c.arch <;> simp [hasCopy, startL]
  have h2 : commitL c.arch = 2 := by revert hc; cases c.arch <;> simp [hasCopy, commitL]
  have hp : abPre c = [.balign 32, .lbl 3] ++
      (csFields c 0 0 (.lab (b 1)) (.sub (b 2) (b 1)) (.lab (f 4)) ++ [.u32 (.lit (sig c))]) := by
    revert hc; cases h : c.arch <;> simp [hasCopy, abPre, h]
  obtain ⟨mid, hmid⟩ : ∃ mid, mid = head c sh exits ++ (.lbl 1 :: codes sh.start sh.commit) ++
      (.lbl 2 :: codes sh.commit sh.abort) := ⟨_, rfl⟩
  have hit : InText base sz sh.abort (run sz (st0 base) mid) := by
    rw [hmid]; have := inText_abort (sz := sz) hv ho base exits; rwa [h1, h2] at this
  obtain ⟨rest, hrest⟩ : ∃ rest, rest = codes sh.abort sh.ne ++ abPost c ++ defineTeardown c (codes sh.ne sh.len) :=
    ⟨_, rfl⟩
  have hsrc : source c sh exits = (mid ++ [.balign 32, .lbl 3]) ++
      (csFields c 0 0 (.lab (b 1)) (.sub (b 2) (b 1)) (.lab (f 4)) ++
        ([.u32 (.lit (sig c))] ++ .lbl 4 :: rest)) := by
    simp [source, tail_eq, pre4, hp, hmid, hrest, h1, h2]
  have hw : 256 ^ c.w ≤ 256 ^ 8 := Nat.pow_le_pow_right (by omega) hb.word8
  have hb1 := hb.start
  have hb2 := hb.commit
  have hb3 := hb.abort
  have hb4 := hb.word
  have hm := T_mono (sz := sz) base ho.sc
  have r1 : firstL 1 (place sz (st0 base) (mid ++ [.balign 32, .lbl 3])).reverse = some (T sz base sh.start) := by
    have e : mid ++ [.balign 32, .lbl 3] = head c sh exits ++ .lbl 1 :: (codes sh.start sh.commit ++
        (.lbl 2 :: codes sh.commit sh.abort) ++ [.balign 32, .lbl 3]) := by simp [hmid]
    rw [e, firstL_place_rev (by simp [noL_append, noL_cons, noL_nil, noL_codes])]
    have h := inText_head (sz := sz) hv base sh exits
    rw [← h.addr, addr, addr]; rfl
  have r2 : firstL 2 (place sz (st0 base) (mid ++ [.balign 32, .lbl 3])).reverse = some (T sz base sh.commit) := by
    have e : mid ++ [.balign 32, .lbl 3] = (head c sh exits ++ (.lbl 1 :: codes sh.start sh.commit)) ++ .lbl 2 ::
        (codes sh.commit sh.abort ++ [.balign 32, .lbl 3]) := by simp [hmid]
    rw [e, firstL_place_rev (by simp [noL_append, noL_cons, noL_nil, noL_codes])]
    have h := inText_commit (sz := sz) hv base exits ho.sc
    rw [h1] at h
    rw [← h.addr, addr, addr]; rfl
  have r4 : firstL 4 (place sz (run sz (st0 base) ((mid ++ [.balign 32, .lbl 3]) ++
      csFields c 0 0 (.lab (b 1)) (.sub (b 2) (b 1)) (.lab (f 4)))) ([.u32 (.lit (sig c))] ++ .lbl 4 :: rest)) =
      some (abortAddr c base (T sz base sh.abort)) := by
    rw [firstL_place (by simp [noL_cons, noL_nil]), ← addr_append, ← addr_abPre hv hit, ← addr_append, hp]
    simp
  rw [assembled, hsrc] at hl
  change Loaded c.be mem (place sz (st0 base) _) at hl
  have := csFields_read hv (x1 := T sz base sh.start) (x2 := T sz base sh.commit - T sz base sh.start)
    (x3 := abortAddr c base (T sz base sh.abort)) hl
    (by simp only [value, resolve_b]; exact r1)
    (by
      simp only [value, resolve_b]
      rw [r1, r2]
      simp only [Option.bind_eq_bind, Option.bind_some, Option.pure_def, Option.some.injEq]
      simp only [Nat.reducePow] at hw hb4 ⊢
      omega)
    (by simp only [value, resolve_f]; exact r4)
    (by omega) (by omega) (by omega)
  have ha : addr sz (st0 base) (mid ++ [.balign 32, .lbl 3]) = alignUp (T sz base sh.abort) 32 := by
    rw [addr_append]
    simp [addr, step, next, set_same, set_set, hit.cur, hit.text]
  rw [ha] at this
  exact ⟨this.1, this.2.1, this.2.2.1, this.2.2.2.1, this.2.2.2.2⟩

/-- Where the descriptor whose address is stored lies. -/
def descAddr (c : Cfg) (base : Loc) (k : Nat) : Nat :=
  if hasCopy c.arch then alignUp k 32 else alignUp (base .cs) 32

theorem stored_good {c : Cfg} (hv : c.valid = true) {sh : Shape} (ho : sh.Ok) {base : Loc} {exits : List Nat}
    {mem : Nat → Byte} {t : Nat} (hb : Below c base sz sh t)
    (hl : Loaded c.be mem (assembled c sz base sh exits)) :
    Good c mem (descAddr c base (T sz base sh.abort)) (T sz base sh.start)
      (T sz base sh.commit - T sz base sh.start) (abortAddr c base (T sz base sh.abort)) := by
  unfold descAddr
  split
  · rename_i h; exact copy_good hv h ho hb hl
  · exact table_good hv ho hb hl

/-- The pointer that the helper stores. -/
theorem storedPtr_eq {c : Cfg} (hv : c.valid = true) {sh : Shape} (ho : sh.Ok) (base : Loc) (exits : List Nat) :
    storedPtr c sz base sh exits = some (descAddr c base (T sz base sh.abort)) := by
  have ha : addr sz (st0 base) [.push .cs, .balign 32] = alignUp (base .cs) 32 := by
    simp [addr, step, next, Loc.set]
  have hback : ∀ n, tableL c.arch = n → firstL n (place sz (st0 base) (head c sh exits)).reverse =
      some (alignUp (base .cs) 32) := by
    intro n hn
    have e : head c sh exits = [.push .cs, .balign 32] ++ .lbl n :: (csFields c 0 0 (.lab (f (startL c.arch)))
      (.sub (f (commitL c.arch)) (f (startL c.arch))) (.lab (f 4)) ++ headRest c sh exits) := by
      rw [head_eq, hn]; simp
    rw [e, firstL_place_rev (by simp [noL_append, noL_csFields, noL_headRest]), ha]
  have hfwd : hasCopy c.arch = true → firstL 3 (place sz (run sz (st0 base) (head c sh exits)) (tail c sh)) =
      some (alignUp (T sz base sh.abort) 32) := by
    intro hc
    have h1 : startL c.arch = 1 := by revert hc; cases c.arch <;> simp [hasCopy, startL]
    have h2 : commitL c.arch = 2 := by revert hc; cases c.arch <;> simp [hasCopy, commitL]
    have hp : abPre c = [.balign 32] ++ .lbl 3 ::
        (csFields c 0 0 (.lab (b 1)) (.sub (b 2) (b 1)) (.lab (f 4)) ++ [.u32 (.lit (sig c))]) := by
      revert hc; cases h : c.arch <;> simp [hasCopy, abPre, h]
    have e : tail c sh = (((.lbl 1 :: codes sh.start sh.commit) ++ (.lbl 2 :: codes sh.commit sh.abort)) ++ [.balign 32]) ++
        .lbl 3 :: (csFields c 0 0 (.lab (b 1)) (.sub (b 2) (b 1)) (.lab (f 4)) ++ [.u32 (.lit (sig c))] ++ .lbl 4 ::
        (codes sh.abort sh.ne ++ abPost c ++ defineTeardown c (codes sh.ne sh.len))) := by
      rw [tail_eq, pre4, hp, h1, h2]; simp
    have hit := inText_abort (sz := sz) hv ho base exits
    rw [h1, h2] at hit
    rw [e, firstL_place (by simp [noL_append, noL_cons, noL_nil, noL_codes]), ← addr_append, ← List.append_assoc,
      ← List.append_assoc, addr_append]
    rw [addr, run_cons, run_nil]
    simp only [step, next, set_same, hit.cur, hit.text]
  obtain ⟨arch, be, w, isa⟩ := c
  cases arch <;>
    simp only [storedPtr, resolve, storeRef, b, f, Bool.false_eq_true, if_false, if_true, descAddr, hasCopy] <;>
    first
      | exact hback _ rfl
      | exact hfwd rfl

end Verif.Asm
