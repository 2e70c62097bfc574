import Verif.AsmTableImage
/-
Signature, addresses of instructions, extents of the sections, and the two pointer arrays.
-/

namespace Verif.Asm

open Verif.Rseq (Arch Byte pos)
open Verif.KernelCs (rd)

variable {sz : Nat → Nat}

/-! ### Signature -/

theorem sig_read {c : Cfg} (hv : c.valid = true) {sh : Shape} (ho : sh.Ok) {base : Loc} {exits : List Nat}
    {mem : Nat → Byte} (hl : Loaded c.be mem (assembled c sz base sh exits)) :
    rd c.be mem (abortAddr c base (T sz base sh.abort) - 4) 4 = sig c := by
  have hit := inText_abort (sz := sz) hv ho base exits
  have ha := addr_abPre hv hit
  obtain ⟨rest, hrest⟩ : ∃ rest, rest = .lbl 4 :: (codes sh.abort sh.ne ++ abPost c ++
    defineTeardown c (codes sh.ne sh.len)) := ⟨_, rfl⟩
  obtain ⟨mid, hmid⟩ : ∃ mid, mid = head c sh exits ++ (.lbl (startL c.arch) :: codes sh.start sh.commit) ++
      (.lbl (commitL c.arch) :: codes sh.commit sh.abort) := ⟨_, rfl⟩
  have hsrc : source c sh exits = mid ++ abPre c ++ rest := by
    simp [source, tail_eq, pre4, hmid, hrest]
  rw [assembled, hsrc] at hl
  change Loaded c.be mem (place sz (st0 base) _) at hl
  rw [← hmid, ← addr_append] at ha
  by_cases h64 : c.arch = .aarch64
  · have hp : abPre c = [.inst sigCode] := by simp [abPre, h64]
    rw [hp] at hl ha
    have hl' : Loaded c.be mem (place sz (st0 base) (mid ++ .inst sigCode :: rest)) := by simpa using hl
    obtain ⟨bs, hbs, hm⟩ := loaded_at hl'
    have : addr sz (st0 base) (mid ++ [.inst sigCode]) = addr sz (st0 base) mid + 4 := by
      simp [addr, run_append, step, next, Loc.set]
    rw [← ha, this, Nat.add_sub_cancel]
    simp only [encode, Option.some.injEq] at hbs
    subst hbs
    have hk : rd c.be mem (addr sz (st0 base) mid) 4 = sig c % 256 ^ 4 := by
      refine rd_of c.be mem _ 4 (sig c) fun i hi => ?_
      have h := hm i (by simpa [bytes] using hi)
      simp only [bytes, List.getElem_map, List.getElem_range] at h
      rw [h]
      have key : ∀ be : Bool, ∀ i < 4, BitVec.ofNat 8 (sigCode / 256 ^ pos false 4 i) =
          BitVec.ofNat 8 ((if be then 0x00bc28d4 else 0xd428bc00) / 256 ^ pos be 4 i) := by decide
      have hs : sig c = if c.be then 0x00bc28d4 else 0xd428bc00 := by simp only [sig, h64]
      rw [hs]
      exact key c.be i hi
    rw [hk]
    cases hbe : c.be <;> simp only [sig, h64, hbe] <;> decide
  · obtain ⟨q, hq⟩ : ∃ q, abPre c = q ++ [.u32 (.lit (sig c))] := by
      revert h64
      cases h : c.arch <;> simp [abPre, h]
      · exact ⟨[.push .failure, .byte 0x0f, .byte 0xb9, .byte 0x3d], rfl⟩
      · exact ⟨[.push .failure, .byte 0x0f, .byte 0xb9, .byte 0x3d], rfl⟩
      · exact ⟨[.balign 4], rfl⟩
      · exact ⟨[.push .failure], rfl⟩
      · exact ⟨[.push .failure], rfl⟩
      all_goals
        exact ⟨[.balign 32, .lbl 3] ++ csFields c 0 0 (.lab (b 1)) (.sub (b 2) (b 1)) (.lab (f 4)), by simp⟩
    rw [hq] at hl ha
    have hl' : Loaded c.be mem (place sz (st0 base) ((mid ++ q) ++ .u32 (.lit (sig c)) :: rest)) := by
      simpa using hl
    have := u32_read (x := sig c) hl' rfl
    rw [← List.append_assoc, addr_step_u32] at ha
    rw [← ha, Nat.add_sub_cancel, this]
    obtain ⟨arch, be, w, isa⟩ := c
    cases arch <;> cases be <;> cases isa <;> simp [sig] at h64 ⊢

/-! ### Instruction addresses -/

/-- Instruction `i` is not among the items. -/
def NoC (i : Nat) (l : List Item) : Prop := ∀ it ∈ l, it ≠ .code i

theorem noC_append {i : Nat} {a b : List Item} : NoC i (a ++ b) ↔ NoC i a ∧ NoC i b := by
  simp only [NoC, List.mem_append]
  constructor
  · intro h; exact ⟨fun it hi => h it (.inl hi), fun it hi => h it (.inr hi)⟩
  · rintro ⟨h1, h2⟩ it (hi | hi)
    · exact h1 it hi
    · exact h2 it hi

theorem noC_cons {i : Nat} {x : Item} {a : List Item} : NoC i (x :: a) ↔ x ≠ .code i ∧ NoC i a := by
  simp [NoC]

theorem noC_nil {i : Nat} : NoC i [] := by simp [NoC]

theorem noC_codes {i j k : Nat} (h : i < j ∨ k ≤ i) : NoC i (codes j k) := by
  intro it hit
  simp only [codes, List.mem_map, List.mem_range'] at hit
  obtain ⟨x, ⟨m, hm, hx⟩, rfl⟩ := hit
  simp
  omega

theorem noC_u64Ptr {i : Nat} {c : Cfg} {e : Expr} : NoC i (u64Ptr c e) := by
  intro it hit
  obtain ⟨arch, be, w, isa⟩ := c
  cases arch <;> simp only [u64Ptr] at hit <;> grind

theorem noC_csFields {i v fl : Nat} {c : Cfg} {e1 e2 e3 : Expr} : NoC i (csFields c v fl e1 e2 e3) := by
  simp [csFields, noC_append, noC_cons, noC_nil, noC_u64Ptr]

theorem noC_exits {i : Nat} {c : Cfg} {r : Ref} {l : List Nat} : NoC i (l.flatMap (defineExit c r)) := by
  induction l with
  | nil => simp [noC_nil]
  | cons a t ih => simp [noC_append, noC_cons, noC_u64Ptr, defineExit, ih]

theorem noC_abPre (i : Nat) (c : Cfg) : NoC i (abPre c) := by
  obtain ⟨arch, be, w, isa⟩ := c
  cases arch <;> simp [abPre, noC_append, noC_cons, noC_nil, noC_csFields]

theorem noC_abPost (i : Nat) (c : Cfg) : NoC i (abPost c) := by
  obtain ⟨arch, be, w, isa⟩ := c
  cases arch <;> simp [abPost, noC_cons, noC_nil]

/-- The head without its instructions. -/
def defs (c : Cfg) (exits : List Nat) : List Item :=
  defineTable c (tableL c.arch) (f (startL c.arch)) (f (commitL c.arch)) (f 4) ++
  exits.flatMap (defineExit c (f (startL c.arch)))

theorem head_defs (c : Cfg) (sh : Shape) (exits : List Nat) : head c sh exits = defs c exits ++ codes 0 sh.start := rfl

theorem noC_defs (i : Nat) (c : Cfg) (exits : List Nat) : NoC i (defs c exits) := by
  simp [defs, defineTable, noC_append, noC_cons, noC_nil, noC_csFields, noC_u64Ptr, noC_exits]

theorem codeAddr_at {i : Nat} {l1 : List Item} (h : NoC i l1) (s : St) (l2 : List Item) :
    codeAddr (place sz s (l1 ++ .code i :: l2)) i = some (addr sz s l1) := by
  have : (place sz s l1).find? (fun p => p.item = .code i) = none := by
    rw [List.find?_eq_none]
    intro p hp
    simpa using h _ (place_mem s l1 hp)
  rw [codeAddr, place_append, List.find?_append, this]
  simp [place, addr]

/-- Address of instruction `i`. -/
def A (c : Cfg) (sz : Nat → Nat) (base : Loc) (sh : Shape) (i : Nat) : Nat :=
  if i < sh.abort then T sz base i
  else abortAddr c base (T sz base sh.abort) + total sz sh.abort i

theorem inText_defs {c : Cfg} (hv : c.valid = true) (base : Loc) (exits : List Nat) :
    InText base sz 0 (run sz (st0 base) (defs c exits)) := by
  have h := run_head (sz := sz) hv base ⟨0, 0, 0, 0, 0⟩ exits
  have e : head c ⟨0, 0, 0, 0, 0⟩ exits = defs c exits := by rw [head_defs]; simp [codes]
  rw [e] at h
  exact ⟨h.cur, h.saved, h.text, h.failure⟩

theorem InText.codes' {base : Loc} {i : Nat} {r : St} (h : InText base sz i r) {j : Nat} (hij : i ≤ j) :
    InText base sz j (run sz r (Asm.codes i j)) := by
  have e : run sz r (Asm.codes i j) = run sz r (.lbl 0 :: Asm.codes i j) := by
    obtain ⟨cur, sv, loc⟩ := r
    simp only [run_cons, step, next]
    congr 2
    funext x
    simp only [Loc.set]; split
    · rename_i hx; rw [hx]
    · rfl
  rw [e]; exact h.codes 0 hij

theorem InText.addr' {base : Loc} {i : Nat} {l : List Item} (h : InText base sz i (run sz (st0 base) l)) :
    Asm.addr sz (st0 base) l = T sz base i := by
  simp only [Asm.addr]; rw [h.cur, h.text]

/-- State at the abort label and later. -/
structure InAb (c : Cfg) (base : Loc) (sz : Nat → Nat) (sh : Shape) (i : Nat) (r : St) : Prop where
  cur : r.cur = abSec c
  loc : r.loc (abSec c) = abortAddr c base (T sz base sh.abort) + total sz sh.abort i
  saved : r.saved = (if abSec c = .failure then [.text] else [])
  text : abSec c = .failure → r.loc .text = T sz base sh.abort
  failure : abSec c = .text → r.loc .failure = base .failure

theorem InAb.codes {c : Cfg} {base : Loc} {sh : Shape} {i j : Nat} {r : St} (h : InAb c base sz sh i r)
    (h0 : sh.abort ≤ i) (hij : i ≤ j) : InAb c base sz sh j (run sz r (Asm.codes i j)) := by
  have hs := total_split (sz := sz) sh.abort i j h0 hij
  rw [run_codes]
  refine ⟨h.cur, ?_, h.saved, fun hf => ?_, fun ht => ?_⟩
  · simp only [h.cur, set_same]; rw [h.loc]; omega
  · simp only [h.cur, Loc.set]; rw [hf, if_neg (by simp)]; exact h.text hf
  · simp only [h.cur, Loc.set]; rw [ht, if_neg (by simp)]; exact h.failure ht

theorem abSec_two (c : Cfg) : abSec c = .failure ∨ abSec c = .text := by
  cases h : c.arch <;> simp [abSec, h]

/-- After the handlers before teardown. -/
def tdPre (c : Cfg) : List Item := if abSec c = .failure then [.pop, .push .failure] else []
def tdPost (c : Cfg) : List Item := if abSec c = .failure then [.pop] else []

theorem td_eq (c : Cfg) (h : List Item) : abPost c ++ defineTeardown c h = tdPre c ++ h ++ tdPost c := by
  obtain ⟨arch, be, w, isa⟩ := c
  cases arch <;> simp [abPost, defineTeardown, tdPre, tdPost, abSec]

theorem InAb.tdPre {c : Cfg} {base : Loc} {sh : Shape} {i : Nat} {r : St} (h : InAb c base sz sh i r) :
    InAb c base sz sh i (run sz r (Asm.tdPre c)) := by
  rcases abSec_two c with hf | ht
  · simp only [Asm.tdPre, hf, if_true, run_cons, run_nil, step]
    have hs := h.saved
    rw [hf, if_pos rfl] at hs
    have hloc := h.loc
    have ht := h.text hf
    rw [hf] at hloc
    exact ⟨by simp [hf], by simp [hf, hloc], by simp [hf, hs], fun _ => ht, fun h' => by rw [hf] at h'; cases h'⟩
  · simp only [Asm.tdPre, ht]; exact h

/-- The part of the source before the abort label. -/
def beforeAb (c : Cfg) (sh : Shape) (exits : List Nat) : List Item :=
  head c sh exits ++ (.lbl (startL c.arch) :: codes sh.start sh.commit) ++
      (.lbl (commitL c.arch) :: codes sh.commit sh.abort) ++ abPre c

theorem source_ab (c : Cfg) (sh : Shape) (exits : List Nat) : source c sh exits =
    (beforeAb c sh exits ++ [.lbl 4]) ++ codes sh.abort sh.ne ++ tdPre c ++ codes sh.ne sh.len ++ tdPost c := by
  have := td_eq c (codes sh.ne sh.len)
  simp only [source, tail_eq, pre4, beforeAb, List.append_assoc, List.cons_append, List.nil_append] at this ⊢
  rw [this]

theorem inAb_abort {c : Cfg} (hv : c.valid = true) {sh : Shape} (ho : sh.Ok) (base : Loc) (exits : List Nat) :
    InAb c base sz sh sh.abort (run sz (st0 base) (beforeAb c sh exits ++ [.lbl 4])) := by
  have h := run_abPre hv (inText_abort (sz := sz) hv ho base exits)
  rw [← run_append] at h
  rw [run_append]
  obtain ⟨h1, h2, h3, h4, h5⟩ := h
  change (run sz (st0 base) (beforeAb c sh exits)).cur = _ at h1
  change (run sz (st0 base) (beforeAb c sh exits)).loc _ = _ at h2
  change (run sz (st0 base) (beforeAb c sh exits)).saved = _ at h3
  change _ → (run sz (st0 base) (beforeAb c sh exits)).loc _ = _ at h4
  change _ → (run sz (st0 base) (beforeAb c sh exits)).loc _ = _ at h5
  generalize run sz (st0 base) (beforeAb c sh exits) = r at *
  simp only [run_cons, run_nil, step, next]
  refine ⟨h1, ?_, h3, fun hf => ?_, fun ht => ?_⟩
  · simp only [h1, set_same, h2, total_self, Nat.add_zero]
  · simp only [h1, Loc.set, hf]; rw [if_neg (by simp)]; exact h4 hf
  · simp only [h1, Loc.set, ht]; rw [if_neg (by simp)]; exact h5 ht

theorem InAb.addr {c : Cfg} {base : Loc} {sh : Shape} {i : Nat} {l : List Item}
    (h : InAb c base sz sh i (run sz (st0 base) l)) :
    Asm.addr sz (st0 base) l = abortAddr c base (T sz base sh.abort) + total sz sh.abort i := by
  simp only [Asm.addr]; rw [h.cur, h.loc]

theorem codeAddr_eq {c : Cfg} (hv : c.valid = true) {sh : Shape} (ho : sh.Ok) (base : Loc) (exits : List Nat)
    {i : Nat} (hi : i < sh.len) : codeAddr (assembled c sz base sh exits) i = some (A c sz base sh i) := by
  have o1 := ho.sc
  have o2 := ho.ca
  have o3 := ho.an
  have o4 := ho.nl
  change codeAddr (place sz (st0 base) (source c sh exits)) i = _
  by_cases h1 : i < sh.start
  · have e : source c sh exits = (defs c exits ++ codes 0 i) ++ .code i :: (codes (i + 1) sh.start ++ tail c sh) := by
      simp [source, head_defs, codes_split 0 i sh.start (by omega) h1]
    rw [e, codeAddr_at (by simp [noC_append, noC_defs, noC_codes]), A, if_pos (by omega)]
    refine congrArg some (InText.addr' ?_)
    rw [run_append]
    exact (inText_defs hv base exits).codes' (by omega)
  by_cases h2 : i < sh.commit
  · have e : source c sh exits = (head c sh exits ++ (.lbl (startL c.arch) :: codes sh.start i)) ++ .code i ::
        (codes (i + 1) sh.commit ++ [.lbl (commitL c.arch)] ++ codes sh.commit sh.abort ++
          defineAbort c (codes sh.abort sh.ne) ++ defineTeardown c (codes sh.ne sh.len)) := by
      simp [source, tail, codes_split sh.start i sh.commit (by omega) h2]
    have n1 : NoC i (codes 0 sh.start) := noC_codes (by omega)
    rw [e, codeAddr_at (by simp [head_defs, noC_append, noC_cons, noC_defs, noC_codes, n1]), A, if_pos (by omega)]
    refine congrArg some (InText.addr' ?_)
    rw [run_append]
    exact (inText_head hv base sh exits).codes _ (by omega)
  by_cases h3 : i < sh.abort
  · have e : source c sh exits = (head c sh exits ++ (.lbl (startL c.arch) :: codes sh.start sh.commit) ++
        (.lbl (commitL c.arch) :: codes sh.commit i)) ++ .code i ::
        (codes (i + 1) sh.abort ++
          defineAbort c (codes sh.abort sh.ne) ++ defineTeardown c (codes sh.ne sh.len)) := by
      simp [source, tail, codes_split sh.commit i sh.abort (by omega) h3]
    have n1 : NoC i (codes 0 sh.start) := noC_codes (by omega)
    have n2 : NoC i (codes sh.start sh.commit) := noC_codes (by omega)
    rw [e, codeAddr_at (by simp [head_defs, noC_append, noC_cons, noC_defs, noC_codes, n1, n2]), A,
      if_pos (by omega)]
    refine congrArg some (InText.addr' ?_)
    rw [run_append]
    exact (inText_commit hv base exits ho.sc).codes _ (by omega)
  have n1 : NoC i (codes 0 sh.start) := noC_codes (by omega)
  have n2 : NoC i (codes sh.start sh.commit) := noC_codes (by omega)
  have n3 : NoC i (codes sh.commit sh.abort) := noC_codes (by omega)
  have nb : NoC i (beforeAb c sh exits) := by
    simp [beforeAb, head_defs, noC_append, noC_cons, noC_defs, n1, n2, n3, noC_abPre]
  have ia := inAb_abort (sz := sz) hv ho base exits
  rw [A, if_neg h3]
  by_cases h4 : i < sh.ne
  · have e : source c sh exits = ((beforeAb c sh exits ++ [.lbl 4]) ++ codes sh.abort i) ++ .code i ::
        (codes (i + 1) sh.ne ++ tdPre c ++ codes sh.ne sh.len ++ tdPost c) := by
      rw [source_ab, codes_split sh.abort i sh.ne (by omega) h4]; simp
    rw [e, codeAddr_at (by simp [noC_append, noC_cons, noC_nil, nb, noC_codes])]
    refine congrArg some (InAb.addr ?_)
    rw [run_append]
    exact ia.codes (Nat.le_refl _) (by omega)
  · have e : source c sh exits = ((beforeAb c sh exits ++ [.lbl 4]) ++ codes sh.abort sh.ne ++ tdPre c ++
        codes sh.ne i) ++ .code i :: (codes (i + 1) sh.len ++ tdPost c) := by
      rw [source_ab, codes_split sh.ne i sh.len (by omega) hi]; simp
    have n4 : NoC i (codes sh.abort sh.ne) := noC_codes (by omega)
    have n5 : NoC i (tdPre c) := by unfold tdPre; split <;> simp [noC_cons, noC_nil]
    rw [e, codeAddr_at (by simp [noC_append, noC_cons, noC_nil, nb, n4, n5, noC_codes])]
    refine congrArg some (InAb.addr ?_)
    rw [run_append, run_append, run_append]
    exact ((ia.codes (Nat.le_refl _) (by omega)).tdPre).codes (by omega) (by omega)

/-! ### Extents -/

theorem run_tdPost (c : Cfg) (r : St) : (run sz r (tdPost c)).loc = r.loc := by
  unfold tdPost; split <;> simp [step]

/-- Where the sections of a helper end. -/
theorem ends {c : Cfg} (hv : c.valid = true) {sh : Shape} (ho : sh.Ok) (base : Loc) (exits : List Nat) :
    (run sz (st0 base) (source c sh exits)).loc (abSec c) =
      abortAddr c base (T sz base sh.abort) + total sz sh.abort sh.len ∧
    (abSec c = .failure → (run sz (st0 base) (source c sh exits)).loc .text = T sz base sh.abort) := by
  have o3 := ho.an
  have o4 := ho.nl
  have h := (((inAb_abort (sz := sz) hv ho base exits).codes (Nat.le_refl _) (Nat.le_of_lt o3)).tdPre).codes
    (by omega) o4
  rw [source_ab, run_append, run_tdPost, run_append, run_append, run_append]
  exact ⟨h.loc, h.text⟩

theorem alignUp_ge (x : Nat) {a : Nat} (h : 0 < a) : x ≤ alignUp x a := by
  unfold alignUp
  have := Nat.div_add_mod (x + (a - 1)) a
  have := Nat.mod_lt (x + (a - 1)) h
  rw [Nat.mul_comm] at *
  have : a * ((x + (a - 1)) / a) = (x + (a - 1)) / a * a := Nat.mul_comm _ _
  omega

theorem alignUp_dvd (x a : Nat) : a ∣ alignUp x a := ⟨_, Nat.mul_comm _ _⟩

/-- No `.balign 0`. -/
def Pos (l : List Item) : Prop := ∀ it ∈ l, it ≠ .balign 0

theorem loc_mono {l : List Item} (h : Pos l) (s : St) (x : Sec) : s.loc x ≤ (run sz s l).loc x := by
  induction l generalizing s with
  | nil => exact Nat.le_refl _
  | cons it r ih =>
    rw [run_cons]
    refine Nat.le_trans ?_ (ih (fun i hi => h i (by simp [hi])) _)
    have hn := h it (by simp)
    cases it <;> simp only [step, next, Loc.set] <;> (try split) <;> (try omega)
    · rename_i hx; rw [hx]; omega
    · rename_i hx; rw [hx]; exact Nat.le_refl _
    · rename_i hx; rw [hx]; omega
    · rename_i hx; rw [hx]; omega
    · rename_i hx; rw [hx]; omega
    · rename_i hx; rw [hx]; omega
    · rename_i a hx
      rw [hx]
      refine alignUp_ge _ (Nat.pos_of_ne_zero fun h0 => hn (by rw [h0]))

theorem pos_append {a b : List Item} : Pos (a ++ b) ↔ Pos a ∧ Pos b := by
  simp only [Pos, List.mem_append]
  constructor
  · intro h; exact ⟨fun it hi => h it (.inl hi), fun it hi => h it (.inr hi)⟩
  · rintro ⟨h1, h2⟩ it (hi | hi)
    · exact h1 it hi
    · exact h2 it hi

theorem pos_cons {x : Item} {a : List Item} : Pos (x :: a) ↔ x ≠ .balign 0 ∧ Pos a := by
  simp [Pos]

theorem pos_nil : Pos [] := by simp [Pos]

theorem pos_codes {j k : Nat} : Pos (codes j k) := by
  intro it hit
  simp only [codes, List.mem_map] at hit
  obtain ⟨x, _, rfl⟩ := hit
  simp

theorem pos_u64Ptr {c : Cfg} {e : Expr} : Pos (u64Ptr c e) := by
  intro it hit
  obtain ⟨arch, be, w, isa⟩ := c
  cases arch <;> simp only [u64Ptr] at hit <;> grind

theorem pos_csFields {v fl : Nat} {c : Cfg} {e1 e2 e3 : Expr} : Pos (csFields c v fl e1 e2 e3) := by
  simp [csFields, pos_append, pos_cons, pos_nil, pos_u64Ptr]

theorem pos_exits {c : Cfg} {r : Ref} {l : List Nat} : Pos (l.flatMap (defineExit c r)) := by
  induction l with
  | nil => simp [pos_nil]
  | cons a t ih => simp [pos_append, pos_cons, pos_u64Ptr, defineExit, ih]

theorem pos_tail (c : Cfg) (sh : Shape) : Pos (tail c sh) := by
  rw [tail_eq]
  have h1 : Pos (abPre c) := by
    obtain ⟨arch, be, w, isa⟩ := c
    cases arch <;> simp [abPre, pos_append, pos_cons, pos_nil, pos_csFields]
  have h2 : Pos (abPost c) := by
    obtain ⟨arch, be, w, isa⟩ := c
    cases arch <;> simp [abPost, pos_cons, pos_nil]
  have h3 : Pos (defineTeardown c (codes sh.ne sh.len)) := by
    obtain ⟨arch, be, w, isa⟩ := c
    cases arch <;> simp [defineTeardown, pos_append, pos_cons, pos_nil, pos_codes]
  simp [pre4, pos_append, pos_cons, pos_codes, h1, h2, h3]

/-- The descriptor in `__rseq_cs` lies within the section. -/
theorem table_end {c : Cfg} (hv : c.valid = true) (sh : Shape) (base : Loc) (exits : List Nat) :
    alignUp (base .cs) 32 + 32 ≤ (run sz (st0 base) (source c sh exits)).loc .cs := by
  have hsrc : source c sh exits = ([.push .cs, .balign 32, .lbl (tableL c.arch)] ++
      csFields c 0 0 (.lab (f (startL c.arch))) (.sub (f (commitL c.arch)) (f (startL c.arch))) (.lab (f 4))) ++
        (headRest c sh exits ++ tail c sh) := by
    simp [source, head_eq]
  rw [hsrc, run_append]
  refine Nat.le_trans ?_ (loc_mono ?_ _ _)
  · rw [run_append, run_csFields hv]
    simp only [run_cons, run_nil, step, next, set_same, Nat.le_refl]
  · simp [headRest, pos_append, pos_cons, pos_nil, pos_u64Ptr, pos_exits, pos_codes, pos_tail]

/-! ### `__rseq_cs_ptr_array` and `__rseq_exit_point_array` -/

theorem ptr_read {c : Cfg} (hv : c.valid = true) {sh : Shape} {base : Loc} {exits : List Nat}
    {mem : Nat → Byte} (hl : Loaded c.be mem (assembled c sz base sh exits))
    (hx : alignUp (base .cs) 32 < 256 ^ c.w) :
    rd c.be mem (base .ptrs) 8 = alignUp (base .cs) 32 := by
  obtain ⟨q, hq⟩ : ∃ q, q = csFields c 0 0 (.lab (f (startL c.arch)))
      (.sub (f (commitL c.arch)) (f (startL c.arch))) (.lab (f 4)) ++ [.pop, .push .ptrs] := ⟨_, rfl⟩
  have hsrc : source c sh exits = ([.push .cs, .balign 32] ++ .lbl (tableL c.arch) :: q) ++
      (u64Ptr c (.lab (b (tableL c.arch))) ++ ([.pop] ++ exits.flatMap (defineExit c (f (startL c.arch))) ++
        codes 0 sh.start ++ tail c sh)) := by
    simp [source, head, defineTable, hq]
  rw [assembled, hsrc] at hl
  change Loaded c.be mem (place sz (st0 base) _) at hl
  have := u64Ptr_read hv (x := alignUp (base .cs) 32) hl (by
    simp only [value, resolve_b]
    rw [firstL_place_rev (by simp [hq, noL_append, noL_csFields, noL_cons, noL_nil])]
    simp [addr, step, next, Loc.set]) hx
  rw [← this]
  congr 1
  simp only [hq, addr, run_append, run_cons, run_nil, run_csFields hv, step, List.headD_cons, List.tail_cons]
  simp [Loc.set]

theorem run_exits_loc {c : Cfg} (hv : c.valid = true) (r : Ref) (l : List Nat) : ∀ s : St,
    (run sz s (l.flatMap (defineExit c r))).loc .exits = s.loc .exits + 16 * l.length := by
  induction l with
  | nil => intro s; simp
  | cons a t ih =>
    intro s
    rw [List.flatMap_cons, run_append, ih, List.length_cons]
    have : (run sz s (defineExit c r a)).loc .exits = s.loc .exits + 16 := by
      simp only [defineExit, run_append, run_u64Ptr hv, run_cons, run_nil, step]
      simp [Loc.set]
    omega

theorem run_table_exits {c : Cfg} (hv : c.valid = true) (s : St) (l : Nat) (r1 r2 r3 : Ref) :
    (run sz s (defineTable c l r1 r2 r3)).loc .exits = s.loc .exits := by
  simp only [defineTable, run_append, run_u64Ptr hv, run_csFields hv, run_cons, run_nil, step, next]
  simp [Loc.set]

theorem exit_read {c : Cfg} (hv : c.valid = true) {sh : Shape} (ho : sh.Ok) {base : Loc} {xs ys : List Nat} {x : Nat}
    {mem : Nat → Byte} (hl : Loaded c.be mem (assembled c sz base sh (xs ++ x :: ys)))
    (hs : T sz base sh.start < 256 ^ c.w) (hx : x < 256 ^ c.w) :
    rd c.be mem (base .exits + 16 * xs.length) 8 = T sz base sh.start ∧
    rd c.be mem (base .exits + 16 * xs.length + 8) 8 = x := by
  obtain ⟨q, hq⟩ : ∃ q, q = defineTable c (tableL c.arch) (f (startL c.arch)) (f (commitL c.arch)) (f 4) ++
    xs.flatMap (defineExit c (f (startL c.arch))) ++ [.push .exits] := ⟨_, rfl⟩
  obtain ⟨m, hm⟩ : ∃ m, m = u64Ptr c (.ext x) ++ ([.pop] ++ ys.flatMap (defineExit c (f (startL c.arch))) ++
        codes 0 sh.start) := ⟨_, rfl⟩
  have hsrc : source c sh (xs ++ x :: ys) = q ++ (u64Ptr c (.lab (f (startL c.arch))) ++ (m ++ tail c sh)) := by
    simp [source, head, hq, hm, defineExit]
  have hsrc2 : source c sh (xs ++ x :: ys) = (q ++ u64Ptr c (.lab (f (startL c.arch)))) ++ (u64Ptr c (.ext x) ++
      ([.pop] ++ ys.flatMap (defineExit c (f (startL c.arch))) ++ codes 0 sh.start ++ tail c sh)) := by
    simp [hsrc, hm]
  have hq1 : addr sz (st0 base) q = base .exits + 16 * xs.length := by
    have : (run sz (st0 base) q).loc .exits = base .exits + 16 * xs.length := by
      rw [hq]
      simp only [run_append, run_cons, run_nil, step]
      rw [run_exits_loc hv, run_table_exits hv]
    rw [← this, addr]
    congr 1
    rw [hq]
    simp only [run_append, run_cons, run_nil, step]
  have hr := fwd_refs (sz := sz) (c := c) (sh := sh) base (xs ++ x :: ys)
    (l1 := q ++ u64Ptr c (.lab (f (startL c.arch)))) (m := m) (by rw [hsrc]; simp)
    (by simp [hm, noL_append, noL_cons, noL_nil, noL_u64Ptr, noL_exits, noL_codes]) hv ho
  rw [assembled] at hl
  change Loaded c.be mem (place sz (st0 base) _) at hl
  have h1 := hl
  rw [hsrc] at h1
  have h2 := hl
  rw [hsrc2] at h2
  have r1 := u64Ptr_read hv (x := T sz base sh.start) h1 (by
    simp only [value, resolve_f]; exact hr.1) hs
  have r2 := u64Ptr_read hv (x := x) h2 rfl hx
  rw [addr_u64Ptr hv, hq1] at r2
  rw [hq1] at r1
  exact ⟨r1, r2⟩

end Verif.Asm
