import Verif.AsmTableLemmas
/-
Addresses of the labels and instructions of an assembled helper, and the bytes of its descriptor.
-/

namespace Verif.Asm

open Verif.Rseq (Arch Byte pos)
open Verif.KernelCs (rd)

variable {sz : Nat → Nat}

/-! ### Labels -/

theorem noL_append {n : Nat} {a b : List Item} : NoL n (a ++ b) ↔ NoL n a ∧ NoL n b := by
  simp only [NoL, List.mem_append]
  constructor
  · intro h; exact ⟨fun it hi => h it (.inl hi), fun it hi => h it (.inr hi)⟩
  · rintro ⟨h1, h2⟩ it (hi | hi)
    · exact h1 it hi
    · exact h2 it hi

theorem noL_cons {n : Nat} {x : Item} {a : List Item} : NoL n (x :: a) ↔ x ≠ .lbl n ∧ NoL n a := by
  simp [NoL]

theorem noL_nil {n : Nat} : NoL n [] := by simp [NoL]

theorem noL_codes {n i j : Nat} : NoL n (codes i j) := by
  intro it hit
  simp only [codes, List.mem_map] at hit
  obtain ⟨k, _, rfl⟩ := hit
  simp

theorem noL_u64Ptr {n : Nat} {c : Cfg} {e : Expr} : NoL n (u64Ptr c e) := notL_u64Ptr e n

theorem noL_csFields {n v fl : Nat} {c : Cfg} {e1 e2 e3 : Expr} : NoL n (csFields c v fl e1 e2 e3) := by
  simp [csFields, noL_append, noL_cons, noL_nil, noL_u64Ptr]

theorem noL_exits {n : Nat} {c : Cfg} {r : Ref} {l : List Nat} : NoL n (l.flatMap (defineExit c r)) := by
  induction l with
  | nil => simp [noL_nil]
  | cons a t ih => simp [noL_append, noL_cons, noL_u64Ptr, defineExit, ih]

/-! ### Location counters -/

/-- Bytes of the instructions `i, ..., j-1`. -/
def total (sz : Nat → Nat) (i j : Nat) : Nat := ((List.range' i (j - i)).map sz).sum

theorem total_split (i k j : Nat) (h1 : i ≤ k) (h2 : k ≤ j) : total sz i j = total sz i k + total sz k j := by
  have : List.range' i (j - i) = List.range' i (k - i) ++ List.range' k (j - k) := by
    have h : j - i = (k - i) + (j - k) := by omega
    rw [h, ← List.range'_append_1]
    congr 2
    omega
  simp [total, this]

theorem total_self (i : Nat) : total sz i i = 0 := by simp [total]

theorem total_one (i : Nat) : total sz i (i + 1) = sz i := by
  simp [total]

theorem run_codes (s : St) (i j : Nat) :
    run sz s (codes i j) = ⟨s.cur, s.saved, s.loc.set s.cur (s.loc s.cur + total sz i j)⟩ := by
  simp only [codes, total]
  generalize j - i = k
  induction k generalizing i s with
  | zero =>
    obtain ⟨cur, sv, loc⟩ := s
    have : Loc.set loc cur (loc cur) = loc := by
      funext x; simp only [Loc.set]; split <;> simp_all
    simp [this]
  | succ k ih =>
    simp only [List.range'_succ, List.map_cons, run_cons, List.sum_cons]
    rw [ih]
    simp only [step, next, Loc.set, if_true, St.mk.injEq, true_and]
    funext x
    simp only [Loc.set]
    split <;> simp_all [Nat.add_assoc]

theorem codes_split (i k j : Nat) (h1 : i ≤ k) (h2 : k < j) :
    codes i j = codes i k ++ .code k :: codes (k + 1) j := by
  have : List.range' i (j - i) = List.range' i (k - i) ++ k :: List.range' (k + 1) (j - (k + 1)) := by
    have h : j - i = (k - i) + (j - k) := by omega
    rw [h, ← List.range'_append_1]
    have h3 : j - k = (j - (k + 1)) + 1 := by omega
    rw [h3, List.range'_succ, show i + (k - i) = k by omega]
  simp [codes, this]

/-- `RSEQ_ASM_U64_PTR` takes the same form everywhere in a build. -/
theorem u64Ptr_form (c : Cfg) (hv : c.valid = true) :
    (∀ e, u64Ptr c e = [.u64 e]) ∨ (∀ e, u64Ptr c e = [.u32 (.lit 0), .u32 e]) ∨
    (∀ e, u64Ptr c e = [.u32 e, .u32 (.lit 0)]) := by
  obtain ⟨arch, be, w, isa⟩ := c
  cases arch <;> cases be <;> simp [Cfg.valid, u64Ptr] at hv ⊢ <;> grind

theorem set_set (l : Loc) (s : Sec) (x y : Nat) : (l.set s x).set s y = l.set s y := by
  funext z; simp only [Loc.set]; split <;> rfl

theorem set_same (l : Loc) (s : Sec) (x : Nat) : l.set s x s = x := by simp [Loc.set]

theorem run_u64Ptr {c : Cfg} (hv : c.valid = true) (s : St) (e : Expr) :
    run sz s (u64Ptr c e) = ⟨s.cur, s.saved, s.loc.set s.cur (s.loc s.cur + 8)⟩ := by
  rcases u64Ptr_form c hv with h | h | h <;> rw [h] <;>
    simp [step, next, set_set, set_same]

theorem run_csFields {c : Cfg} (hv : c.valid = true) (s : St) (v fl : Nat) (e1 e2 e3 : Expr) :
    run sz s (csFields c v fl e1 e2 e3) = ⟨s.cur, s.saved, s.loc.set s.cur (s.loc s.cur + 32)⟩ := by
  simp only [csFields, run_append, run_u64Ptr hv]
  simp [step, next, set_set, set_same]

/-- The sections a table or exit point definition leaves alone. -/
structure Calm (s r : St) : Prop where
  cur : r.cur = s.cur
  saved : r.saved = s.saved
  text : r.loc .text = s.loc .text
  failure : r.loc .failure = s.loc .failure

theorem Calm.trans {a b c : St} (h1 : Calm a b) (h2 : Calm b c) : Calm a c :=
  ⟨h2.cur.trans h1.cur, h2.saved.trans h1.saved, h2.text.trans h1.text, h2.failure.trans h1.failure⟩

theorem calm_table {c : Cfg} (hv : c.valid = true) (s : St) (l : Nat) (r1 r2 r3 : Ref) :
    Calm s (run sz s (defineTable c l r1 r2 r3)) := by
  simp only [defineTable, run_append, run_u64Ptr hv, run_csFields hv, run_cons, run_nil, step, next]
  constructor <;> simp [Loc.set]

theorem calm_exit {c : Cfg} (hv : c.valid = true) (s : St) (r : Ref) (t : Nat) :
    Calm s (run sz s (defineExit c r t)) := by
  simp only [defineExit, run_append, run_u64Ptr hv, run_cons, run_nil, step]
  constructor <;> simp [Loc.set]

theorem calm_exits {c : Cfg} (hv : c.valid = true) (r : Ref) (l : List Nat) : ∀ s : St,
    Calm s (run sz s (l.flatMap (defineExit c r))) := by
  induction l with
  | nil => intro s; exact ⟨rfl, rfl, rfl, rfl⟩
  | cons a t ih =>
    intro s
    simp only [List.flatMap_cons, run_append]
    exact (calm_exit hv s r a).trans (ih _)

/-- State of the assembler at the start label. -/
structure AtStart (base : Loc) (sz : Nat → Nat) (sh : Shape) (r : St) : Prop where
  cur : r.cur = .text
  saved : r.saved = []
  text : r.loc .text = base .text + total sz 0 sh.start
  failure : r.loc .failure = base .failure

theorem run_head {c : Cfg} (hv : c.valid = true) (base : Loc) (sh : Shape) (exits : List Nat) :
    AtStart base sz sh (run sz ⟨.text, [], base⟩ (head c sh exits)) := by
  simp only [head, run_append, run_codes]
  have h := (calm_table (sz := sz) hv ⟨.text, [], base⟩ (tableL c.arch) (f (startL c.arch)) (f (commitL c.arch))
    (f 4)).trans (calm_exits (sz := sz) hv (f (startL c.arch)) exits _)
  refine ⟨h.cur, h.saved, ?_, ?_⟩
  · simp only [Loc.set, h.cur, if_true]; rw [h.text]
  · simp only [Loc.set, h.cur]; simp [h.failure]

/-! ### The rest of the helper -/

/-- Address of the abort handler; `k` is the address after the code that precedes its definition. -/
def abortAddr (c : Cfg) (base : Loc) (k : Nat) : Nat :=
  match c.arch with
  | .x86_64 | .i386 => base .failure + 7
  | .ppc | .s390 => base .failure + 4
  | .aarch64 => k + 4
  | .riscv => alignUp k 4 + 4
  | .arm | .mips | .loongarch => alignUp k 32 + 36

theorem addr_append (s : St) (l1 l2 : List Item) : addr sz s (l1 ++ l2) = addr sz (run sz s l1) l2 := by
  simp [addr, run_append]

/-- Address of instruction `i` if it is in the main text. -/
def T (sz : Nat → Nat) (base : Loc) (i : Nat) : Nat := base .text + total sz 0 i

/-- The parts of a helper come in this order. -/
structure Shape.Ok (sh : Shape) : Prop where
  sc : sh.start ≤ sh.commit
  ca : sh.commit < sh.abort
  an : sh.abort < sh.ne
  nl : sh.ne ≤ sh.len

/-- State of the assembler in the main text, before instruction `i`. -/
structure InText (base : Loc) (sz : Nat → Nat) (i : Nat) (r : St) : Prop where
  cur : r.cur = .text
  saved : r.saved = []
  text : r.loc .text = T sz base i
  failure : r.loc .failure = base .failure

theorem InText.addr {base : Loc} {i : Nat} {r : St} (h : InText base sz i r) : addr sz r [] = T sz base i := by
  simp [Asm.addr, h.cur, h.text]

theorem inText_head {c : Cfg} (hv : c.valid = true) (base : Loc) (sh : Shape) (exits : List Nat) :
    InText base sz sh.start (run sz ⟨.text, [], base⟩ (head c sh exits)) :=
  have h := run_head hv base sh exits
  ⟨h.cur, h.saved, h.text, h.failure⟩

theorem InText.codes {base : Loc} {i : Nat} {r : St} (h : InText base sz i r) (l : Nat) {j : Nat} (hij : i ≤ j) :
    InText base sz j (run sz r (.lbl l :: codes i j)) := by
  have e : run sz r (.lbl l :: Asm.codes i j) = ⟨.text, [], r.loc.set .text (T sz base j)⟩ := by
    have : T sz base j = r.loc .text + total sz i j := by
      rw [h.text]; simp only [T]; rw [total_split 0 i j (by omega) hij]; omega
    simp [run_codes, step, next, set_same, set_set, h.cur, h.saved, this]
  rw [e]
  exact ⟨rfl, rfl, by simp [set_same], by simp [Loc.set, h.failure]⟩

/-- The part of the abort definition before its label. -/
def abPre (c : Cfg) : List Item :=
  match c.arch with
  | .x86_64 | .i386 =>
    [.push .failure, .byte 0x0f, .byte 0xb9, .byte 0x3d, .u32 (.lit (sig c))]
  | .ppc | .s390 => [.push .failure, .u32 (.lit (sig c))]
  | .aarch64 => [.inst sigCode]
  | .riscv => [.balign 4, .u32 (.lit (sig c))]
  | .arm | .mips | .loongarch =>
    [.balign 32, .lbl 3] ++ csFields c 0 0 (.lab (b 1)) (.sub (b 2) (b 1)) (.lab (f 4)) ++ [.u32 (.lit (sig c))]

def abPost (c : Cfg) : List Item :=
  match c.arch with
  | .x86_64 | .i386 | .ppc | .s390 => [.pop]
  | _ => []

theorem defineAbort_eq (c : Cfg) (h : List Item) :
    defineAbort c h = abPre c ++ .lbl 4 :: (h ++ abPost c) := by
  obtain ⟨arch, be, w, isa⟩ := c
  cases arch <;> simp [defineAbort, abPre, abPost]

/-- The section that holds the abort handler. -/
def abSec (c : Cfg) : Sec :=
  match c.arch with
  | .x86_64 | .i386 | .ppc | .s390 => .failure
  | _ => .text

/-- State at the abort label. -/
theorem run_abPre {c : Cfg} (hv : c.valid = true) {base : Loc} {i : Nat} {r : St} (h : InText base sz i r) :
    (run sz r (abPre c)).cur = abSec c ∧
    (run sz r (abPre c)).loc (abSec c) = abortAddr c base (T sz base i) ∧
    (run sz r (abPre c)).saved = (if abSec c = .failure then [.text] else []) ∧
    (abSec c = .failure → (run sz r (abPre c)).loc .text = T sz base i) ∧
    (abSec c = .text → (run sz r (abPre c)).loc .failure = base .failure) := by
  obtain ⟨arch, be, w, isa⟩ := c
  cases arch <;>
    simp [abPre, abSec, abortAddr, run_append, run_csFields hv, step, next, set_same, set_set, h.cur, h.saved, h.text,
      h.failure] <;> simp [Loc.set, h.text, h.failure]

theorem addr_abPre {c : Cfg} (hv : c.valid = true) {base : Loc} {i : Nat} {r : St} (h : InText base sz i r) :
    addr sz r (abPre c) = abortAddr c base (T sz base i) := by
  have := run_abPre hv h
  rw [addr, this.1, this.2.1]

/-- Everything from the start label to the abort label. -/
def pre4 (c : Cfg) (sh : Shape) : List Item :=
  (.lbl (startL c.arch) :: codes sh.start sh.commit) ++ (.lbl (commitL c.arch) :: codes sh.commit sh.abort) ++ abPre c

theorem tail_eq (c : Cfg) (sh : Shape) : tail c sh = pre4 c sh ++ .lbl 4 ::
    (codes sh.abort sh.ne ++ abPost c ++ defineTeardown c (codes sh.ne sh.len)) := by
  simp [tail, pre4, defineAbort_eq]

theorem noL_abPre4 (c : Cfg) : NoL 4 (abPre c) := by
  obtain ⟨arch, be, w, isa⟩ := c
  cases arch <;> simp [abPre, noL_append, noL_cons, noL_nil, noL_csFields]

theorem noL_pre4 (c : Cfg) (sh : Shape) : NoL 4 (pre4 c sh) := by
  have h1 : startL c.arch ≠ 4 := by cases c.arch <;> simp [startL]
  have h2 : commitL c.arch ≠ 4 := by cases c.arch <;> simp [commitL]
  simp [pre4, noL_append, noL_cons, noL_codes, noL_abPre4, h1, h2]

/-- The head after its descriptor. -/
def headRest (c : Cfg) (sh : Shape) (exits : List Nat) : List Item :=
  [.pop, .push .ptrs] ++ u64Ptr c (.lab (b (tableL c.arch))) ++ [.pop] ++
    exits.flatMap (defineExit c (f (startL c.arch))) ++ codes 0 sh.start

theorem head_eq (c : Cfg) (sh : Shape) (exits : List Nat) : head c sh exits =
    [.push .cs, .balign 32, .lbl (tableL c.arch)] ++ (csFields c 0 0 (.lab (f (startL c.arch)))
      (.sub (f (commitL c.arch)) (f (startL c.arch))) (.lab (f 4)) ++ headRest c sh exits) := by
  simp [head, headRest, defineTable]

theorem noL_headRest (n : Nat) (c : Cfg) (sh : Shape) (exits : List Nat) : NoL n (headRest c sh exits) := by
  simp [headRest, noL_append, noL_cons, noL_nil, noL_u64Ptr, noL_exits, noL_codes]

/-- Post-commit and start labels differ. -/
theorem labels_ne (c : Cfg) : startL c.arch ≠ commitL c.arch := by
  cases c.arch <;> simp [startL, commitL]

section whole
variable {c : Cfg} (hv : c.valid = true) {sh : Shape} (ho : sh.Ok) (base : Loc) (exits : List Nat)

/-- Assembler state at the beginning. -/
abbrev st0 (base : Loc) : St := ⟨.text, [], base⟩

include hv in
theorem inText_commit (h : sh.start ≤ sh.commit) : InText base sz sh.commit
    (run sz (st0 base) (head c sh exits ++ (.lbl (startL c.arch) :: codes sh.start sh.commit))) := by
  rw [run_append]
  exact (inText_head hv base sh exits).codes _ h

include hv ho in
theorem inText_abort : InText base sz sh.abort
    (run sz (st0 base) (head c sh exits ++ (.lbl (startL c.arch) :: codes sh.start sh.commit) ++
      (.lbl (commitL c.arch) :: codes sh.commit sh.abort))) := by
  rw [run_append]
  exact (inText_commit hv base exits ho.sc).codes _ (Nat.le_of_lt ho.ca)

/-- Values of the three references of the descriptor in section `__rseq_cs`, whatever the place before
the start label from which they are seen. -/
theorem fwd_refs {l1 m : List Item} (e : source c sh exits = l1 ++ (m ++ tail c sh))
    (hm : NoL (startL c.arch) m ∧ NoL (commitL c.arch) m ∧ NoL 4 m) (hv : c.valid = true) (ho : sh.Ok) :
    firstL (startL c.arch) (place sz (run sz (st0 base) l1) (m ++ tail c sh)) = some (T sz base sh.start) ∧
    firstL (commitL c.arch) (place sz (run sz (st0 base) l1) (m ++ tail c sh)) = some (T sz base sh.commit) ∧
    firstL 4 (place sz (run sz (st0 base) l1) (m ++ tail c sh)) =
      some (abortAddr c base (T sz base sh.abort)) := by
  have he : l1 ++ m = head c sh exits := by
    simp only [source] at e
    rw [← List.append_assoc] at e
    exact (List.append_cancel_right e).symm
  refine ⟨?_, ?_, ?_⟩
  · have : m ++ tail c sh = m ++ .lbl (startL c.arch) :: (codes sh.start sh.commit ++
        [.lbl (commitL c.arch)] ++ codes sh.commit sh.abort ++ defineAbort c (codes sh.abort sh.ne) ++
        defineTeardown c (codes sh.ne sh.len)) := by simp [tail]
    rw [this, firstL_place hm.1, ← addr_append, he]
    have h := inText_head (sz := sz) hv base sh exits
    rw [← h.addr, addr, addr]; rfl
  · have : m ++ tail c sh = (m ++ (.lbl (startL c.arch) :: codes sh.start sh.commit)) ++ .lbl (commitL c.arch) ::
        (codes sh.commit sh.abort ++ defineAbort c (codes sh.abort sh.ne) ++
        defineTeardown c (codes sh.ne sh.len)) := by simp [tail]
    rw [this, firstL_place (by simp [noL_append, noL_cons, noL_codes, hm.2.1, labels_ne]), ← addr_append,
      ← List.append_assoc, he]
    have h := inText_commit (sz := sz) hv base exits ho.sc
    rw [← h.addr, addr, addr]; rfl
  · have : m ++ tail c sh = (m ++ pre4 c sh) ++ .lbl 4 ::
        (codes sh.abort sh.ne ++ abPost c ++ defineTeardown c (codes sh.ne sh.len)) := by simp [tail_eq]
    rw [this, firstL_place (by simp [noL_append, noL_pre4, hm.2.2]), ← addr_append, ← List.append_assoc, he]
    have h := inText_abort (sz := sz) hv ho base exits
    rw [← addr_abPre hv h, ← addr_append]
    simp [pre4]

end whole

end Verif.Asm
