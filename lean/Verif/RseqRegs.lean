import Verif.RseqConc
/-
Register and local-variable preservation by the helpers, under every interruption.

The memory-copy helpers of several architectures modify registers that are inputs of the assembly
statement (`src`, `dst`, `len`); C forbids this unless the value is restored, so they are saved in
`rseq_scratch[]` first and restored by three tear-down sequences: after the commit, on abort, and on a
failed comparison (`RSEQ_ASM_DEFINE_ABORT` with a teardown argument).

The proof is a data-flow argument.  A program does not look at the numbers of its operand registers, so
it is the renaming of one program over symbolic registers (`rename_program`).  For each instruction of
that program, `annot` gives the symbolic registers that may differ from their values on entry and the
scratch slots that hold an entry value; `check` verifies that the annotation is preserved by every
instruction and by the kernel's jump to the abort handler; `check_sound` says what that means.
-/

namespace Verif.Rseq

variable {n : Nat}

/-- Number of an operand. -/
def Opnd.num : Opnd → Nat
  | .cpu => 0 | .v => 1 | .expect => 2 | .newv => 3 | .expectnot => 4 | .voffp => 5 | .load => 6
  | .count => 7 | .v2 => 8 | .expect2 => 9 | .newv2 => 10 | .dst => 11 | .src => 12 | .len => 13
  | .ptr => 14 | .off => 15 | .inc => 16

/-- The symbolic register of an operand; real registers are below 1000. -/
def sym (o : Opnd) : Nat := 1000 + o.num

/-- The operand of a number. -/
def Opnd.ofNum : Nat → Opnd
  | 0 => .cpu | 1 => .v | 2 => .expect | 3 => .newv | 4 => .expectnot | 5 => .voffp | 6 => .load
  | 7 => .count | 8 => .v2 | 9 => .expect2 | 10 => .newv2 | 11 => .dst | 12 => .src | 13 => .len
  | 14 => .ptr | 15 => .off | _ => .inc

/-- The register that a symbolic register stands for under allocation `al`. -/
def rn (al : Opnd → Nat) (x : Nat) : Nat := if x < 1000 then x else al (Opnd.ofNum (x - 1000))

/-- Rename the registers of an instruction. -/
def Instr.ren (f : Nat → Nat) : Instr → Instr
  | .cs r => .cs (f r)
  | .ldCpuS r => .ldCpuS (f r)
  | .ldCpuZ r => .ldCpuZ (f r)
  | .cmpCpu r => .cmpCpu (f r)
  | .cmp32 a b => .cmp32 (f a) (f b)
  | .cmp a b => .cmp (f a) (f b)
  | .tst r => .tst (f r)
  | .cmpM b r => .cmpM (f b) (f r)
  | .jne t => .jne t
  | .je t => .je t
  | .bne a b t => .bne (f a) (f b) t
  | .beq a b t => .beq (f a) (f b) t
  | .cbnz r t => .cbnz (f r) t
  | .cbz r t => .cbz (f r) t
  | .cbnz32 r t => .cbnz32 (f r) t
  | .jmp t => .jmp t
  | .mov r a => .mov (f r) (f a)
  | .add r a b => .add (f r) (f a) (f b)
  | .sub r a b => .sub (f r) (f a) (f b)
  | .sub32 r a b => .sub32 (f r) (f a) (f b)
  | .addi r a k => .addi (f r) (f a) k
  | .addf r a k => .addf (f r) (f a) k
  | .addf2 r b => .addf2 (f r) (f b)
  | .ld r b => .ld (f r) (f b)
  | .ldx r a b => .ldx (f r) (f a) (f b)
  | .st r b => .st (f r) (f b)
  | .stl r b => .stl (f r) (f b)
  | .addM r b => .addM (f r) (f b)
  | .ldb r b => .ldb (f r) (f b)
  | .ldbx r a b => .ldbx (f r) (f a) (f b)
  | .stb r b => .stb (f r) (f b)
  | .stbx r a b => .stbx (f r) (f a) (f b)
  | .lbzu r b => .lbzu (f r) (f b)
  | .stbu r b => .stbu (f r) (f b)
  | .ldS r s => .ldS (f r) s
  | .stS r s => .stS (f r) s
  | .fence => .fence

/-- Rename the registers of a program. -/
def Prog.ren (f : Nat → Nat) (p : Prog n) : Prog n := { p with code := p.code.map (Instr.ren f) }

/-- Registers an instruction writes. -/
def writes : Instr → List Nat
  | .cs r | .ldCpuS r | .ldCpuZ r | .mov r _ | .add r _ _ | .sub r _ _ | .sub32 r _ _ | .addi r _ _
  | .addf r _ _ | .addf2 r _ | .ld r _ | .ldx r _ _ | .ldb r _ | .ldbx r _ _ | .ldS r _ => [r]
  | .lbzu r b => [r, b]
  | .stbu _ b => [b]
  | _ => []

/-- What is known before an instruction: registers possibly different from entry, and pairs of a slot
and the register whose entry value it holds. -/
structure Ann where
  dirty : List Nat
  saved : List (Nat × Nat)

/-- What is known after an instruction (`none`: the instruction is not allowed here). -/
def flow (clob : List Nat) (a : Ann) : Instr → Option Ann
  | .stS r s =>
    if a.dirty = [] ∧ r ∈ [sym .src, sym .dst, sym .len] ∧ 100 ≤ s then
      some ⟨[], (s, r) :: a.saved.filter (fun q => q.1 ≠ s)⟩
    else none
  | .ldS r s =>
    if (s, r) ∈ a.saved then some { a with dirty := a.dirty.filter (· ≠ r) }
    else some { a with dirty := if r ∈ clob then a.dirty else r :: a.dirty }
  | ins => some { a with dirty := (writes ins).filter (· ∉ clob) ++ a.dirty }

/-- `b` claims no more than `a`. -/
def Ann.le (a b : Ann) : Bool := a.dirty.all (· ∈ b.dirty) && b.saved.all (· ∈ a.saved)

/-- The annotation of a program. -/
def annot (p : Prog n) (i : Nat) : Ann :=
  let pre := p.code.take (min i (p.start - 1))
  let saved := pre.filterMap (fun | .stS r s => some (s, r) | _ => none)
  let all := if i < p.start then [] else saved.map (·.2)
  let blocks := [p.commit, p.abort, p.ne].filter (· ≤ i)
  let b := blocks.foldl max 0
  let done := if blocks = [] then [] else
    ((p.code.take i).drop b).filterMap (fun | .ldS r _ => some r | _ => none)
  ⟨all.filter (· ∉ done), saved⟩

/-- The annotation is preserved by every instruction, by the jump to the abort handler, and is clean at
every exit. -/
def check (clob : List Nat) (p : Prog n) : Bool :=
  (annot p 0).dirty = [] && (annot p 0).saved = [] && p.commit ≤ p.code.length &&
  (List.range p.code.length).all (fun i =>
    match p.code[i]? with
    | none => true
    | some ins =>
      (match flow clob (annot p i) ins with
       | none => false
       | some a => (succs i ins).all (fun
         | .at j => a.le (annot p j)
         | .ret _ => a.dirty = [])) &&
      (!(decide (p.start ≤ i) && decide (i < p.commit)) || (annot p i).le (annot p p.abort)))

theorem rename_program (al : Opnd → Nat) (be : Bool) (csa : W n) (arch : Arch) (k : Kind) (rel : Bool) :
    program al be csa arch k rel = (program sym be csa arch k rel).map (Prog.ren (rn al)) := by
  cases arch <;> cases k <;> cases rel <;> rfl

theorem all_check8 : ∀ (arch : Arch) (k : Kind) (rel : Bool),
    ∀ p ∈ program sym false (0 : W 8) arch k rel, check (clobbers arch k) p = true := by
  intro arch k rel
  cases arch <;> cases k <;> cases rel <;> intro p hp <;>
    first | (cases hp; done) | (cases hp; decide +kernel)

/-- The byte order, the descriptor's address and the word size do not matter. -/
def Prog.like (be : Bool) (csa : W n) (q : Prog 8) : Prog n :=
  ⟨q.code, be, csa, q.start, q.chk, q.commit, q.abort, q.ne⟩

theorem like_program (be : Bool) (csa : W n) (arch : Arch) (k : Kind) (rel : Bool) :
    program sym be csa arch k rel =
      (program sym false (0 : W 8) arch k rel).map (Prog.like be csa) := by
  cases arch <;> cases k <;> cases rel <;> rfl

/-- All programs pass, with the clobber lists of the sources. -/
theorem all_check (be : Bool) (csa : W n) (arch : Arch) (k : Kind) (rel : Bool) :
    ∀ p ∈ program sym be csa arch k rel, check (clobbers arch k) p = true := by
  intro p hp
  rw [like_program] at hp
  obtain ⟨q, hq, rfl⟩ := Option.map_eq_some_iff.1 hp
  exact all_check8 arch k rel q hq

/-- Registers and slots keep what the annotation says.  `r0`, `s0` are their values on entry. -/
structure Keeps (clob : List Nat) (al : Opnd → Nat) (a : Ann) (r0 s0 : Nat → W n) (l : LSt n) : Prop where
  regs : ∀ x, x ∉ clob → (∀ d ∈ a.dirty, rn al d ≠ x) → l.regs x = r0 x
  saved : ∀ q ∈ a.saved, l.slots q.1 = r0 (rn al q.2)
  slots : ∀ s, s < 100 → l.slots s = s0 s

theorem Keeps.le {clob : List Nat} {al : Opnd → Nat} {a b : Ann} {r0 s0 : Nat → W n} {l : LSt n}
    (h : Keeps clob al a r0 s0 l) (hle : a.le b = true) : Keeps clob al b r0 s0 l := by
  simp only [Ann.le, Bool.and_eq_true, List.all_eq_true, decide_eq_true_eq] at hle
  exact ⟨fun x hx hd => h.regs x hx fun d hm => hd d (hle.1 d hm), fun q hq => h.saved q (hle.2 q hq),
    h.slots⟩

/-- Only the pc differs. -/
theorem Keeps.congr {clob : List Nat} {al : Opnd → Nat} {a : Ann} {r0 s0 : Nat → W n} {l l' : LSt n}
    (h : Keeps clob al a r0 s0 l) (hr : l'.regs = l.regs) (hs : l'.slots = l.slots) :
    Keeps clob al a r0 s0 l' :=
  ⟨by rw [hr]; exact h.regs, by rw [hs]; exact h.saved, by rw [hs]; exact h.slots⟩

theorem writes_ren (f : Nat → Nat) (ins : Instr) : writes (ins.ren f) = (writes ins).map f := by
  cases ins <;> rfl

theorem succs_ren (f : Nat → Nat) (i : Nat) (ins : Instr) : succs i (ins.ren f) = succs i ins := by
  cases ins <;> rfl

/-- Registers that an instruction does not write keep their values. -/
theorem exec_regs (p : Prog n) (fv : BitVec 32) (i : Nat) (ins : Instr) (l : LSt n) (m : Mem n) (x : Nat)
    (hx : x ∉ writes ins) : (exec p fv i ins l m).1.regs x = l.regs x := by
  cases ins <;> simp_all [exec, writes, LSt.setR, LSt.setF, LSt.nx, LSt.br, upd]

/-- Only `stS` writes slots. -/
theorem exec_slots (p : Prog n) (fv : BitVec 32) (i : Nat) (ins : Instr) (l : LSt n) (m : Mem n)
    (h : ∀ r s, ins ≠ .stS r s) : (exec p fv i ins l m).1.slots = l.slots := by
  cases ins <;> simp_all [exec, LSt.setR, LSt.setF, LSt.nx, LSt.br]

theorem flow_keeps {clob : List Nat} {al : Opnd → Nat} {a b : Ann} {r0 s0 : Nat → W n} {l : LSt n}
    {ins : Instr} (hclob : ∀ x ∈ clob, x < 1000)
    (hfree : (∃ r s, ins = .stS r s) → al .src ∉ clob ∧ al .dst ∉ clob ∧ al .len ∉ clob)
    (p : Prog n) (fv : BitVec 32) (i : Nat) (m : Mem n) (h : Keeps clob al a r0 s0 l)
    (hf : flow clob a ins = some b) :
    Keeps clob al b r0 s0 (exec p fv i (ins.ren (rn al)) l m).1 := by
  have rnc : ∀ x ∈ clob, rn al x = x := fun x hx => by simp [rn, hclob x hx]
  by_cases h1 : ∃ r s, ins = .stS r s
  · obtain ⟨r, s, rfl⟩ := h1
    obtain ⟨f1, f2, f3⟩ := hfree ⟨r, s, rfl⟩
    simp only [flow] at hf
    split at hf
    case isFalse => cases hf
    case isTrue hc =>
    obtain ⟨hd, hr, hs⟩ := hc
    cases hf
    have hrc : rn al r ∉ clob := by
      simp only [List.mem_cons, List.not_mem_nil, or_false] at hr
      rcases hr with rfl | rfl | rfl
      · exact f1
      · exact f2
      · exact f3
    have hreg : l.regs (rn al r) = r0 (rn al r) := h.regs _ hrc (by rw [hd]; simp)
    refine ⟨fun x hx _ => ?_, fun q hq => ?_, fun t ht => ?_⟩
    · exact h.regs x hx (by rw [hd]; simp)
    · simp only [List.mem_cons, List.mem_filter, decide_eq_true_eq, ne_eq] at hq
      simp only [Instr.ren, exec, upd]
      rcases hq with rfl | ⟨hq, hne⟩
      · simpa using hreg
      · rw [if_neg (by simpa using hne)]; exact h.saved q hq
    · simp only [Instr.ren, exec, upd]
      rw [if_neg (by omega)]; exact h.slots t ht
  · have hsl : (exec p fv i (ins.ren (rn al)) l m).1.slots = l.slots :=
      exec_slots _ _ _ _ _ _ fun r s e => h1 (by cases ins <;> simp_all [Instr.ren])
    have general : ∀ d, (∀ w ∈ writes ins, w ∉ clob → w ∈ d) → (∀ w ∈ a.dirty, w ∈ d) →
        Keeps clob al ⟨d, a.saved⟩ r0 s0 (exec p fv i (ins.ren (rn al)) l m).1 := by
      intro d hw hd
      refine ⟨fun x hx hdx => ?_, by rw [hsl]; exact h.saved, by rw [hsl]; exact h.slots⟩
      rw [exec_regs]
      · exact h.regs x hx fun w hwm => hdx w (hd w hwm)
      · rw [writes_ren]
        intro hm
        obtain ⟨w, hwm, rfl⟩ := List.mem_map.1 hm
        by_cases hwc : w ∈ clob
        · rw [rnc w hwc] at hx; exact hx hwc
        · exact hdx w (hw w hwm hwc) rfl
    by_cases h2 : ∃ r s, ins = .ldS r s
    · obtain ⟨r, s, rfl⟩ := h2
      simp only [flow] at hf
      split at hf
      case isTrue hs =>
        cases hf
        refine ⟨fun x hx hdx => ?_, by rw [hsl]; exact h.saved, by rw [hsl]; exact h.slots⟩
        by_cases hxr : x = rn al r
        · subst hxr
          simp only [Instr.ren, exec, LSt.setR, upd, if_true]
          exact h.saved _ hs
        · rw [exec_regs _ _ _ _ _ _ _ (by simpa [Instr.ren, writes] using hxr)]
          refine h.regs x hx fun d hd e => ?_
          by_cases hdr : d = r
          · subst hdr; exact hxr e.symm
          · exact hdx d (by simp [hd, hdr]) e
      case isFalse hs =>
        cases hf
        apply general
        · intro w hw hwc; simp [writes] at hw; subst hw; simp [hwc]
        · intro w hw; split <;> simp [hw]
    · have hf' : flow clob a ins = some { a with dirty := (writes ins).filter (· ∉ clob) ++ a.dirty } := by
        cases ins <;> first | rfl | exact absurd ⟨_, _, rfl⟩ h1 | exact absurd ⟨_, _, rfl⟩ h2
      rw [hf'] at hf
      cases hf
      apply general
      · intro w hw hwc; simp [hw, hwc]
      · intro w hw; simp [hw]

/-- Slots are saved only by the memory-copy helpers. -/
def savesOK (k : Kind) (code : List Instr) : Bool :=
  code.all fun | .stS _ _ => decide (k = .cbneMemcpyStore) | _ => true

theorem all_saves8 : ∀ (arch : Arch) (k : Kind) (rel : Bool),
    ∀ p ∈ program sym false (0 : W 8) arch k rel, savesOK k p.code = true := by
  intro arch k rel
  cases arch <;> cases k <;> cases rel <;> intro p hp <;>
    first | (cases hp; done) | (cases hp; decide +kernel)

theorem all_saves {be : Bool} {csa : W n} {arch : Arch} {k : Kind} {rel : Bool} {p : Prog n}
    (hp : program sym be csa arch k rel = some p) {r s : Nat} (h : .stS r s ∈ p.code) :
    k = .cbneMemcpyStore := by
  rw [like_program] at hp
  obtain ⟨q, hq, rfl⟩ := Option.map_eq_some_iff.1 hp
  have := List.all_eq_true.1 (all_saves8 arch k rel q hq) _ h
  simpa using this

theorem clobbers_small : ∀ (arch : Arch) (k : Kind), ∀ x ∈ clobbers arch k, x < 1000 := by
  intro arch k
  cases arch <;> cases k <;> decide

variable (T : Nat → Site n)

/-- What holds of a helper in execution. -/
def FrameKeeps (f : Frame n) : Prop :=
  ∀ q, program sym (T f.pid).be (T f.pid).csa (T f.pid).arch (T f.pid).kind (T f.pid).rel = some q →
    Keeps (clobbers (T f.pid).arch (T f.pid).kind) (T f.pid).al
      (match f.l.pc with | .at i => annot q i | .ret _ => ⟨[], []⟩) f.l0.regs f.l0.slots f.l ∧
    ((T f.pid).kind = .cbneMemcpyStore → ∀ o ∈ [Opnd.src, .dst, .len],
      (T f.pid).al o ∉ clobbers (T f.pid).arch (T f.pid).kind)

variable {T}

/-- Everything `check` says about one instruction. -/
theorem check_at {clob : List Nat} {q : Prog n} (h : check clob q = true) {i : Nat} {ins : Instr}
    (hc : q.code[i]? = some ins) :
    (∃ b, flow clob (annot q i) ins = some b ∧
      (∀ j, .at j ∈ succs i ins → b.le (annot q j) = true) ∧ (∀ r, .ret r ∈ succs i ins → b.dirty = [])) ∧
    (q.start ≤ i → i < q.commit → (annot q i).le (annot q q.abort) = true) := by
  simp only [check, Bool.and_eq_true, List.all_eq_true] at h
  have hi : i < q.code.length := by
    rcases Nat.lt_or_ge i q.code.length with h1 | h1
    · exact h1
    · rw [List.getElem?_eq_none h1] at hc; cases hc
  have := h.2 i (List.mem_range.2 hi)
  rw [hc] at this
  simp only [Bool.and_eq_true] at this
  obtain ⟨h1, h2⟩ := this
  constructor
  · split at h1
    · cases h1
    · rename_i b hb
      refine ⟨b, hb, fun j hj => ?_, fun r hr => ?_⟩
      · exact List.all_eq_true.1 h1 _ hj
      · simpa using List.all_eq_true.1 h1 _ hr
  · intro a1 a2
    simpa [a1, a2] using h2

theorem FrameKeeps.exec {f f' : Frame n} (h : FrameKeeps T f) {i : Nat} {ins : Instr} {fv : BitVec 32}
    {m : Mem n} (hp : f.l.pc = .at i) (hc : (T f.pid).prog.code[i]? = some ins)
    (e1 : f'.pid = f.pid) (e2 : f'.l0 = f.l0)
    (e3 : f'.l = (Verif.Rseq.exec (T f.pid).prog fv i ins f.l m).1) : FrameKeeps T f' := by
  intro q hq
  rw [e1] at hq ⊢
  rw [e2]
  obtain ⟨hk, hfree⟩ := h q hq
  refine ⟨?_, hfree⟩
  have hpr : (T f.pid).prog = q.ren (rn (T f.pid).al) := by
    have h1 := (T f.pid).ok
    rw [rename_program, hq] at h1
    simpa using h1.symm
  rw [hpr] at hc
  simp only [Prog.ren, List.getElem?_map, Option.map_eq_some_iff] at hc
  obtain ⟨ins0, hc0, rfl⟩ := hc
  obtain ⟨⟨b, hb, hj, hr⟩, -⟩ := check_at (all_check _ _ _ _ _ q hq) hc0
  rw [hp] at hk
  have hk' := flow_keeps (clobbers_small _ _) (fun ⟨r, s, he⟩ => by
    subst he
    have := hfree (all_saves hq (List.mem_of_getElem? hc0))
    exact ⟨this _ (by simp), this _ (by simp), this _ (by simp)⟩) (T f.pid).prog fv i m hk hb
  have hsucc := exec_succs (T f.pid).prog fv i (ins0.ren (rn (T f.pid).al)) f.l m
  rw [succs_ren] at hsucc
  rw [← e3] at hk' hsucc
  cases hpc : f'.l.pc with
  | «at» j => rw [hpc] at hsucc; exact hk'.le (hj j hsucc)
  | ret r =>
    rw [hpc] at hsucc
    refine ⟨fun x hx hd => hk'.regs x hx (by rw [hr r hsucc]; simp), by simp, hk'.slots⟩

theorem FrameKeeps.abort {f : Frame n} (h : FrameKeeps T f) {i : Nat} (hp : f.l.pc = .at i)
    (h1 : (T f.pid).prog.start ≤ i) (h2 : i < (T f.pid).prog.commit) :
    FrameKeeps T { f with l := { f.l with pc := .at (T f.pid).prog.abort } } := by
  intro q hq
  obtain ⟨hk, hfree⟩ := h q hq
  refine ⟨?_, hfree⟩
  have hpr : (T f.pid).prog = q.ren (rn (T f.pid).al) := by
    have h1 := (T f.pid).ok
    rw [rename_program, hq] at h1
    simpa using h1.symm
  rw [hpr] at h1 h2
  have hchk := all_check _ _ _ _ _ q hq
  have hlen : q.commit ≤ q.code.length := by
    simp only [check, Bool.and_eq_true, decide_eq_true_eq] at hchk
    exact hchk.1.2
  have hi : i < q.code.length := Nat.lt_of_lt_of_le h2 hlen
  have := (check_at hchk (List.getElem?_eq_getElem hi)).2 h1 h2
  rw [hp] at hk
  have ha : (T f.pid).prog.abort = q.abort := by rw [hpr]; rfl
  simp only [ha]
  exact (hk.le this).congr rfl rfl

theorem FrameKeeps.start {f : Frame n} {m : Mem n} (h : Starts T f m) : FrameKeeps T f := by
  intro q hq
  have hs := h.setup
  have hchk := all_check _ _ _ _ _ q hq
  simp only [check, Bool.and_eq_true, decide_eq_true_eq] at hchk
  refine ⟨?_, fun hk o ho => ?_⟩
  · rw [h.l, hs.pc]
    exact ⟨fun _ _ _ => rfl, by simp [hchk.1.1.2], fun _ _ => rfl⟩
  · have hkind := h.kind
    rw [hk] at hkind
    have hfr := hs.free o
    rw [hkind.symm] at hfr
    rw [hk]
    cases hop : f.op <;> rw [hop] at hkind <;> dsimp only [Op.kind] at hkind <;>
      first | (cases hkind; done) | skip
    rw [hop] at hfr
    simp only [List.mem_cons, List.not_mem_nil, or_false] at ho
    rcases ho with rfl | rfl | rfl <;> exact hfr _ rfl

end Verif.Rseq
