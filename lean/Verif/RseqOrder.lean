import Verif.RseqClient
import Verif.RseqStack
/-
Memory ordering: the stores of a helper become visible to other CPUs later than they are executed, and on
weakly ordered machines in another order.

One CPU executes a helper.  Its stores go to a store buffer; its loads see its own buffered stores.  Entries
leave the buffer, and become visible in memory, in program order on x86 and s390 (total store order), and on
the other architectures in any order except that
* a store does not overtake an earlier store to an overlapping address, and
* nothing overtakes a barrier (`dmb`, `fence rw,w`, `lwsync`, `sync`, `dbar`); a store-release (`stlr`) is a
  barrier followed by a store.
Meanwhile other CPUs may change any memory outside the footprint of the call.  Simplifications: loads are
executed in program order; a store becomes visible to all other CPUs at the same time.
-/

namespace Verif.Rseq

variable {n : Nat}

/-- Entry of a store buffer. -/
inductive Ent (n : Nat)
  | word (a v : W n)
  | byte (a : W n) (b : Byte)
  | fence
  deriving DecidableEq

/-- The entry writes byte `x`. -/
def Ent.covers : Ent n → W n → Prop
  | .word a _, x => InWord a x
  | .byte a _, x => x = a
  | .fence, _ => False

def Ent.apply (be : Bool) (m : Mem n) : Ent n → Mem n
  | .word a v => stw be m a v
  | .byte a b => stb1 m a b
  | .fence => m

/-- Memory as the CPU that owns the buffer sees it. -/
def view (be : Bool) (m : Mem n) (b : List (Ent n)) : Mem n := b.foldl (Ent.apply be) m

/-- What an instruction puts into the buffer. -/
def ents (be : Bool) (ins : Instr) (l : LSt n) (m : Mem n) : List (Ent n) :=
  let R := l.regs
  match ins with
  | .st r b => [.word (R b) (R r)]
  | .stl r b => [.fence, .word (R b) (R r)]
  | .addM r b => [.word (R b) (ldw be m (R b) + R r)]
  | .stb r b => [.byte (R b) ((R r).setWidth 8)]
  | .stbx r a b => [.byte (R a + R b) ((R r).setWidth 8)]
  | .stbu r b => [.byte (R b + 1#(8 * n)) ((R r).setWidth 8)]
  | .fence => [.fence]
  | _ => []

/-- Architectures with total store order. -/
def tso : Arch → Bool
  | .x86_64 | .i386 | .s390 => true
  | _ => false

/-- The entry `e` may leave the buffer before the entries of `pre`. -/
def MayPass (ord : Bool) (pre : List (Ent n)) (e : Ent n) : Prop :=
  pre = [] ∨ (ord = false ∧ e ≠ .fence ∧ ∀ d ∈ pre, d ≠ .fence ∧ ∀ x, e.covers x → ¬ d.covers x)

structure OSt (n : Nat) where
  l : LSt n
  buf : List (Ent n)
  mem : Mem n

/-- Steps of the CPU that runs helper `p`, of its buffer, of other CPUs, and the kernel's abort. -/
inductive OStep (ord : Bool) (p : Prog n) (fv : BitVec 32) (foot : W n → Prop) : OSt n → OSt n → Prop
  | exec {s : OSt n} {i : Nat} {ins : Instr} (hp : s.l.pc = .at i) (hc : p.code[i]? = some ins) :
      OStep ord p fv foot s
        { l := (exec p fv i ins s.l (view p.be s.mem s.buf)).1
          buf := s.buf ++ ents p.be ins s.l (view p.be s.mem s.buf)
          mem := s.mem }
  | flush {s : OSt n} {pre post : List (Ent n)} {e : Ent n} (hb : s.buf = pre ++ e :: post)
      (hm : MayPass ord pre e) :
      OStep ord p fv foot s { s with buf := pre ++ post, mem := e.apply p.be s.mem }
  | other {s : OSt n} (m : Mem n) (hm : ∀ a, foot a → m a = s.mem a) :
      OStep ord p fv foot s { s with mem := m }
  | abort {s : OSt n} {i : Nat} (hp : s.l.pc = .at i) (h1 : p.start ≤ i) (h2 : i < p.commit) :
      OStep ord p fv foot s { s with l := { s.l with pc := .at p.abort } }

inductive OSteps (ord : Bool) (p : Prog n) (fv : BitVec 32) (foot : W n → Prop) (s0 : OSt n) : OSt n → Prop
  | refl : OSteps ord p fv foot s0 s0
  | step {s s' : OSt n} (h : OSteps ord p fv foot s0 s) (hs : OStep ord p fv foot s s') :
      OSteps ord p fv foot s0 s'

/-! ### The buffer -/

theorem view_append (be : Bool) (m : Mem n) (a b : List (Ent n)) :
    view be m (a ++ b) = view be (view be m a) b := by
  unfold view; rw [List.foldl_append]

theorem apply_other {be : Bool} {m : Mem n} {e : Ent n} {x : W n} (h : ¬ e.covers x) :
    e.apply be m x = m x := by
  cases e with
  | word a v => exact stw_other be m a v x h
  | byte a b => simp only [Ent.apply, stb1]; exact if_neg h
  | fence => rfl

theorem apply_same {be : Bool} {m m' : Mem n} {e : Ent n} {x : W n} (h : e.covers x) :
    e.apply be m x = e.apply be m' x := by
  cases e with
  | word a v =>
    simp only [Ent.apply, stw]
    rw [if_pos (show (x - a).toNat < n from h), if_pos (show (x - a).toNat < n from h)]
  | byte a b =>
    simp only [Ent.apply, stb1]
    rw [if_pos (show x = a from h), if_pos (show x = a from h)]
  | fence => exact h.elim

theorem apply_congr {be : Bool} {m m' : Mem n} {e : Ent n} {x : W n} (h : m x = m' x) :
    e.apply be m x = e.apply be m' x := by
  by_cases hc : e.covers x
  · exact apply_same hc
  · rw [apply_other hc, apply_other hc]; exact h

theorem view_congr (be : Bool) {x : W n} : ∀ (b : List (Ent n)) {m m' : Mem n}, m x = m' x →
    view be m b x = view be m' b x := by
  intro b
  induction b with
  | nil => intro m m' h; exact h
  | cons e r ih => intro m m' h; exact ih (apply_congr h)

theorem view_other (be : Bool) {x : W n} : ∀ (b : List (Ent n)) (m : Mem n), (∀ e ∈ b, ¬ e.covers x) →
    view be m b x = m x := by
  intro b
  induction b with
  | nil => intro m _; rfl
  | cons e r ih =>
    intro m h
    rw [show view be m (e :: r) = view be (e.apply be m) r from rfl, ih _ fun d hd => h d (List.mem_cons_of_mem _ hd)]
    exact apply_other (h e (by simp))

/-- Leaving the buffer early does not change what the CPU itself sees. -/
theorem flush_view {ord : Bool} (be : Bool) (m : Mem n) {pre post : List (Ent n)} {e : Ent n}
    (h : MayPass ord pre e) : view be (e.apply be m) (pre ++ post) = view be m (pre ++ e :: post) := by
  rw [view_append, view_append]
  show _ = view be (e.apply be (view be m pre)) post
  have : view be (e.apply be m) pre = e.apply be (view be m pre) := by
    rcases h with rfl | ⟨-, -, h⟩
    · rfl
    · funext x
      by_cases hc : e.covers x
      · rw [view_other be pre _ fun d hd => (h d hd).2 x hc]
        exact apply_same hc
      · rw [apply_other hc]
        exact view_congr be pre (apply_other hc)
  rw [this]

theorem exec_ents (p : Prog n) (fv : BitVec 32) (i : Nat) (ins : Instr) (l : LSt n) (m : Mem n) :
    view p.be m (ents p.be ins l m) = (exec p fv i ins l m).2 := by
  cases ins <;> rfl

theorem ents_covers {be : Bool} {ins : Instr} {l : LSt n} {m : Mem n} {e : Ent n} (h : e ∈ ents be ins l m)
    {x : W n} (hc : e.covers x) : stores ins l x := by
  cases ins <;> simp only [ents, List.mem_cons, List.not_mem_nil, or_false] at h <;>
    first
      | exact h.elim
      | (subst h; first | exact hc | exact hc.elim)
      | (rcases h with rfl | rfl; · exact hc.elim
         · exact hc)

theorem memFree_ents {be : Bool} {ins : Instr} {l : LSt n} {m : Mem n} (h : memFree ins = true) :
    ents be ins l m = [] ∨ (ins = .fence ∧ ents be ins l m = [.fence]) := by
  cases ins <;> simp_all [memFree, ents]

/-! ### Release programs have a barrier right before the final store -/

def isFence : Instr → Bool
  | .fence => true
  | _ => false

def isStl : Instr → Bool
  | .stl .. => true
  | _ => false

/-- Index of the barrier. -/
def fenceIdx (p : Prog n) : Nat := p.code.findIdx isFence

/-- Between the barrier and the final store nothing accesses memory and control only falls through. -/
def sealOK (p : Prog n) (k : Nat) (ins : Instr) : Bool :=
  (succs k ins).all (fun t => match t with
    | .at t => !(decide (fenceIdx p < t) && decide (t < p.commit)) || t == k + 1
    | .ret _ => true) &&
  (!(decide (fenceIdx p < k) && decide (k + 1 < p.commit)) || (memFree ins && !isFence ins))

def sealAll (p : Prog n) : Nat → List Instr → Bool
  | _, [] => true
  | k, ins :: r => sealOK p k ins && sealAll p (k + 1) r

/-- The final store is a store-release, or comes after a barrier. -/
def relOK (p : Prog n) : Bool :=
  (match p.code[p.commit - 1]? with
    | some ins => isStl ins
    | none => false) ||
  (decide (fenceIdx p + 1 < p.commit) && (decide (0 < fenceIdx p) && sealAll p 0 p.code))

set_option maxRecDepth 4000 in
/-- Every release program of a weakly ordered architecture passes the check. -/
theorem program_relOK (al : Opnd → Nat) (be : Bool) (csa : W n) (arch : Arch) (k : Kind)
    (p : Prog n) (hp : program al be csa arch k true = some p) : tso arch = true ∨ relOK p = true := by
  cases arch <;> cases k <;>
    first
      | (simp only [program, reduceCtorEq] at hp; done)
      | exact .inl rfl
      | (simp only [program, Option.some.injEq] at hp; subst hp; exact .inr rfl)

theorem sealAll_get (p : Prog n) : ∀ (c : List Instr) (j i : Nat) (ins : Instr),
    sealAll p j c = true → c[i]? = some ins → sealOK p (j + i) ins = true := by
  intro c
  induction c with
  | nil => intro j i ins _ h; simp at h
  | cons a r ih =>
    intro j i ins h hi
    simp only [sealAll, Bool.and_eq_true] at h
    cases i with
    | zero => simp at hi; subst hi; exact h.1
    | succ i =>
      have := ih (j + 1) i ins h.2 (by simpa using hi)
      rwa [show j + 1 + i = j + (i + 1) by omega] at this

theorem isFence_eq {ins : Instr} (h : isFence ins = true) : ins = .fence := by
  cases ins <;> simp_all [isFence]

theorem fenceIdx_get {p : Prog n} (h : fenceIdx p < p.code.length) : p.code[fenceIdx p]? = some .fence := by
  have h1 := List.findIdx_getElem (w := h) (p := isFence)
  rw [List.getElem?_eq_getElem h]
  exact congrArg some (isFence_eq h1)

theorem memFree_rmw {ins : Instr} (h : memFree ins = true) : isRmw ins = false := by
  cases ins <;> simp_all [memFree, isRmw]

/-- No barrier after the final store. -/
def postOK (p : Prog n) : Bool := (p.code.drop p.commit).all fun ins => !isFence ins

set_option maxRecDepth 4000 in
theorem program_postOK (al : Opnd → Nat) (be : Bool) (csa : W n) (arch : Arch) (k : Kind) (rel : Bool)
    (p : Prog n) (hp : program al be csa arch k rel = some p) : postOK p = true := by
  cases arch <;> cases k <;> cases rel <;>
    first
      | (simp only [program, reduceCtorEq] at hp; done)
      | (simp only [program, Option.some.injEq] at hp; subst hp; rfl)

theorem postOK_get {p : Prog n} (h : postOK p = true) {i : Nat} {ins : Instr} (hc : p.code[i]? = some ins)
    (hi : p.commit ≤ i) : isFence ins = false := by
  unfold postOK at h
  rw [List.all_eq_true] at h
  have := h ins (List.mem_iff_getElem?.2 ⟨i - p.commit, by
    rw [List.getElem?_drop, show p.commit + (i - p.commit) = i by omega]; exact hc⟩)
  simpa using this

/-! ### Sealed buffers -/

/-- Everything in the buffer comes before a barrier. -/
def Sealed (b : List (Ent n)) : Prop := b = [] ∨ ∃ q, b = q ++ [.fence]

theorem Sealed.flush {ord : Bool} {pre post : List (Ent n)} {e : Ent n} (h : Sealed (pre ++ e :: post))
    (hm : MayPass ord pre e) : Sealed (pre ++ post) := by
  rcases h with h | ⟨q, h⟩
  · simp at h
  · rcases List.eq_nil_or_concat post with rfl | ⟨r, x, rfl⟩
    · have := (List.append_inj' h rfl).2
      simp only [List.cons.injEq, and_true] at this
      rcases hm with rfl | ⟨-, h1, -⟩
      · exact .inl rfl
      · exact absurd this h1
    · rw [List.concat_eq_append] at h ⊢
      rw [show pre ++ e :: (r ++ [x]) = (pre ++ e :: r) ++ [x] by simp] at h
      have := (List.append_inj' h rfl).2
      simp only [List.cons.injEq, and_true] at this
      exact .inr ⟨pre ++ r, by rw [this]; simp⟩

theorem Sealed.pass {ord : Bool} {q : List (Ent n)} {e : Ent n} (h : ord = false → Sealed q)
    (hm : MayPass ord q e) : q = [] := by
  rcases hm with rfl | ⟨h1, -, h2⟩
  · rfl
  · rcases h h1 with h | ⟨r, rfl⟩
    · exact h
    · exact absurd rfl (h2 .fence (by simp)).1

theorem isStore_ents {be : Bool} {ins : Instr} {l : LSt n} {m : Mem n} (h : isStore ins = true) :
    ∃ q e, ents be ins l m = q ++ [e] ∧ (q = [] ∨ q = [.fence]) ∧ (isStl ins = true → q = [.fence]) := by
  cases ins with
  | st r b => exact ⟨[], _, rfl, .inl rfl, by simp [isStl]⟩
  | addM r b => exact ⟨[], _, rfl, .inl rfl, by simp [isStl]⟩
  | stl r b => exact ⟨[.fence], _, rfl, .inr rfl, fun _ => rfl⟩
  | _ => simp [isStore] at h

/-! ### The two helpers with a release variant -/

/-- The variable of the final store. -/
def pubVar : Op n → W n
  | .cbneStore v _ _ | .addStore v _ | .cbeqStoreAddLoadStore v _ _ _ | .cbneCbneStore v _ _ _ _
  | .cbneStoreStore v _ _ _ _ | .cbneMemcpyStore v _ _ _ _ _ => v
  | .addLoadLoadAddStore p _ _ => p

/-- Operations with an attempt store or copy that the final store publishes. -/
def Publishes : Op n → Prop
  | .cbneStoreStore .. | .cbneMemcpyStore .. => True
  | _ => False

theorem rel_publishes {al : Opnd → Nat} {be : Bool} {csa : W n} {arch : Arch} {op : Op n} {p : Prog n}
    (hp : program al be csa arch op.kind true = some p) : Publishes op := by
  cases op <;> first | trivial | (cases arch <;> simp [program, Op.kind] at hp)

theorem pub_foot {op : Op n} (h : Publishes op) (be : Bool) (m m' : Mem n) (a : W n) :
    opFoot be op m a ↔ opFoot be op m' a := by
  cases op <;> first | exact Iff.rfl | exact h.elim

theorem pub_var_foot {op : Op n} (h : Publishes op) (be : Bool) (m : Mem n) {a : W n}
    (ha : InWord (pubVar op) a) : opFoot be op m a := by
  cases op <;> first | exact .inl ha | exact h.elim

theorem pub_targets_foot {op : Op n} (h : Publishes op) (be : Bool) (m : Mem n) {a : W n}
    (ha : targets op a) : opFoot be op m a := by
  cases op <;> first | exact .inr ha | exact .inr (.inr ha) | exact h.elim

theorem pub_tidy {op : Op n} (h : Publishes op) (ht : Tidy op) {a : W n} (ha : targets op a) :
    ¬ InWord (pubVar op) a := by
  cases op <;> first | exact ht a ha | exact h.elim

theorem pub_agree {op : Op n} (h : Publishes op) {arch : Arch} {al : Opnd → Nat} (hok : CallOK arch al op)
    (ht : Tidy op) (be : Bool) {m m' : Mem n}
    (hm : ∀ a, opFoot be op m a → ¬ targets op a → m' a = m a)
    (h0 : (pseudo be op m').1 = 0) :
    (pseudo be op m).1 = 0 ∧
      ∀ a, opFoot be op m a → (pseudo be op m').2 a = (pseudo be op m).2 a := by
  have hv : ldw be m' (pubVar op) = ldw be m (pubVar op) :=
    ldw_agree fun a ha => hm a (pub_var_foot h be m ha) fun h' => pub_tidy h ht h' ha
  cases op with
  | cbneStoreStore v expect v2 newv2 newv =>
    simp only [pubVar] at hv
    simp only [pseudo, hv] at h0 ⊢
    by_cases he : ldw be m v ≠ expect
    · rw [if_pos he] at h0; simp at h0
    · rw [if_neg he, if_neg he]
      refine ⟨rfl, ?_⟩
      intro a ha
      by_cases h1 : InWord v a
      · exact apply_same (e := .word v newv) h1
      · rcases ha with ha | ha
        · exact absurd ha h1
        · exact apply_congr (e := .word v newv) (apply_same (e := .word v2 newv2) ha)
  | cbneMemcpyStore v expect dst src len newv =>
    simp only [pubVar] at hv
    simp only [pseudo, hv] at h0 ⊢
    by_cases he : ldw be m v ≠ expect
    · rw [if_pos he] at h0; simp at h0
    · rw [if_neg he, if_neg he]
      refine ⟨rfl, ?_⟩
      intro a ha
      refine apply_congr (e := .word v newv) ?_
      by_cases h1 : InRange dst len a
      · simp only [memcpy]
        rw [if_pos (show (a - dst).toNat < len.toNat from h1),
          if_pos (show (a - dst).toNat < len.toNat from h1)]
        refine hm _ (.inr (.inl ?_)) ?_
        · show (src + (a - dst) - src).toNat < len.toNat
          rw [BitVec.add_comm, BitVec.add_sub_cancel]; exact h1
        · intro h2
          have h2 : (src + (a - dst) - dst).toNat < len.toNat := h2
          refine hok.1 _ _ h1 h2 ?_
          simp only [BitVec.ofNat_toNat, BitVec.setWidth_eq]
          rw [BitVec.add_comm dst, BitVec.sub_add_cancel]
      · simp only [memcpy]
        rw [if_neg (show ¬ (a - dst).toNat < len.toNat from h1),
          if_neg (show ¬ (a - dst).toNat < len.toNat from h1)]
        exact hm a ha h1
  | _ => exact h.elim

/-! ### The invariant -/

/-- No entry of the buffer writes the published variable. -/
def NoV (op : Op n) (b : List (Ent n)) : Prop := ∀ e ∈ b, ∀ x, InWord (pubVar op) x → ¬ e.covers x

theorem NoV.flush {op : Op n} {pre post : List (Ent n)} {e : Ent n} (h : NoV op (pre ++ e :: post)) :
    NoV op (pre ++ post) := by
  intro d hd
  refine h d ?_
  rcases List.mem_append.1 hd with hd | hd
  · exact List.mem_append_left _ hd
  · exact List.mem_append_right _ (List.mem_cons_of_mem _ hd)

/-- Memory at the published variable is still the old one. -/
def Old (op : Op n) (m0 m : Mem n) : Prop := ∀ x, InWord (pubVar op) x → m x = m0 x

theorem Old.apply {op : Op n} {m0 m : Mem n} (h : Old op m0 m) {be : Bool} {e : Ent n}
    (he : ∀ x, InWord (pubVar op) x → ¬ e.covers x) : Old op m0 (e.apply be m) := by
  intro x hx
  rw [apply_other (he x hx)]
  exact h x hx

structure Before (p : Prog n) (fv : BitVec 32) (op : Op n) (l0 : LSt n) (m0 v0 : Mem n) (s : OSt n) :
    Prop where
  zn : zone p s.l.pc = .pre ∨ zone p s.l.pc = .chk ∨ zone p s.l.pc = .body
  rep : ∃ F, Rep p fv (view p.be s.mem s.buf) l0 s.l F
  keep : ∀ a, opFoot p.be op v0 a → ¬ targets op a → view p.be s.mem s.buf a = v0 a
  nov : NoV op s.buf
  old : Old op m0 s.mem
  sld : sealAll p 0 p.code = true → ∀ i, s.l.pc = .at i → fenceIdx p < i → i < p.commit → Sealed s.buf

structure After (ord : Bool) (p : Prog n) (op : Op n) (m0 v0 : Mem n) (s : OSt n) : Prop where
  zn : zone p s.l.pc = .post ∨ zone p s.l.pc = .done 0
  res : (pseudo p.be op v0).1 = 0
  val : ∀ a, opFoot p.be op v0 a → view p.be s.mem s.buf a = (pseudo p.be op v0).2 a
  buf : s.buf = [] ∨ ((∃ q e, s.buf = q ++ [e] ∧ NoV op q ∧ (ord = false → Sealed q)) ∧ Old op m0 s.mem)

structure Dead (p : Prog n) (op : Op n) (m0 : Mem n) (s : OSt n) : Prop where
  zn : zone p s.l.pc = .abt ∨ zone p s.l.pc = .neq ∨ zone p s.l.pc = .done 1 ∨ zone p s.l.pc = .done (-1)
  nov : NoV op s.buf
  old : Old op m0 s.mem

def OInv (ord : Bool) (p : Prog n) (fv : BitVec 32) (op : Op n) (l0 : LSt n) (m0 v0 : Mem n) (s : OSt n) :
    Prop :=
  Before p fv op l0 m0 v0 s ∨ After ord p op m0 v0 s ∨ Dead p op m0 s

/-- What the proof needs to know about the program and the call. -/
structure OCtx (ord : Bool) (p : Prog n) (clob : List Nat) (sx : Bool) (al : Opnd → Nat) (arch : Arch)
    (op : Op n) (cpu : BitVec 32) (l0 : LSt n) : Prop where
  z : ZoneFacts p
  post : postOK p = true
  rel : ord = false → relOK p = true
  impl : Implements p clob sx al op
  foot : FootOK p clob sx al op
  ok : CallOK arch al op
  tidy : Tidy op
  pub : Publishes op
  setup : Setup clob sx al op cpu l0

variable {ord : Bool} {p : Prog n} {clob : List Nat} {sx : Bool} {al : Opnd → Nat} {arch : Arch} {op : Op n}
  {cpu fv : BitVec 32} {l0 : LSt n} {m0 v0 : Mem n} {s : OSt n}

theorem seal_step (hsa : sealAll p 0 p.code = true) {i j : Nat} {ins : Instr}
    (hc : p.code[i]? = some ins) {l : LSt n} {m : Mem n} (hj : (exec p fv i ins l m).1.pc = .at j)
    (h1 : fenceIdx p < j) (h2 : j < p.commit) {b : List (Ent n)}
    (hs : fenceIdx p < i → i < p.commit → Sealed b) : Sealed (b ++ ents p.be ins l m) := by
  have hk := sealAll_get p p.code 0 i ins hsa hc
  rw [Nat.zero_add] at hk
  simp only [sealOK, Bool.and_eq_true, List.all_eq_true] at hk
  obtain ⟨k1, k2⟩ := hk
  have e1 := k1 _ (exec_succs p fv i ins l m)
  rw [hj] at e1
  have e1 : j = i + 1 := by
    simp only [h1, h2, decide_true, Bool.and_self, Bool.not_true, Bool.false_or, beq_iff_eq] at e1
    exact e1
  subst e1
  by_cases hi : fenceIdx p < i
  · simp only [hi, h2, decide_true, Bool.and_self, Bool.not_true, Bool.false_or, Bool.and_eq_true,
      Bool.not_eq_true'] at k2
    rcases memFree_ents (be := p.be) (l := l) (m := m) k2.1 with h | ⟨h, -⟩
    · rw [h, List.append_nil]; exact hs hi (by omega)
    · rw [h] at k2; simp [isFence] at k2
  · have hi : fenceIdx p = i := by omega
    have hl : i < p.code.length := by
      rcases Nat.lt_or_ge i p.code.length with h | h
      · exact h
      · rw [List.getElem?_eq_none h] at hc; simp at hc
    have := fenceIdx_get (p := p) (by omega)
    rw [hi, hc] at this
    simp only [Option.some.injEq] at this
    subst this
    exact .inr ⟨b, rfl⟩

theorem Before.exec (C : OCtx ord p clob sx al arch op cpu l0) (h : Before p fv op l0 m0 v0 s) {i : Nat}
    {ins : Instr} (hp : s.l.pc = .at i) (hc : p.code[i]? = some ins) :
    OInv ord p fv op l0 m0 v0
        { l := (Rseq.exec p fv i ins s.l (view p.be s.mem s.buf)).1
          buf := s.buf ++ ents p.be ins s.l (view p.be s.mem s.buf)
          mem := s.mem } := by
  obtain ⟨F, hrep⟩ := h.rep
  have hview : view p.be s.mem (s.buf ++ ents p.be ins s.l (view p.be s.mem s.buf)) =
      (Rseq.exec p fv i ins s.l (view p.be s.mem s.buf)).2 := by
    rw [view_append, exec_ents p fv i]
  have hsok := C.foot.rep C.setup hrep
  unfold SOK at hsok
  rw [hp] at hsok
  dsimp only at hsok
  rw [hc] at hsok
  dsimp only at hsok
  have Z := C.z
  by_cases hcm : i + 1 = p.commit
  · -- the final store
    have hz : zone p (.at i) = .body := by
      rcases zone_at_cases Z (i := i) with h|h|h|h|h|h|h <;> have := Z.sc <;> have := Z.cc <;>
        have := Z.ca <;> have := Z.an <;> have := Z.nl <;> first | exact h.1 | omega
    have hb := (body_step Z hc hz (fv := fv) (l := s.l) (m := view p.be s.mem s.buf)).2.2.1 hcm
    have hps := Rep.commit Z C.impl C.setup hrep hp hcm hc
      (Prod.ext (x := Rseq.exec p fv i ins s.l (view p.be s.mem s.buf)) rfl rfl)
    have hag := pub_agree C.pub C.ok C.tidy p.be h.keep (by rw [hps])
    refine .inr (.inl ⟨.inl hb.2, hag.1, ?_, .inr ⟨?_, h.old⟩⟩)
    · intro a ha
      dsimp only
      rw [hview, ← hag.2 a ha]
      exact congrFun (congrArg Prod.snd hps).symm a
    · obtain ⟨q, e, he, hq, hst⟩ := isStore_ents (be := p.be) (l := s.l) (m := view p.be s.mem s.buf) hb.1
      refine ⟨s.buf ++ q, e, by dsimp only; rw [he, List.append_assoc], ?_, ?_⟩
      · intro d hd
        rcases List.mem_append.1 hd with hd | hd
        · exact h.nov d hd
        · rcases hq with rfl | rfl
          · simp at hd
          · simp only [List.mem_singleton] at hd
            subst hd; intro x _ hx; exact hx
      · intro ho
        have hr := C.rel ho
        simp only [relOK, show p.commit - 1 = i by omega, hc, Bool.or_eq_true, Bool.and_eq_true,
          decide_eq_true_eq] at hr
        rcases hr with hr | ⟨h1, h2, h3⟩
        · rw [hst hr]; exact .inr ⟨_, rfl⟩
        · rcases hq with rfl | rfl
          · rw [List.append_nil]; exact h.sld h3 i hp (by omega) (by omega)
          · exact .inr ⟨_, rfl⟩
  · -- any other instruction
    have hst : ∀ x, stores ins s.l x → targets op x ∧ ¬ F x := by
      rcases hsok.2 with h' | h'
      · exact absurd h' hcm
      · exact h'
    have hzi := h.zn
    rw [hp] at hzi
    have hrz : isRmw ins = false ∧
        ((zone p (Rseq.exec p fv i ins s.l (view p.be s.mem s.buf)).1.pc = .pre ∨
          zone p (Rseq.exec p fv i ins s.l (view p.be s.mem s.buf)).1.pc = .chk ∨
          zone p (Rseq.exec p fv i ins s.l (view p.be s.mem s.buf)).1.pc = .body) ∨
         (zone p (Rseq.exec p fv i ins s.l (view p.be s.mem s.buf)).1.pc = .abt ∨
          zone p (Rseq.exec p fv i ins s.l (view p.be s.mem s.buf)).1.pc = .neq ∨
          zone p (Rseq.exec p fv i ins s.l (view p.be s.mem s.buf)).1.pc = .done 1 ∨
          zone p (Rseq.exec p fv i ins s.l (view p.be s.mem s.buf)).1.pc = .done (-1))) := by
      rcases hzi with hz | hz | hz
      · obtain ⟨q1, -, -, q4, q5⟩ := pre_step Z hc hz (fv := fv) (l := s.l) (m := view p.be s.mem s.buf)
        refine ⟨memFree_rmw q1, .inl ?_⟩
        rw [q4, q5]
        split
        · exact .inr (.inl rfl)
        · exact .inl rfl
      · obtain ⟨q1, -, q3⟩ := chk_step Z hc hz (fv := fv) (l := s.l) (m := view p.be s.mem s.buf)
        refine ⟨memFree_rmw q1, ?_⟩
        rcases q3 with q3 | q3 | q3
        · exact .inr (.inl q3)
        · exact .inl (.inr (.inl q3))
        · exact .inl (.inr (.inr q3))
      · obtain ⟨q1, q2⟩ :=
          (body_step Z hc hz (fv := fv) (l := s.l) (m := view p.be s.mem s.buf)).2.2.2 hcm
        refine ⟨q1, ?_⟩
        rcases q2 with q2 | q2 | q2
        · exact .inl (.inr (.inr q2))
        · exact .inr (.inr (.inl q2))
        · exact .inr (.inr (.inr (.inl q2)))
    have hnov : NoV op (s.buf ++ ents p.be ins s.l (view p.be s.mem s.buf)) := by
      intro d hd x hx hcv
      rcases List.mem_append.1 hd with hd | hd
      · exact h.nov d hd x hx hcv
      · exact pub_tidy C.pub C.tidy (hst x (ents_covers hd hcv)).1 hx
    rcases hrz.2 with hz | hz
    · refine .inl ⟨hz, ?_, ?_, hnov, h.old, ?_⟩
      · dsimp only
        rw [hview]
        exact ⟨_, hrep.own hp hc rfl (fun x hx => (hst x hx).2) hrz.1⟩
      · intro a ha hna
        dsimp only
        rw [hview, exec_frame p fv i s.l _ a (fun h' => hna (hst a h').1)]
        exact h.keep a ha hna
      · intro hsa j hj h1 h2
        exact seal_step hsa hc hj h1 h2 fun h1 h2 => h.sld hsa i hp h1 h2
    · exact .inr (.inr ⟨hz, hnov, h.old⟩)

theorem OInv.exec (C : OCtx ord p clob sx al arch op cpu l0) (h : OInv ord p fv op l0 m0 v0 s) {i : Nat}
    {ins : Instr} (hp : s.l.pc = .at i) (hc : p.code[i]? = some ins) :
    OInv ord p fv op l0 m0 v0
        { l := (Rseq.exec p fv i ins s.l (view p.be s.mem s.buf)).1
          buf := s.buf ++ ents p.be ins s.l (view p.be s.mem s.buf)
          mem := s.mem } := by
  have Z := C.z
  rcases h with h | h | h
  · exact h.exec C hp hc
  · have hz : zone p (.at i) = .post := by
      have := h.zn
      rw [hp] at this
      rcases this with h' | h'
      · exact h'
      · exfalso
        rcases zone_at_cases Z (i := i) with g|g|g|g|g|g|g <;> rw [g.1] at h' <;> simp at h'
    obtain ⟨q1, -, q3⟩ := post_step Z hc hz (fv := fv) (l := s.l) (m := view p.be s.mem s.buf)
    have hi : p.commit ≤ i := by
      rcases zone_at_cases Z (i := i) with g|g|g|g|g|g|g <;> first | exact g.2.1 | (rw [g.1] at hz; simp at hz)
    have he : ents p.be ins s.l (view p.be s.mem s.buf) = [] := by
      rcases memFree_ents (be := p.be) (l := s.l) (m := view p.be s.mem s.buf) q1 with h | ⟨h, -⟩
      · exact h
      · have := postOK_get C.post hc hi
        rw [h] at this; simp [isFence] at this
    rw [he, List.append_nil]
    exact .inr (.inl ⟨q3, h.res, h.val, h.buf⟩)
  · have hz := h.zn
    rw [hp] at hz
    have hm : memFree ins = true ∧ (zone p (Rseq.exec p fv i ins s.l (view p.be s.mem s.buf)).1.pc = .abt ∨
          zone p (Rseq.exec p fv i ins s.l (view p.be s.mem s.buf)).1.pc = .neq ∨
          zone p (Rseq.exec p fv i ins s.l (view p.be s.mem s.buf)).1.pc = .done 1 ∨
          zone p (Rseq.exec p fv i ins s.l (view p.be s.mem s.buf)).1.pc = .done (-1)) := by
      rcases hz with hz | hz | hz
      · obtain ⟨q1, -, q3⟩ := abt_step Z hc hz (fv := fv) (l := s.l) (m := view p.be s.mem s.buf)
        exact ⟨q1, q3.elim .inl fun q => .inr (.inr (.inr q))⟩
      · obtain ⟨q1, -, q3⟩ := neq_step Z hc hz (fv := fv) (l := s.l) (m := view p.be s.mem s.buf)
        exact ⟨q1, q3.elim (fun q => .inr (.inl q)) fun q => .inr (.inr (.inl q))⟩
      · exfalso
        rcases zone_at_cases Z (i := i) with g|g|g|g|g|g|g <;> rw [g.1] at hz <;> simp at hz
    refine .inr (.inr ⟨hm.2, ?_, h.old⟩)
    intro d hd x hx hcv
    rcases List.mem_append.1 hd with hd | hd
    · exact h.nov d hd x hx hcv
    · exact memFree_touched hm.1 s.l x (stores_touched (ents_covers hd hcv))

theorem OInv.flush (h : OInv ord p fv op l0 m0 v0 s) {pre post : List (Ent n)} {e : Ent n}
    (hb : s.buf = pre ++ e :: post) (hm : MayPass ord pre e) :
    OInv ord p fv op l0 m0 v0 { s with buf := pre ++ post, mem := e.apply p.be s.mem } := by
  have hv : view p.be (e.apply p.be s.mem) (pre ++ post) = view p.be s.mem s.buf := by
    rw [hb]; exact flush_view p.be s.mem hm
  rcases h with h | h | h
  · refine .inl ⟨h.zn, ?_, ?_, ?_, ?_, ?_⟩
    · dsimp only; rw [hv]; exact h.rep
    · dsimp only; rw [hv]; exact h.keep
    · exact NoV.flush (e := e) (hb ▸ h.nov)
    · exact h.old.apply (h.nov e (by rw [hb]; simp))
    · intro hsa i hp h1 h2
      exact Sealed.flush (hb ▸ h.sld hsa i hp h1 h2) hm
  · refine .inr (.inl ⟨h.zn, h.res, ?_, ?_⟩)
    · dsimp only; rw [hv]; exact h.val
    · rcases h.buf with h' | ⟨⟨q, e', hq, hn, hs⟩, ho⟩
      · rw [h'] at hb; simp at hb
      · rw [hq] at hb
        rcases List.eq_nil_or_concat post with rfl | ⟨r, x, rfl⟩
        · have := (List.append_inj' hb rfl)
          obtain ⟨h1, -⟩ := this
          subst h1
          have := Sealed.pass hs hm
          exact .inl (by dsimp only; rw [this]; rfl)
        · rw [List.concat_eq_append] at hb ⊢
          rw [show pre ++ e :: (r ++ [x]) = (pre ++ e :: r) ++ [x] by simp] at hb
          obtain ⟨h1, h2⟩ := (List.append_inj' hb rfl)
          subst h1
          refine .inr ⟨⟨pre ++ r, x, by dsimp only; simp, hn.flush, fun ho => (hs ho).flush hm⟩, ?_⟩
          exact ho.apply (hn e (by simp))
  · refine .inr (.inr ⟨h.zn, NoV.flush (e := e) (hb ▸ h.nov), ?_⟩)
    exact h.old.apply (h.nov e (by rw [hb]; simp))

theorem OInv.other (C : OCtx ord p clob sx al arch op cpu l0) (h : OInv ord p fv op l0 m0 v0 s) (m : Mem n)
    (hm : ∀ a, opFoot p.be op v0 a → m a = s.mem a) : OInv ord p fv op l0 m0 v0 { s with mem := m } := by
  have hv : ∀ a, opFoot p.be op v0 a → view p.be m s.buf a = view p.be s.mem s.buf a :=
    fun a ha => view_congr p.be s.buf (hm a ha)
  have hold : Old op m0 s.mem → Old op m0 m := fun h x hx =>
    (hm x (pub_var_foot C.pub p.be v0 hx)).trans (h x hx)
  rcases h with h | h | h
  · refine .inl ⟨h.zn, ?_, ?_, h.nov, hold h.old, h.sld⟩
    · obtain ⟨F, hr⟩ := h.rep
      refine ⟨F, hr.agree fun x hx => (hv x ?_).symm⟩
      exact (pub_foot C.pub p.be _ v0 x).1 (rep_foot C.foot C.setup hr x hx)
    · intro a ha hna
      exact (hv a ha).trans (h.keep a ha hna)
  · exact .inr (.inl ⟨h.zn, h.res, fun a ha => (hv a ha).trans (h.val a ha),
      h.buf.imp id fun h' => ⟨h'.1, hold h'.2⟩⟩)
  · exact .inr (.inr ⟨h.zn, h.nov, hold h.old⟩)

theorem OInv.abort (C : OCtx ord p clob sx al arch op cpu l0) (h : OInv ord p fv op l0 m0 v0 s) {i : Nat}
    (hp : s.l.pc = .at i) (h1 : p.start ≤ i) (h2 : i < p.commit) :
    OInv ord p fv op l0 m0 v0 { s with l := { s.l with pc := .at p.abort } } := by
  have Z := C.z
  have hz : zone p (.at p.abort) = .abt := zone_abort Z
  have hnz : zone p (.at i) = .chk ∨ zone p (.at i) = .body := by
    rcases zone_at_cases Z (i := i) with g|g|g|g|g|g|g <;> have := Z.sc <;> have := Z.cc <;>
        have := Z.ca <;> have := Z.an <;> have := Z.nl <;>
      first | exact .inl g.1 | exact .inr g.1 | omega
  rcases h with h | h | h
  · exact .inr (.inr ⟨.inl hz, h.nov, h.old⟩)
  · exfalso
    have := h.zn
    rw [hp] at this
    rcases hnz with g | g <;> rw [g] at this <;> simp at this
  · exfalso
    have := h.zn
    rw [hp] at this
    rcases hnz with g | g <;> rw [g] at this <;> simp at this

theorem OSteps.inv (C : OCtx ord p clob sx al arch op cpu l0) {b0 : List (Ent n)} (hb : NoV op b0)
    (h : OSteps ord p fv (opFoot p.be op (view p.be m0 b0)) ⟨l0, b0, m0⟩ s) :
    OInv ord p fv op l0 m0 (view p.be m0 b0) s := by
  induction h with
  | refl =>
    have Z := C.z
    refine .inl ⟨.inl ?_, ⟨_, .refl⟩, fun _ _ _ => rfl, hb, fun _ _ => rfl, ?_⟩
    · dsimp only
      rw [C.setup.pc]
      rcases zone_at_cases Z (i := 0) with g|g|g|g|g|g|g <;> have := Z.start1 <;> have := Z.sc <;> have := Z.cc <;>
        have := Z.ca <;> have := Z.an <;> have := Z.nl <;> first | exact g.1 | omega
    · intro _ i hp h1 _
      dsimp only at hp
      rw [C.setup.pc] at hp
      simp only [Pc.at.injEq] at hp
      omega
  | step h hs ih =>
    cases hs with
    | exec hp hc => exact ih.exec C hp hc
    | flush hb hm => exact ih.flush hb hm
    | other m hm => exact ih.other C m hm
    | abort hp h1 h2 => exact ih.abort C hp h1 h2

end Verif.Rseq
