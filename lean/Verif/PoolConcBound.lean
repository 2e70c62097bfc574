import Verif.PoolConcProps
/-
Lemmas for C91: how many steps of its own an operation of a thread can still take.
-/
namespace Verif.PoolConc
open Verif Verif.Mem Verif.Mempool MProg

/-- The program performs at most `n` accesses whatever it loads, a store counting three times (page
copied, copy installed, store executed). -/
def Len {α : Type} : MProg α → Nat → Prop
  | .ret _, _ => True
  | .rd _ k, n => 1 ≤ n ∧ ∀ b, Len (k b) (n - 1)
  | .wr _ _ k, n => 3 ≤ n ∧ Len k (n - 3)

theorem Len.mono {α : Type} {p : MProg α} {n m : Nat} (h : Len p n) (hle : n ≤ m) : Len p m := by
  induction p generalizing n m with
  | ret => trivial
  | rd x k ih => exact ⟨Nat.le_trans h.1 hle, fun b => ih b (h.2 b) (by omega)⟩
  | wr x b k ih => exact ⟨Nat.le_trans h.1 hle, ih h.2 (by omega)⟩

theorem Len.bind {α β : Type} {p : MProg α} {f : α → MProg β} {n m : Nat} (h : Len p n) (hf : ∀ a, Len (f a) m) :
    Len (p.bind f) (n + m) := by
  induction p generalizing n with
  | ret a => exact (hf a).mono (by omega)
  | rd x k ih => exact ⟨by have := h.1; omega, fun b => (ih b (h.2 b)).mono (by have := h.1; omega)⟩
  | wr x b k ih => exact ⟨by have := h.1; omega, (ih h.2).mono (by have := h.1; omega)⟩

theorem Len.readBytesP {x n : Nat} : Len (readBytesP x n) n := by
  induction n with
  | zero => trivial
  | succ n ih => exact ih.bind fun f => ⟨Nat.le_refl 1, fun b => trivial⟩

theorem Len.writeP {x : Nat} {f : Nat → Byte} {n : Nat} : Len (writeP x f n) (3 * n) := by
  induction n with
  | zero => trivial
  | succ n ih =>
    have : Len ((PoolConc.writeP x f n).bind fun _ => wr (x + n) (f n) (ret ())) (3 * n + 3) :=
      ih.bind fun _ => ⟨Nat.le_refl 3, trivial⟩
    exact this.mono (by omega)

theorem Len.forCpusP {body : Nat → MProg Unit} {n d : Nat} (h : ∀ i, Len (body i) d) : Len (forCpusP body n) (n * d) := by
  induction n with
  | zero => trivial
  | succ n ih => exact (ih.bind fun _ => h n).mono (by rw [Nat.succ_mul]; omega)

variable [Abi]

theorem Len.readWordP {x : Nat} : Len (readWordP x) wb :=
  Len.bind (m := 0) (f := fun f => ret (joinBytes f)) Len.readBytesP fun _ => trivial

theorem Len.cmpP {x : Nat} {v : Word} {n off : Nat} : Len (cmpP x v n off) (wb * n) := by
  induction n generalizing off with
  | zero => trivial
  | succ n ih =>
    refine (Len.readWordP.bind (m := wb * n) fun w => ?_).mono (by rw [Nat.mul_succ]; omega)
    split
    · trivial
    · exact ih

omit [Abi] in
theorem Len.memEqualP {x : Nat} {f : Nat → Byte} {n : Nat} : Len (memEqualP x f n) n := by
  induction n with
  | zero => trivial
  | succ n ih =>
    refine ih.bind (m := 1) fun e => ?_
    split
    · exact ⟨Nat.le_refl 1, fun b => trivial⟩
    · trivial

theorem Len.poisonP {x : Nat} {v : Word} {n off : Nat} : Len (poisonP x v n off) (3 * (wb * n)) := by
  induction n generalizing off with
  | zero => trivial
  | succ n ih => exact (Len.writeP.bind fun _ => ih).mono (by rw [Nat.mul_succ]; omega)

/-- The longest fill or poisoning of an item: every byte of the init copy stored, every byte of every
CPU's copy compared and stored. -/
def fillMax (c : Config) : Nat := (3 + 4 * c.ncpu) * c.itemLen

theorem words_le (c : Config) : wb * (c.itemLen / wb) ≤ c.itemLen := Nat.mul_div_le _ _

theorem fill_sum (c : Config) : 3 * c.itemLen + c.ncpu * (c.itemLen + 3 * c.itemLen) = fillMax c := by
  unfold fillMax
  rw [Nat.add_mul, show c.itemLen + 3 * c.itemLen = 4 * c.itemLen by omega, ← Nat.mul_assoc, Nat.mul_comm c.ncpu 4]

theorem Len.zeroP {c : Config} {r : Range} {off : Nat} : Len (zeroP c r off) (fillMax c) := by
  rw [← fill_sum]
  refine Len.bind ?_ fun _ => Len.forCpusP fun i => ?_
  · split
    · exact Len.writeP
    · trivial
  · refine (Len.cmpP.bind (m := 3 * c.itemLen) fun w => ?_).mono (Nat.add_le_add_right (words_le c) _)
    split
    · trivial
    · exact Len.writeP

theorem Len.initP {c : Config} {r : Range} {off : Nat} {f : Nat → Byte} {len : Nat} (hl : len ≤ c.itemLen) :
    Len (initP c r off f len) (fillMax c) := by
  rw [← fill_sum]
  refine Len.bind ?_ fun _ => Len.forCpusP fun i => ?_
  · split
    · exact Len.writeP.mono (by omega)
    · trivial
  · refine (Len.memEqualP.bind (m := 3 * c.itemLen) fun w => ?_).mono (Nat.add_le_add_right hl _)
    split
    · trivial
    · exact Len.writeP.mono (by omega)

theorem Len.poisonItemP {c : Config} {r : Range} {off : Nat} {v : Word} : Len (poisonItemP c r off v) (fillMax c) := by
  have hw := words_le c
  rw [← fill_sum]
  refine Len.bind ?_ fun _ => Len.forCpusP fun i => ?_
  · split
    · exact Len.poisonP.mono (by omega)
    · trivial
  · refine (Len.cmpP.bind (m := 3 * c.itemLen) fun w => ?_).mono (Nat.add_le_add_right hw _)
    split
    · trivial
    · exact Len.poisonP.mono (by omega)

theorem Len.fillP {c : Config} {r : Range} {off : Nat} {fill : Fill} (hl : fill.len ≤ c.itemLen) :
    Len (fillP c r off fill) (fillMax c) := by
  cases fill with
  | plain n => trivial
  | zero => exact Len.zeroP
  | init f len => exact Len.initP hl

theorem Len.freeP {c : Config} {r : Range} {p head : Nat} : Len (freeP c r p head) (fillMax c + 3 * wb) := by
  refine Len.bind ?_ fun _ => Len.writeP
  split
  · exact Len.poisonItemP
  · trivial

theorem Len.checkCpusP {c : Config} {r : Range} {off : Nat} {v : Word} {n : Nat} :
    Len (checkCpusP c r off v n) (n * c.itemLen) := by
  induction n with
  | zero => trivial
  | succ n ih =>
    refine (ih.bind (m := c.itemLen) fun e => ?_).mono (by rw [Nat.succ_mul]; omega)
    split
    · exact Len.mono (Len.bind (m := 0) (f := fun w => ret (w == 0#_)) Len.cmpP fun _ => trivial) (by have := words_le c; omega)
    · trivial

theorem Len.checkP {c : Config} {r : Range} {off : Nat} : Len (checkP c r off) ((c.ncpu + 1) * c.itemLen) := by
  unfold PoolConc.checkP
  split
  · trivial
  · refine (Len.bind (n := c.itemLen) (m := c.ncpu * c.itemLen) ?_ fun e => ?_).mono (by rw [Nat.succ_mul]; omega)
    · split
      · exact Len.mono (Len.bind (m := 0) (f := fun w => ret (w == 0#_)) Len.cmpP fun _ => trivial) (by have := words_le c; omega)
      · trivial
    · split
      · exact Len.checkCpusP
      · trivial

theorem Len.lockedP {c : Config} {pool : Pool} : Len (lockedP c pool) (wb + (c.ncpu + 1) * c.itemLen) := by
  unfold PoolConc.lockedP
  split
  · split
    · trivial
    · refine Len.readWordP.bind fun next => ?_
      refine (Len.checkP.bind (m := 0) fun e => ?_).mono (by omega)
      split <;> trivial
  · split <;> trivial

/-! ### Steps left -/

/-- Accesses already paid for: the page copy of the store in progress is made (1), or the page needs no
copy any more (2). -/
def credit {α : Type} (pg : Nat) (m : Mem) (pd : Option Pend) (k : MProg α) : Nat :=
  match pd, k with
  | some _, _ => 1
  | none, .wr x _ _ => if m.src (x / pg) = none then 2 else 0
  | none, _ => 0

omit [Abi] in
theorem credit_le {α : Type} (pg : Nat) (m : Mem) (pd : Option Pend) (k : MProg α) : credit pg m pd k ≤ 2 := by
  unfold credit
  split
  · omega
  · split <;> omega
  · omega

/-- A page fault in progress belongs to the store the program wants to execute. -/
def AtStore {α : Type} (pd : Option Pend) (k : MProg α) : Prop :=
  ∀ d, pd = some d → ∃ b k', k = .wr d.x b k'

/-- At most `n` more steps of its own for the operation in this state. -/
def Left (c : Config) (m : Mem) (pd : Option Pend) (n : Nat) : TSt → Prop
  | .idle => True
  | .dead => True
  | .wantAlloc fill => fill.len ≤ c.itemLen ∧ pd = none ∧ wb + (c.ncpu + 1) * c.itemLen + fillMax c + 3 ≤ n
  | .inAlloc fill k => fill.len ≤ c.itemLen ∧ pd = none ∧ ∃ a, Len k a ∧ a + fillMax c + 2 ≤ n
  | .filling _ _ k => AtStore pd k ∧ ∃ a, Len k a ∧ a + 1 ≤ n + credit c.pg m pd k
  | .wantFree _ => pd = none ∧ fillMax c + 3 * wb + 2 ≤ n
  | .inFree _ _ k => AtStore pd k ∧ ∃ a, Len k a ∧ a + 1 ≤ n + credit c.pg m pd k

/-- Inside an operation. -/
def InOp (st : TSt) : Prop := st ≠ .idle ∧ st ≠ .dead

variable {c : Config} {split : Bool} {s s' : CState} {L F : List Nat}

omit [Abi] in
theorem within_of_ok {α : Type} {pg : Nat} {A : Nat → Prop} {R : Mem → Mem → Prop} {Q : α → Mem → Prop} {m : Mem}
    {x : Nat} {b : Byte} {k : MProg α} (h : Ok pg A R Q (.wr x b k) m) : A x := h.1

theorem credit_keep {α : Type} {m m' : Mem} {pd : Option Pend} {k : MProg α}
    (h : ∀ x b k', k = .wr x b k' → m.src (x / c.pg) = none → m'.src (x / c.pg) = none) :
    credit c.pg m pd k ≤ credit c.pg m' pd k := by
  cases pd with
  | some d => exact Nat.le_refl _
  | none =>
    cases k with
    | ret => exact Nat.le_refl _
    | rd => exact Nat.le_refl _
    | wr x b k' =>
      show (if _ then _ else _) ≤ (if _ then _ else _)
      by_cases e : m.src (x / c.pg) = none
      · rw [if_pos (h x b k' rfl e)]; split <;> omega
      · rw [if_neg e]; exact Nat.zero_le _

/-- The rest of the process does not lengthen an operation: a page that needs no copy stays so. -/
theorem Left.keep {pool : Pool} {m m' m1 : Mem} {pd : Option Pend} {st : TSt} {n : Nat} (hW : WOk c pool F m1 st)
    (h : Left c m pd n st)
    (hk : ∀ p x, Holder st p → ItemBytes c p x → m.src (x / c.pg) = none → m'.src (x / c.pg) = none) :
    Left c m' pd n st := by
  cases st with
  | idle => trivial
  | dead => trivial
  | wantAlloc => exact h
  | inAlloc => exact h
  | wantFree => exact h
  | filling fill p k =>
    obtain ⟨h1, a, h2, h3⟩ := h
    refine ⟨h1, a, h2, Nat.le_trans h3 (Nat.add_le_add_left (credit_keep fun x b k' e hs => ?_) _)⟩
    subst e
    cases hW with
    | wr _ _ _ hx => exact hk p x rfl hx hs
  | inFree p pool' k =>
    obtain ⟨h1, a, h2, h3⟩ := h
    refine ⟨h1, a, h2, Nat.le_trans h3 (Nat.add_le_add_left (credit_keep fun x b k' e hs => ?_) _)⟩
    subst e
    exact hk p x rfl (within_of_ok hW.2) hs

omit [Abi] in
theorem src_keep {pg : Nat} (hpg : 0 < pg) {m m' : Mem} (hwf : m'.WF) {x : Nat}
    (hres : m'.resolve pg x = m.resolve pg x ∨ m'.resolve pg x = x) (h : m.src (x / pg) = none) :
    m'.src (x / pg) = none := by
  refine src_of_res hpg hwf ?_
  rcases hres with e | e
  · rw [e]
    unfold Mem.resolve
    rw [h]
  · exact e

/-- No step makes a page of an item in use shared again. -/
theorem step_private (hv : Valid c) (h : WInv c s L F) {lab : Lab} (hs : CStep c split s lab s') {p x : Nat} (hp : p ∈ L)
    (hx : ItemBytes c p x) (hn : s.mem.src (x / c.pg) = none) : s'.mem.src (x / c.pg) = none := by
  have hwr : ∀ y b, (s.mem.write c.pg y b).src (x / c.pg) = none := by
    intro y b
    rw [src_write, hn]
    split <;> rfl
  have hpg : 0 < c.pg := by
    obtain ⟨k, e⟩ := hv.pg_pow
    rw [e]
    exact Nat.two_pow_pos k
  obtain ⟨col, o, hc, ho, rfl⟩ := hx
  have hsl := h.inv.slotL hp
  cases hs with
  | writeFill => exact hwr _ _
  | writeFree => exact hwr _ _
  | store => exact hwr _ _
  | install t d hd =>
    show (installAt c.pg s.mem d).src _ = none
    unfold installAt
    split
    · exact hn
    · show (if _ then _ else _) = _
      rw [hn]
      split <;> rfl
  | ext m' hext =>
    exact src_keep hpg hext.wf ((rely_of_ext hext (P := (· = p)) fun q e => e ▸ hsl).res p rfl col o hc ho) hn
  | create t fill env r m r' off' p' s1 ht henv hcr hk =>
    have hnew := (rangeCreate_spec hv h.inv.wf h.inv.shape henv hcr).1
    exact src_keep hpg hnew.wf ((rely_of_new hnew (P := (· = p)) fun q e => e ▸ hsl).res p rfl col o hc ho) hn
  | _ => exact hn

/-- A step either is not of the operation of `t` and does not lengthen it, or is one of the steps left. -/
theorem Left.step (hv : Valid c) (h : WInv c s L F) {lab : Lab} (hs : CStep c split s lab s') {t : Nat}
    (hop : InOp (s.th t)) {n : Nat} (hl : Left c s.mem (s.pend t) n (s.th t)) :
    (s'.th t = s.th t ∧ s'.pend t = s.pend t ∧ Left c s'.mem (s'.pend t) n (s'.th t)) ∨
    (1 ≤ n ∧ Left c s'.mem (s'.pend t) (n - 1) (s'.th t)) := by
  have hsrc : ∀ p x, Holder (s.th t) p → ItemBytes c p x → s.mem.src (x / c.pg) = none → s'.mem.src (x / c.pg) = none :=
    fun p x hh hx hn => step_private hv h hs (h.held t p hh) hx hn
  have other : s'.th t = s.th t → s'.pend t = s.pend t →
      s'.th t = s.th t ∧ s'.pend t = s.pend t ∧ Left c s'.mem (s'.pend t) n (s'.th t) := by
    intro e1 e2
    refine ⟨e1, e2, ?_⟩
    rw [e1, e2]
    exact hl.keep (h.prog t) hsrc
  have hidle : ∀ {P : Prop}, s.th t = .idle → P := fun e => absurd e hop.1
  cases hs with
  | alloc u fill hu hp hl' =>
    by_cases e : t = u
    · subst e; exact hidle hu
    · exact Or.inl (other (upd_ne _ e _) rfl)
  | lockAlloc u fill hu hlk =>
    by_cases e : t = u
    · subst e
      rw [hu] at hl
      obtain ⟨h1, h2, h3⟩ := hl
      refine Or.inr ⟨by omega, ?_⟩
      show Left c _ _ _ (upd s.th t _ t)
      rw [upd_self]
      exact ⟨h1, h2, _, Len.lockedP, by omega⟩
    · exact Or.inl (other (upd_ne _ e _) rfl)
  | readAlloc u fill x k hu =>
    by_cases e : t = u
    · subst e
      rw [hu] at hl
      obtain ⟨h1, h2, a, h3, h4⟩ := hl
      refine Or.inr ⟨by omega, ?_⟩
      show Left c _ _ _ (upd s.th t _ t)
      rw [upd_self]
      have := h3.1
      exact ⟨h1, h2, _, h3.2 _, by omega⟩
    · exact Or.inl (other (upd_ne _ e _) rfl)
  | take u fill r off addr pool' r' off' p s1 hu ht =>
    by_cases e : t = u
    · subst e
      rw [hu] at hl
      obtain ⟨h1, h2, a, h3, h4⟩ := hl
      refine Or.inr ⟨by omega, ?_⟩
      show Left c _ _ _ (upd s.th t _ t)
      rw [upd_self]
      refine ⟨fun d hd => ?_, _, Len.fillP h1, by omega⟩
      rw [h2] at hd
      cases hd
    · exact Or.inl (other (upd_ne _ e _) rfl)
  | takeAbort u fill r off addr pool' w hu ht =>
    by_cases e : t = u
    · subst e
      rw [hu] at hl
      obtain ⟨h1, h2, a, h3, h4⟩ := hl
      refine Or.inr ⟨by omega, ?_⟩
      show Left c _ _ _ (upd s.th t _ t)
      rw [upd_self]
      trivial
    · exact Or.inl (other (upd_ne _ e _) rfl)
  | create u fill env r m r' off' p s1 hu henv hc ht =>
    by_cases e : t = u
    · subst e
      rw [hu] at hl
      obtain ⟨h1, h2, a, h3, h4⟩ := hl
      refine Or.inr ⟨by omega, ?_⟩
      show Left c _ _ _ (upd s.th t _ t)
      rw [upd_self]
      refine ⟨fun d hd => ?_, _, Len.fillP h1, by omega⟩
      have : s.pend t = some d := hd
      rw [h2] at this
      cases this
    · exact Or.inl (other (upd_ne _ e _) rfl)
  | createAbort u fill env r m w hu henv hc ht =>
    by_cases e : t = u
    · subst e
      rw [hu] at hl
      obtain ⟨h1, h2, a, h3, h4⟩ := hl
      refine Or.inr ⟨by omega, ?_⟩
      show Left c _ _ _ (upd s.th t _ t)
      rw [upd_self]
      trivial
    · exact Or.inl (other (upd_ne _ e _) rfl)
  | createNull u fill env hu henv hc =>
    by_cases e : t = u
    · subst e
      rw [hu] at hl
      obtain ⟨h1, h2, a, h3, h4⟩ := hl
      refine Or.inr ⟨by omega, ?_⟩
      show Left c _ _ _ (upd s.th t _ t)
      rw [upd_self]
      trivial
    · exact Or.inl (other (upd_ne _ e _) rfl)
  | allocAbort u fill hu =>
    by_cases e : t = u
    · subst e
      have h1 : 1 ≤ n := by
        rcases hu with hu | hu <;> rw [hu] at hl <;> obtain ⟨_, _, a, _, h4⟩ := hl <;> omega
      refine Or.inr ⟨h1, ?_⟩
      show Left c _ _ _ (upd s.th t _ t)
      rw [upd_self]
      trivial
    · exact Or.inl (other (upd_ne _ e _) rfl)
  | readFill u fill p x k hu hp =>
    by_cases e : t = u
    · subst e
      rw [hu] at hl
      obtain ⟨h1, a, h3, h4⟩ := hl
      rw [hp] at h4
      have h4 : a + 1 ≤ n + 0 := h4
      have := h3.1
      refine Or.inr ⟨by omega, ?_⟩
      show Left c _ _ _ (upd s.th t _ t)
      rw [upd_self]
      refine ⟨fun d hd => ?_, _, h3.2 _, by omega⟩
      have : s.pend t = some d := hd
      rw [hp] at this
      cases this
    · exact Or.inl (other (upd_ne _ e _) rfl)
  | writeFill u fill p x b k hu hp hx =>
    by_cases e : t = u
    · subst e
      rw [hu] at hl
      obtain ⟨h1, a, h3, h4⟩ := hl
      have hc := credit_le c.pg s.mem (s.pend t) (.wr x b k)
      have := h3.1
      refine Or.inr ⟨by omega, ?_⟩
      show Left c _ _ _ (upd s.th t _ t)
      rw [upd_self]
      refine ⟨fun d hd => ?_, _, h3.2, by omega⟩
      have : s.pend t = some d := hd
      rw [hp] at this
      cases this
    · exact Or.inl (other (upd_ne _ e _) rfl)
  | returned u fill p hu hp =>
    by_cases e : t = u
    · subst e
      rw [hu] at hl
      obtain ⟨h1, a, h3, h4⟩ := hl
      rw [hp] at h4
      have h4 : a + 1 ≤ n + 0 := h4
      refine Or.inr ⟨by omega, ?_⟩
      show Left c _ _ _ (upd s.th t _ t)
      rw [upd_self]
      trivial
    · exact Or.inl (other (upd_ne _ e _) rfl)
  | free u p hu hp hl' hn =>
    by_cases e : t = u
    · subst e; exact hidle hu
    · exact Or.inl (other (upd_ne _ e _) rfl)
  | lockFree u p r r' hu hp hlk hf hc =>
    by_cases e : t = u
    · subst e
      rw [hu] at hl
      obtain ⟨h1, h2⟩ := hl
      refine Or.inr ⟨by omega, ?_⟩
      show Left c _ _ _ (upd s.th t _ t)
      rw [upd_self]
      refine ⟨fun d hd => ?_, _, Len.freeP, by omega⟩
      have : s.pend t = some d := hd
      rw [hp] at this
      cases this
    · exact Or.inl (other (upd_ne _ e _) rfl)
  | freeAbort u p hu hp hlk hf =>
    by_cases e : t = u
    · subst e
      rw [hu] at hl
      obtain ⟨h1, h2⟩ := hl
      refine Or.inr ⟨by omega, ?_⟩
      show Left c _ _ _ (upd s.th t _ t)
      rw [upd_self]
      trivial
    · exact Or.inl (other (upd_ne _ e _) rfl)
  | readFree u p pool' x k hu hp =>
    by_cases e : t = u
    · subst e
      rw [hu] at hl
      obtain ⟨h1, a, h3, h4⟩ := hl
      rw [hp] at h4
      have h4 : a + 1 ≤ n + 0 := h4
      have := h3.1
      refine Or.inr ⟨by omega, ?_⟩
      show Left c _ _ _ (upd s.th t _ t)
      rw [upd_self]
      refine ⟨fun d hd => ?_, _, h3.2 _, by omega⟩
      have : s.pend t = some d := hd
      rw [hp] at this
      cases this
    · exact Or.inl (other (upd_ne _ e _) rfl)
  | writeFree u p pool' x b k hu hp hx =>
    by_cases e : t = u
    · subst e
      rw [hu] at hl
      obtain ⟨h1, a, h3, h4⟩ := hl
      have hc := credit_le c.pg s.mem (s.pend t) (.wr x b k)
      have := h3.1
      refine Or.inr ⟨by omega, ?_⟩
      show Left c _ _ _ (upd s.th t _ t)
      rw [upd_self]
      refine ⟨fun d hd => ?_, _, h3.2, by omega⟩
      have : s.pend t = some d := hd
      rw [hp] at this
      cases this
    · exact Or.inl (other (upd_ne _ e _) rfl)
  | unlockFree u p pool' hu hp =>
    by_cases e : t = u
    · subst e
      rw [hu] at hl
      obtain ⟨h1, a, h3, h4⟩ := hl
      rw [hp] at h4
      have h4 : a + 1 ≤ n + 0 := h4
      refine Or.inr ⟨by omega, ?_⟩
      show Left c _ _ _ (upd s.th t _ t)
      rw [upd_self]
      trivial
    · exact Or.inl (other (upd_ne _ e _) rfl)
  | store u p cpu o b hu hp hl' hcpu ho hx => exact Or.inl (other rfl rfl)
  | snapStore u p cpu o q hu hp hl' hcpu ho hsp hx =>
    by_cases e : t = u
    · subst e; exact hidle hu
    · exact Or.inl (other rfl (upd_ne _ e _))
  | snapFill u fill p x b k q hu hp hsp hx =>
    by_cases e : t = u
    · subst e
      rw [hu, hp] at hl
      obtain ⟨h1, a, h3, h4⟩ := hl
      have h4 : a + 1 ≤ n + (if s.mem.src (x / c.pg) = none then 2 else 0) := h4
      rw [hx, if_neg (by simp)] at h4
      refine Or.inr ⟨by omega, ?_⟩
      show Left c s.mem (upd s.pend t _ t) _ (s.th t)
      rw [upd_self, hu]
      refine ⟨fun d hd => ?_, a, h3, ?_⟩
      · cases hd; exact ⟨b, k, rfl⟩
      · show a + 1 ≤ n - 1 + 1
        omega
    · exact Or.inl (other rfl (upd_ne _ e _))
  | snapFree u p pool' x b k q hu hp hsp hx =>
    by_cases e : t = u
    · subst e
      rw [hu, hp] at hl
      obtain ⟨h1, a, h3, h4⟩ := hl
      have h4 : a + 1 ≤ n + (if s.mem.src (x / c.pg) = none then 2 else 0) := h4
      rw [hx, if_neg (by simp)] at h4
      refine Or.inr ⟨by omega, ?_⟩
      show Left c s.mem (upd s.pend t _ t) _ (s.th t)
      rw [upd_self, hu]
      refine ⟨fun d hd => ?_, a, h3, ?_⟩
      · cases hd; exact ⟨b, k, rfl⟩
      · show a + 1 ≤ n - 1 + 1
        omega
    · exact Or.inl (other rfl (upd_ne _ e _))
  | install u d hd =>
    by_cases e : t = u
    · subst e
      right
      show 1 ≤ n ∧ Left c (installAt c.pg s.mem d) (upd s.pend t none t) (n - 1) (s.th t)
      rw [upd_self]
      rw [hd] at hl
      cases hst : s.th t with
      | idle => exact hidle hst
      | dead => exact absurd hst hop.2
      | wantAlloc => rw [hst] at hl; exact absurd hl.2.1 (by simp)
      | inAlloc => rw [hst] at hl; exact absurd hl.2.1 (by simp)
      | wantFree => rw [hst] at hl; exact absurd hl.1 (by simp)
      | filling fill p k =>
        rw [hst] at hl
        obtain ⟨h1, a, h3, h4⟩ := hl
        obtain ⟨b, k', rfl⟩ := h1 d rfl
        have h4 : a + 1 ≤ n + 1 := h4
        have := h3.1
        refine ⟨by omega, show AtStore _ _ ∧ _ from ⟨fun d hd => (by cases hd), a, h3, ?_⟩⟩
        show a + 1 ≤ n - 1 + (if (installAt c.pg s.mem d).src (d.x / c.pg) = none then 2 else 0)
        rw [if_pos install_private]
        omega
      | inFree p pool' k =>
        rw [hst] at hl
        obtain ⟨h1, a, h3, h4⟩ := hl
        obtain ⟨b, k', rfl⟩ := h1 d rfl
        have h4 : a + 1 ≤ n + 1 := h4
        have := h3.1
        refine ⟨by omega, show AtStore _ _ ∧ _ from ⟨fun d hd => (by cases hd), a, h3, ?_⟩⟩
        show a + 1 ≤ n - 1 + (if (installAt c.pg s.mem d).src (d.x / c.pg) = none then 2 else 0)
        rw [if_pos install_private]
        omega
    · exact Or.inl (other rfl (upd_ne _ e _))
  | ext m' hext => exact Or.inl (other rfl rfl)

end Verif.PoolConc
