import Verif.PoolConc
import Verif.MempoolReach
/-
The byte programs of `Verif.PoolConc`: run without interference they compute the functions of
`Verif.Mempool`; with interference that leaves the item alone they still produce its content.
Helper lemmas only.
-/
namespace Verif.PoolConc
open Verif Verif.Mem Verif.Mempool MProg

variable [Abi]

/-! ### Execution without interference -/

omit [Abi] in
theorem run_bind {α β : Type} (pg : Nat) (p : MProg α) (f : α → MProg β) (m : Mem) :
    (p.bind f).run pg m = (f (p.run pg m).1).run pg (p.run pg m).2 := by
  induction p generalizing m with
  | ret a => rfl
  | rd x k ih => exact ih _ m
  | wr x b k ih => exact ih _

omit [Abi] in
theorem bind_assoc {α β γ : Type} (p : MProg α) (f : α → MProg β) (g : β → MProg γ) :
    (p.bind f).bind g = p.bind fun a => (f a).bind g := by
  induction p with
  | ret a => rfl
  | rd x k ih => exact congrArg (MProg.rd x) (funext ih)
  | wr x b k ih => exact congrArg (MProg.wr x b) ih

omit [Abi] in
theorem run_readBytesP (pg x n : Nat) (m : Mem) :
    ((readBytesP x n).run pg m).2 = m ∧ ∀ j, j < n → ((readBytesP x n).run pg m).1 j = m.read pg (x + j) := by
  induction n with
  | zero => exact ⟨rfl, fun j hj => absurd hj (Nat.not_lt_zero _)⟩
  | succ n ih =>
    unfold readBytesP
    rw [run_bind]
    simp only [run]
    rw [ih.1]
    refine ⟨rfl, fun j hj => ?_⟩
    by_cases h : j = n
    · rw [if_pos h, h]
    · rw [if_neg h]; exact ih.2 j (by omega)

theorem run_readWordP (pg x : Nat) (m : Mem) : (readWordP x).run pg m = (m.readWord pg x, m) := by
  unfold readWordP
  rw [run_bind]
  simp only [run]
  have h := run_readBytesP pg x wb m
  rw [h.1]
  unfold readWord
  rw [joinBytes_congr h.2]

omit [Abi] in
theorem run_writeP (pg x : Nat) (f : Nat → Byte) (n : Nat) (m : Mem) :
    (writeP x f n).run pg m = ((), m.writeBlock pg x f n) := by
  induction n with
  | zero => rfl
  | succ n ih =>
    unfold writeP
    rw [run_bind, ih]
    rfl

theorem run_cmpP (pg x : Nat) (v : Word) (n off : Nat) (m : Mem) :
    (cmpP x v n off).run pg m = (cmpLoop pg m x v n off, m) := by
  induction n generalizing off with
  | zero => rfl
  | succ n ih =>
    unfold cmpP cmpLoop
    rw [run_bind, run_readWordP]
    dsimp only
    split
    · rfl
    · exact ih _

omit [Abi] in
theorem run_memEqualP (pg x : Nat) (f : Nat → Byte) (n : Nat) (m : Mem) :
    (memEqualP x f n).run pg m = (memEqual pg m x f n, m) := by
  induction n with
  | zero => rfl
  | succ n ih =>
    unfold memEqualP memEqual
    rw [run_bind, ih]
    dsimp only
    cases memEqual pg m x f n <;> rfl

theorem run_poisonP (pg x : Nat) (v : Word) (n off : Nat) (m : Mem) :
    (poisonP x v n off).run pg m = ((), poisonLoop pg x v n off m) := by
  induction n generalizing off m with
  | zero => rfl
  | succ n ih =>
    unfold poisonP poisonLoop
    rw [run_bind, run_writeP]
    exact ih _ _

omit [Abi] in
theorem run_forCpusP {pg : Nat} {bp : Nat → MProg Unit} {b : Nat → Mem → Mem}
    (h : ∀ i m, (bp i).run pg m = ((), b i m)) (n : Nat) (m : Mem) :
    (forCpusP bp n).run pg m = ((), forCpus b n m) := by
  induction n with
  | zero => rfl
  | succ n ih =>
    unfold forCpusP forCpus
    rw [run_bind, ih]
    exact h _ _

theorem run_zeroP (c : Config) (r : Range) (off : Nat) (m : Mem) :
    (zeroP c r off).run c.pg m = ((), zeroItem c r off m) := by
  unfold zeroP zeroItem
  rw [run_bind]
  have hb : ∀ i (m : Mem), ((cmpP (percpuPtr c r i off) 0#_ (c.itemLen / wb) 0).bind fun w =>
      if w = 0#_ then ret () else writeP (percpuPtr c r i off) (fun _ => 0#8) c.itemLen).run c.pg m =
      ((), if cmpItem c.pg m (percpuPtr c r i off) c.itemLen 0#_ = 0#_ then m
        else bzero c.pg m (percpuPtr c r i off) c.itemLen) := by
    intro i m
    rw [run_bind, run_cmpP]
    unfold cmpItem
    dsimp only
    split
    · rfl
    · exact run_writeP ..
  cases initPtr r off with
  | none => exact run_forCpusP hb _ _
  | some p =>
    dsimp only
    rw [run_writeP]
    exact run_forCpusP hb _ _

theorem run_initP (c : Config) (r : Range) (off : Nat) (f : Nat → Byte) (len : Nat) (m : Mem) :
    (initP c r off f len).run c.pg m = ((), initItem c r off f len m) := by
  unfold initP initItem
  rw [run_bind]
  have hb : ∀ i (m : Mem), ((memEqualP (percpuPtr c r i off) f len).bind fun e =>
      if e then ret () else writeP (percpuPtr c r i off) f len).run c.pg m =
      ((), if memEqual c.pg m (percpuPtr c r i off) f len then m
        else memcpy c.pg m (percpuPtr c r i off) f len) := by
    intro i m
    rw [run_bind, run_memEqualP]
    dsimp only
    split
    · rfl
    · exact run_writeP ..
  cases initPtr r off with
  | none => exact run_forCpusP hb _ _
  | some p =>
    dsimp only
    rw [run_writeP]
    exact run_forCpusP hb _ _

theorem run_poisonItemP (c : Config) (r : Range) (off : Nat) (v : Word) (m : Mem) :
    (poisonItemP c r off v).run c.pg m = ((), poisonItem c r off v m) := by
  unfold poisonItemP poisonItem
  rw [run_bind]
  have hb : ∀ i (m : Mem), ((cmpP (percpuPtr c r i off) v (c.itemLen / wb) 0).bind fun w =>
      if w = 0#_ then ret () else poisonP (percpuPtr c r i off) v (c.itemLen / wb) 0).run c.pg m =
      ((), if cmpItem c.pg m (percpuPtr c r i off) c.itemLen v = 0#_ then m
        else poisonBlock c.pg m (percpuPtr c r i off) c.itemLen v) := by
    intro i m
    rw [run_bind, run_cmpP]
    unfold cmpItem
    dsimp only
    split
    · rfl
    · exact run_poisonP ..
  cases initPtr r off with
  | none => exact run_forCpusP hb _ _
  | some p =>
    dsimp only
    rw [run_poisonP]
    exact run_forCpusP hb _ _

theorem run_checkCpusP (c : Config) (r : Range) (off : Nat) (v : Word) (n : Nat) (m : Mem) :
    (checkCpusP c r off v n).run c.pg m =
      ((List.range n).all fun i => cmpItem c.pg m (percpuPtr c r i off) c.itemLen v == 0#_, m) := by
  induction n with
  | zero => rfl
  | succ n ih =>
    unfold checkCpusP
    rw [run_bind, ih, List.range_succ, List.all_append]
    dsimp only
    cases (List.range n).all fun i => cmpItem c.pg m (percpuPtr c r i off) c.itemLen v == 0#_
    · rfl
    · rw [if_pos rfl, run_bind, run_cmpP]
      simp [run, cmpItem]

theorem run_checkP (c : Config) (r : Range) (off : Nat) (m : Mem) :
    (checkP c r off).run c.pg m = (checkPoisonItem c r off m, m) := by
  unfold checkP checkPoisonItem
  cases c.robust with
  | false => rfl
  | true =>
    rw [Bool.not_true, if_neg (by decide), if_neg (by decide), run_bind]
    cases initPtr r off with
    | none => 
      simp only [run, if_true, run_checkCpusP, Bool.true_and]
    | some p =>
      dsimp only
      rw [run_bind, run_cmpP]
      simp only [run]
      unfold cmpItem
      cases cmpLoop c.pg m p (c.poison.getD 0#_) (c.itemLen / wb) 0 == 0#_
      · rfl
      · exact run_checkCpusP ..

theorem run_fillP (c : Config) (r : Range) (off : Nat) (fill : Fill) (m : Mem) :
    (fillP c r off fill).run c.pg m = ((), fillItem c r off fill m) := by
  cases fill with
  | plain n => rfl
  | zero => exact run_zeroP ..
  | init f n => exact run_initP ..

/-- The locked part of an allocation, run without interference, is `lockedAlloc`. -/
theorem lockedAlloc_eq (c : Config) (env : RangeEnv) (s : State) :
    lockedAlloc c env s =
      match ((lockedP c s.pool).run c.pg s.mem).1 with
      | .ub => .ub
      | .poisoned => .aborted .poison
      | .take r off addr pool => takeSlot c { s with pool := pool } r off addr
      | .create =>
        match (rangeCreate c s.pool s.mem env).2 with
        | none => .ok (.null .ENOMEM, s)
        | some (r, m) =>
          takeSlot c { s with mem := m, pool := addRange c s.pool r }
            { r with nextUnused := r.nextUnused + c.itemLen } r.nextUnused (r.base + r.nextUnused) := by
  unfold lockedAlloc lockedP
  dsimp only
  by_cases hh : s.pool.head ≠ 0
  · rw [if_pos hh, if_pos hh]
    cases findRange s.pool.ranges (freeListToPercpu c s.pool.head - freeListToPercpu c s.pool.head % c.stride) with
    | none => rfl
    | some r =>
      dsimp only
      rw [run_bind, run_readWordP]
      dsimp only
      rw [run_bind, run_checkP]
      dsimp only
      cases checkPoisonItem c r _ s.mem <;> rfl
  · rw [if_neg hh, if_neg hh]
    obtain ⟨⟨ranges, head, nr⟩, mem, im⟩ := s
    cases ranges with
    | nil => rfl
    | cons r l =>
      dsimp only
      by_cases hx : r.nextUnused + c.itemLen > c.stride
      · rw [if_pos hx]; rfl
      · rw [if_neg hx]; rfl

/-- Freeing without interference. -/
theorem run_freeP (c : Config) (r : Range) (p head : Nat) (m : Mem) :
    (freeP c r p head).run c.pg m =
      ((), (match c.poison with
        | some v => poisonItem c r (p % c.stride) v m
        | none => m).writeWord c.pg (percpuToFreeList c p) (BitVec.ofNat _ head)) := by
  unfold freeP
  rw [run_bind]
  cases c.poison with
  | none => exact run_writeP ..
  | some v =>
    dsimp only
    rw [run_poisonItemP]
    exact run_writeP ..

/-! ### Execution with interference -/

/-- However the memory changes as described by `R` between its accesses, the program only stores in `A`
and when it is over `Q` holds (and keeps holding). -/
def Ok {α : Type} (pg : Nat) (A : Nat → Prop) (R : Mem → Mem → Prop) (Q : α → Mem → Prop) : MProg α → Mem → Prop
  | .ret a, m => ∀ m', R m m' → Q a m'
  | .rd x k, m => ∀ m', R m m' → Ok pg A R Q (k (m'.read pg x)) m'
  | .wr x b k, m => A x ∧ ∀ m', R m m' → Ok pg A R Q k (m'.write pg x b)

variable {pg : Nat} {A : Nat → Prop} {R : Mem → Mem → Prop}

omit [Abi] in
/-- Interference keeps `Ok`. -/
theorem Ok.stable {α : Type} {Q : α → Mem → Prop} (ht : ∀ a b d, R a b → R b d → R a d) {p : MProg α} {m m' : Mem}
    (h : Ok pg A R Q p m) (hr : R m m') : Ok pg A R Q p m' := by
  cases p with
  | ret a => exact fun m'' h' => h m'' (ht _ _ _ hr h')
  | rd x k => exact fun m'' h' => h m'' (ht _ _ _ hr h')
  | wr x b k => exact ⟨h.1, fun m'' h' => h.2 m'' (ht _ _ _ hr h')⟩

omit [Abi] in
theorem Ok.mono {α : Type} {Q Q' : α → Mem → Prop} (hq : ∀ a m, Q a m → Q' a m) {p : MProg α} {m : Mem}
    (h : Ok pg A R Q p m) : Ok pg A R Q' p m := by
  induction p generalizing m with
  | ret a => exact fun m' h' => hq _ _ (h m' h')
  | rd x k ih => exact fun m' h' => ih _ (h m' h')
  | wr x b k ih => exact ⟨h.1, fun m' h' => ih (h.2 m' h')⟩

omit [Abi] in
theorem Ok.bind {α β : Type} {Q : β → Mem → Prop} (hr : ∀ m, R m m) {p : MProg α} {f : α → MProg β} {m : Mem}
    (h : Ok pg A R (fun a m => Ok pg A R Q (f a) m) p m) : Ok pg A R Q (p.bind f) m := by
  induction p generalizing m with
  | ret a => exact h m (hr m)
  | rd x k ih => exact fun m' h' => ih _ (h m' h')
  | wr x b k ih => exact ⟨h.1, fun m' h' => ih (h.2 m' h')⟩

/-- Programs that only load, and only from `X`. -/
inductive RO {α : Type} (X : Nat → Prop) : MProg α → Prop
  | ret (a : α) : RO X (.ret a)
  | rd (x : Nat) (k : Byte → MProg α) (hx : X x) (h : ∀ b, RO X (k b)) : RO X (.rd x k)

omit [Abi] in
theorem RO.bind {α β : Type} {X : Nat → Prop} {p : MProg α} {f : α → MProg β} (hp : RO X p)
    (hf : ∀ a, RO X (f a)) : RO X (p.bind f) := by
  induction hp with
  | ret a => exact hf a
  | rd x k hx _ ih => exact .rd _ _ hx ih

omit [Abi] in
theorem RO.readBytesP {X : Nat → Prop} {x n : Nat} (h : ∀ j, j < n → X (x + j)) : RO X (readBytesP x n) := by
  induction n with
  | zero => exact .ret _
  | succ n ih =>
    exact (ih fun j hj => h j (by omega)).bind fun f => .rd _ _ (h n (by omega)) fun b => .ret _

theorem RO.readWordP {X : Nat → Prop} {x : Nat} (h : ∀ j, j < wb → X (x + j)) : RO X (readWordP x) :=
  (RO.readBytesP h).bind fun _ => .ret _

theorem RO.cmpP {X : Nat → Prop} {x : Nat} {v : Word} {n off : Nat} (h : ∀ j, off ≤ j → j < off + wb * n → X (x + j)) :
    RO X (cmpP x v n off) := by
  induction n generalizing off with
  | zero => exact .ret _
  | succ n ih =>
    unfold PoolConc.cmpP
    have hms : wb * (n + 1) = wb * n + wb := Nat.mul_succ wb n
    refine (RO.readWordP fun j hj => ?_).bind fun w => ?_
    · rw [Nat.add_assoc]; exact h _ (by omega) (by omega)
    · split
      · exact .ret _
      · exact ih fun j h1 h2 => h j (by omega) (by omega)

omit [Abi] in
theorem RO.memEqualP {X : Nat → Prop} {x : Nat} {f : Nat → Byte} {n : Nat} (h : ∀ j, j < n → X (x + j)) :
    RO X (memEqualP x f n) := by
  induction n with
  | zero => exact .ret _
  | succ n ih =>
    unfold PoolConc.memEqualP
    refine (ih fun j hj => h j (by omega)).bind fun e => ?_
    split
    · exact .rd _ _ (h n (by omega)) fun b => .ret _
    · exact .ret _

omit [Abi] in
/-- A program that only loads stable bytes computes what it would compute in the final memory. -/
theorem RO.ok {α : Type} {X : Nat → Prop} (hrf : ∀ m, R m m) (ht : ∀ a b d, R a b → R b d → R a d)
    (hx : ∀ m m' x, R m m' → X x → m'.read pg x = m.read pg x) {p : MProg α} (hp : RO X p) (m : Mem) :
    Ok pg A R (fun a m' => R m m' ∧ a = (p.run pg m').1) p m := by
  suffices H : ∀ m0, R m0 m → Ok pg A R (fun a m' => R m0 m' ∧ a = (p.run pg m').1) p m from H m (hrf m)
  induction hp generalizing m with
  | ret a => exact fun m0 h0 m' h' => ⟨ht _ _ _ h0 h', rfl⟩
  | rd x k hX _ ih =>
    intro m0 h0 m' h'
    refine (ih (m'.read pg x) m' m' (hrf _)).mono ?_
    rintro a m'' ⟨h1, h2⟩
    refine ⟨ht _ _ _ h0 (ht _ _ _ h' h1), ?_⟩
    rw [h2]
    show _ = ((k (m''.read pg x)).run pg m'').1
    rw [hx _ _ _ h1 hX]

omit [Abi] in
/-- A block of stores, with what holds after each byte. -/
theorem ok_writeP {x : Nat} {f : Nat → Byte} {n : Nat} (hrf : ∀ m, R m m) {J : Nat → Mem → Prop}
    (hst : ∀ j m m', j ≤ n → J j m → R m m' → J j m') (hA : ∀ j, j < n → A (x + j))
    (hw : ∀ j m, j < n → J j m → J (j + 1) (m.write pg (x + j) (f j))) {m : Mem} (h : J 0 m) :
    Ok pg A R (fun _ m' => J n m') (writeP x f n) m := by
  induction n with
  | zero => exact fun m' h' => hst _ _ _ (by omega) h h'
  | succ n ih =>
    refine Ok.bind hrf ((ih (fun j m m' hj => hst j m m' (by omega)) (fun j hj => hA j (by omega))
      (fun j m hj => hw j m (by omega))).mono ?_)
    intro _ m1 h1
    refine ⟨hA n (by omega), fun m' h' => ?_⟩
    exact fun m'' h'' => hst _ _ _ (by omega) (hw n m' (by omega) (hst _ _ _ (by omega) h1 h')) h''

/-- The words of a poisoned block. -/
theorem ok_poisonP {x : Nat} {v : Word} {n k : Nat} (hrf : ∀ m, R m m) {J : Nat → Mem → Prop}
    (hst : ∀ j m m', j ≤ wb * (k + n) → J j m → R m m' → J j m') (hA : ∀ j, j < wb * (k + n) → A (x + j))
    (hw : ∀ j m, j < wb * (k + n) → J j m → J (j + 1) (m.write pg (x + j) (pat v j))) {m : Mem} (h : J (wb * k) m) :
    Ok pg A R (fun _ m' => J (wb * (k + n)) m') (poisonP x v n (wb * k)) m := by
  induction n generalizing k m with
  | zero => exact fun m' h' => hst _ _ _ (by omega) h h'
  | succ n ih =>
    unfold poisonP
    have e1 : k + 1 + n = k + (n + 1) := by omega
    have e2 : wb * (k + (n + 1)) = wb * k + wb + wb * n := by
      rw [Nat.mul_add, Nat.mul_succ wb n]; omega
    have e3 := Nat.mul_succ wb k
    refine Ok.bind hrf ((ok_writeP hrf (J := fun j m => J (wb * k + j) m) (fun j m m' hj => hst _ m m' (by omega))
      (fun j hj => ?_) (fun j m hj hJ => ?_) h).mono ?_)
    · rw [Nat.add_assoc]; exact hA _ (by omega)
    · have := hw (wb * k + j) m (by omega) hJ
      unfold pat at this
      rw [show (wb * k + j) % wb = j by rw [Nat.mul_add_mod, Nat.mod_eq_of_lt hj], ← Nat.add_assoc] at this
      exact this
    · intro _ m1 h1
      have h2 := ih (k := k + 1) (m := m1) (fun j m m' hj => hst j m m' (by rw [← e1]; exact hj)) (fun j hj => hA j (by rw [← e1]; exact hj)) (fun j m hj => hw j m (by rw [← e1]; exact hj)) h1
      rw [show wb * (k + 1) = wb * k + wb from e3, e1] at h2
      exact h2

/-! ### Items -/

/-- What other threads may do to memory, as far as the items `P` are concerned: nothing, except that
pages may become private. -/
structure Rely (c : Config) (P : Nat → Prop) (m m' : Mem) : Prop where
  wf : m.WF → m'.WF
  res : ∀ p, P p → ∀ col o, col < c.nCols → o < c.itemLen →
    m'.resolve c.pg (p + c.stride * col + o) = m.resolve c.pg (p + c.stride * col + o) ∨
    m'.resolve c.pg (p + c.stride * col + o) = p + c.stride * col + o
  rd : ∀ p, P p → ∀ col o, col < c.nCols → o < c.itemLen →
    m'.read c.pg (p + c.stride * col + o) = m.read c.pg (p + c.stride * col + o)

theorem Rely.refl {c : Config} {P : Nat → Prop} (m : Mem) : Rely c P m m :=
  ⟨id, fun _ _ _ _ _ _ => Or.inl rfl, fun _ _ _ _ _ _ => rfl⟩

theorem Rely.trans {c : Config} {P : Nat → Prop} (m m' m'' : Mem) (h : Rely c P m m') (h' : Rely c P m' m'') :
    Rely c P m m'' := by
  refine ⟨fun w => h'.wf (h.wf w), fun p hp col o hc ho => ?_, fun p hp col o hc ho => ?_⟩
  · rcases h'.res p hp col o hc ho with e | e
    · rw [e]; exact h.res p hp col o hc ho
    · exact Or.inr e
  · rw [h'.rd p hp col o hc ho, h.rd p hp col o hc ho]

theorem Rely.mono {c : Config} {P P' : Nat → Prop} {m m' : Mem} (h : Rely c P m m') (hp : ∀ p, P' p → P p) :
    Rely c P' m m' :=
  ⟨h.wf, fun p h' => h.res p (hp p h'), fun p h' => h.rd p (hp p h')⟩

/-- How the pages of item `p` are mapped. -/
def IShape (c : Config) (p : Nat) (m : Mem) : Prop :=
  ∀ col o, col < c.nCols → o < c.itemLen →
    m.resolve c.pg (p + c.stride * col + o) = p + c.stride * col + o ∨
    (c.cow = true ∧ col < c.ncpu ∧ m.resolve c.pg (p + c.stride * col + o) = p + c.stride * c.ncpu + o)

theorem IShape.rely {c : Config} {p : Nat} {m m' : Mem} (h : IShape c p m) (hr : Rely c (· = p) m m') : IShape c p m' := by
  intro col o hc ho
  rcases hr.res p rfl col o hc ho with e | e
  · rw [e]; exact h col o hc ho
  · exact Or.inl e

theorem IShape.frame {c : Config} {p : Nat} {m m' : Mem} {W : Nat → Prop} (h : IShape c p m) (hf : Frame c.pg W m m') :
    IShape c p m' := by
  intro col o hc ho
  rcases hf.res (p + c.stride * col + o) with e | e
  · rw [e]; exact h col o hc ho
  · exact Or.inl e

/-- A store to one byte of the item keeps the other bytes of the same column, and, unless it goes to the
init area, the bytes of all columns. -/
theorem write_keep {c : Config} (hv : Valid c) {l : List Range} {p : Nat} (hs : Slot c l p) {m : Mem} (hwf : m.WF)
    (hsh : IShape c p m) {col o col' o' : Nat} {b : Byte} (ho : o < c.itemLen)
    (hc' : col' < c.nCols) (ho' : o' < c.itemLen) (hne : col' ≠ col ∨ o' ≠ o)
    (hin : col = c.ncpu → c.cow = true → c.ncpu ≤ col' ∨ o' ≠ o) :
    (m.write c.pg (p + c.stride * col + o) b).read c.pg (p + c.stride * col' + o') =
      m.read c.pg (p + c.stride * col' + o') := by
  have key : ∀ d, d ≠ col ∨ (d = col ∧ o' ≠ o) → p + c.stride * d + o' ≠ p + c.stride * col + o := by
    rintro d (h | ⟨rfl, h⟩)
    · exact slot_col_disj hs h ho' ho
    · omega
  refine (Frame.write hv.pg_pos).rd hwf _ ?_ ?_
  · exact key col' (by omega)
  · rcases hsh col' o' hc' ho' with e | ⟨hcow, hlt, e⟩
    · rw [e]; exact key col' (by omega)
    · rw [e]
      refine key c.ncpu ?_
      by_cases e' : c.ncpu = col
      · have := hin e'.symm hcow
        omega
      · exact Or.inl e'

/-- Progress of a fill: the init copy and the first `i` CPUs hold the content. -/
structure Filled (c : Config) (p : Nat) (g : Nat → Byte) (n i : Nat) (m : Mem) : Prop where
  wf : m.WF
  sh : IShape c p m
  ini : c.cow = true → Holds c.pg m (p + c.stride * c.ncpu) g n
  cpus : ∀ k, k < i → Holds c.pg m (p + c.stride * k) g n

theorem Filled.rely {c : Config} {p : Nat} {g : Nat → Byte} {n i : Nat} {m m' : Mem} (hn : n ≤ c.itemLen)
    (hi : i ≤ c.ncpu) (h : Filled c p g n i m) (hr : Rely c (· = p) m m') : Filled c p g n i m' := by
  have := ncpu_le_nCols c
  refine ⟨hr.wf h.wf, h.sh.rely hr, fun hc j hj => ?_, fun k hk j hj => ?_⟩
  · rw [hr.rd p rfl _ _ (initCol_lt hc) (by omega)]; exact h.ini hc j hj
  · rw [hr.rd p rfl _ _ (by omega) (by omega)]; exact h.cpus k hk j hj

/-- Reads of a whole column of the item are stable. -/
theorem item_stable {c : Config} {p : Nat} {m m' : Mem} {x : Nat} (hr : Rely c (· = p) m m') (hx : ItemBytes c p x) :
    m'.read c.pg x = m.read c.pg x := by
  obtain ⟨col, o, hc, ho, rfl⟩ := hx
  exact hr.rd p rfl col o hc ho

theorem itemBytes_col {c : Config} {p col n : Nat} (hc : col < c.nCols) (hn : n ≤ c.itemLen) :
    ∀ j, j < n → ItemBytes c p (p + c.stride * col + j) := fun j hj => ⟨col, j, hc, by omega, rfl⟩

/-- While CPU `i`'s copy is being written: `j` bytes done. -/
structure Filling (c : Config) (p : Nat) (g : Nat → Byte) (n i j : Nat) (m : Mem) : Prop where
  done : Filled c p g n i m
  cur : ∀ o, o < j → m.read c.pg (p + c.stride * i + o) = g o

theorem Filling.step {c : Config} (hv : Valid c) {l : List Range} {p : Nat} (hs : Slot c l p) {g : Nat → Byte}
    {n i j : Nat} {m : Mem} (hn : n ≤ c.itemLen) (hi : i < c.ncpu) (hj : j < n) (h : Filling c p g n i j m) :
    Filling c p g n i (j + 1) (m.write c.pg (p + c.stride * i + j) (g j)) := by
  have hle := ncpu_le_nCols c
  have hf : Frame c.pg _ m (m.write c.pg (p + c.stride * i + j) (g j)) := Frame.write hv.pg_pos
  refine ⟨⟨hf.wf h.done.wf, h.done.sh.frame hf, fun hc o ho => ?_, fun k hk o ho => ?_⟩, fun o ho => ?_⟩
  · rw [write_keep hv hs h.done.wf h.done.sh (by omega) (initCol_lt hc) (by omega) (Or.inl (by omega)) (by omega)]
    exact h.done.ini hc o ho
  · rw [write_keep hv hs h.done.wf h.done.sh (by omega) (by omega) (by omega) (Or.inl (by omega)) (by omega)]
    exact h.done.cpus k hk o ho
  · by_cases e : o = j
    · subst e
      exact read_write_self _ _ _ _
    · rw [write_keep hv hs h.done.wf h.done.sh (by omega) (by omega) (by omega) (Or.inr e) (by omega)]
      exact h.cur o (by omega)

/-- While the init copy is being written: `j` bytes done. -/
structure Initing (c : Config) (p : Nat) (g : Nat → Byte) (j : Nat) (m : Mem) : Prop where
  wf : m.WF
  sh : IShape c p m
  cur : ∀ o, o < j → m.read c.pg (p + c.stride * c.ncpu + o) = g o

theorem Initing.step {c : Config} (hv : Valid c) (hcow : c.cow = true) {l : List Range} {p : Nat} (hs : Slot c l p)
    {g : Nat → Byte} {n j : Nat} {m : Mem} (hn : n ≤ c.itemLen) (hj : j < n) (h : Initing c p g j m) :
    Initing c p g (j + 1) (m.write c.pg (p + c.stride * c.ncpu + j) (g j)) := by
  have hf : Frame c.pg _ m (m.write c.pg (p + c.stride * c.ncpu + j) (g j)) := Frame.write hv.pg_pos
  refine ⟨hf.wf h.wf, h.sh.frame hf, fun o ho => ?_⟩
  by_cases e : o = j
  · subst e
    exact read_write_self _ _ _ _
  · rw [write_keep hv hs h.wf h.sh (by omega) (initCol_lt hcow) (by omega) (Or.inr e) (by omega)]
    exact h.cur o (by omega)

/-- The shape shared by `zeroP`, `initP` and `poisonItemP`: fill the init copy, then for each CPU compare
and write if different. -/
theorem ok_genFill {c : Config} (hv : Valid c) {l : List Range} {r : Range} {off : Nat}
    (hs : Slot c l (r.base + off)) (hinit : r.init = if c.cow then some (r.base + c.stride * c.ncpu) else none)
    {g : Nat → Byte} {n : Nat} (hn : n ≤ c.itemLen) {wr : Nat → MProg Unit} {cmp : Nat → MProg Bool}
    (hwr : ∀ (x : Nat) (J : Nat → Mem → Prop) (m : Mem),
      (∀ j m m', j ≤ n → J j m → Rely c (· = r.base + off) m m' → J j m') →
      (∀ j, j < n → ItemBytes c (r.base + off) (x + j)) →
      (∀ j m, j < n → J j m → J (j + 1) (m.write c.pg (x + j) (g j))) → J 0 m →
      Ok c.pg (ItemBytes c (r.base + off)) (Rely c (· = r.base + off)) (fun _ m' => J n m') (wr x) m)
    (hcmp : ∀ (x : Nat) (m : Mem), ((cmp x).run c.pg m).1 = true → Holds c.pg m x g n)
    (hro : ∀ x, (∀ j, j < n → ItemBytes c (r.base + off) (x + j)) → RO (ItemBytes c (r.base + off)) (cmp x))
    {m : Mem} (hwf : m.WF) (hsh : IShape c (r.base + off) m) :
    Ok c.pg (ItemBytes c (r.base + off)) (Rely c (· = r.base + off)) (fun _ m' => Filled c (r.base + off) g n c.ncpu m')
      ((match initPtr r off with
        | some p => wr p
        | none => ret ()).bind fun _ =>
        forCpusP (fun i => (cmp (percpuPtr c r i off)).bind fun e =>
          if e then ret () else wr (percpuPtr c r i off)) c.ncpu) m := by
  have hle := ncpu_le_nCols c
  have hrf := fun m => Rely.refl (c := c) (P := (· = r.base + off)) m
  -- the CPU loop
  have hloop : ∀ N, N ≤ c.ncpu → ∀ m, Filled c (r.base + off) g n 0 m →
      Ok c.pg (ItemBytes c (r.base + off)) (Rely c (· = r.base + off))
        (fun _ m' => Filled c (r.base + off) g n N m')
        (forCpusP (fun i => (cmp (percpuPtr c r i off)).bind fun e =>
          if e then ret () else wr (percpuPtr c r i off)) N) m := by
    intro N hN
    induction N with
    | zero => exact fun m h m' h' => h.rely hn (Nat.zero_le _) h'
    | succ N ih =>
      intro m h
      refine Ok.bind hrf ((ih (by omega) m h).mono ?_)
      intro _ m1 h1
      have hperc : percpuPtr c r N off = r.base + off + c.stride * N := percpuPtr_eq ..
      dsimp only
      rw [hperc]
      have hib := itemBytes_col (c := c) (p := r.base + off) (col := N) (by omega) hn
      refine Ok.bind hrf (((hro _ hib).ok hrf Rely.trans (fun m m' x h hx => item_stable h hx) m1).mono ?_)
      rintro e m2 ⟨hr2, he⟩
      have h2 := h1.rely hn (by omega) hr2
      cases e with
      | true =>
        intro m3 h3
        have hN' := hcmp _ _ he.symm
        refine Filled.rely hn (by omega) ⟨h2.wf, h2.sh, h2.ini, fun k hk => ?_⟩ h3
        by_cases ek : k = N
        · subst ek; exact hN'
        · exact h2.cpus k (by omega)
      | false =>
        rw [if_neg (by decide)]
        refine (hwr _ (Filling c (r.base + off) g n N) m2 ?_ hib ?_ ⟨h2, fun o ho => absurd ho (Nat.not_lt_zero _)⟩).mono ?_
        · intro j m m' hjn hJ hR
          exact ⟨hJ.done.rely hn (by omega) hR, fun o ho => by
            rw [hR.rd _ rfl _ _ (by omega) (by omega)]; exact hJ.cur o ho⟩
        · exact fun j m hj hJ => hJ.step hv hs hn (by omega) hj
        · intro _ m3 h3
          refine ⟨h3.done.wf, h3.done.sh, h3.done.ini, fun k hk => ?_⟩
          by_cases ek : k = N
          · subst ek; exact h3.cur
          · exact h3.done.cpus k (by omega)
  have hinitp : initPtr r off = if c.cow then some (r.base + off + c.stride * c.ncpu) else none := by
    unfold initPtr
    rw [hinit]
    cases c.cow
    · rfl
    · simp; omega
  refine Ok.bind hrf ?_
  rw [hinitp]
  cases hc : c.cow with
  | false =>
    intro m' h'
    exact hloop _ (Nat.le_refl _) _ ⟨h'.wf hwf, hsh.rely h', fun h => absurd (hc.symm.trans h) (by decide), fun k hk => absurd hk (Nat.not_lt_zero _)⟩
  | true =>
    rw [if_pos rfl]
    refine (hwr _ (Initing c (r.base + off) g) m ?_ (itemBytes_col (initCol_lt hc) hn) ?_
      ⟨hwf, hsh, fun o ho => absurd ho (Nat.not_lt_zero _)⟩).mono ?_
    · intro j m m' hjn hJ hR
      exact ⟨hR.wf hJ.wf, hJ.sh.rely hR, fun o ho => by
        rw [hR.rd _ rfl _ _ (initCol_lt hc) (by omega)]; exact hJ.cur o ho⟩
    · exact fun j m hj hJ => hJ.step hv hc hs hn hj
    · intro _ m1 h1
      exact hloop _ (Nat.le_refl _) _ ⟨h1.wf, h1.sh, fun _ => h1.cur, fun k hk => absurd hk (Nat.not_lt_zero _)⟩

theorem ok_zeroP {c : Config} (hv : Valid c) {l : List Range} {r : Range} {off : Nat}
    (hs : Slot c l (r.base + off)) (hinit : r.init = if c.cow then some (r.base + c.stride * c.ncpu) else none)
    {m : Mem} (hwf : m.WF) (hsh : IShape c (r.base + off) m) :
    Ok c.pg (ItemBytes c (r.base + off)) (Rely c (· = r.base + off))
      (fun _ m' => Filled c (r.base + off) (fun _ => 0#8) c.itemLen c.ncpu m') (zeroP c r off) m := by
  have h8 := hv.item_wb
  have key := ok_genFill hv hs hinit (g := fun _ => 0#8) (Nat.le_refl c.itemLen)
    (wr := fun x => writeP x (fun _ => 0#8) c.itemLen)
    (cmp := fun x => (cmpP x 0#_ (c.itemLen / wb) 0).bind fun w => ret (decide (w = 0#_)))
    (fun x J m h1 h2 h3 h4 => ok_writeP Rely.refl h1 h2 h3 h4) (fun x m h => ?_) (fun x hx => ?_) hwf hsh
  · have e : zeroP c r off = (match initPtr r off with
        | some p => writeP p (fun _ => 0#8) c.itemLen
        | none => ret ()).bind fun _ =>
        forCpusP (fun i => ((cmpP (percpuPtr c r i off) 0#_ (c.itemLen / wb) 0).bind fun w => ret (decide (w = 0#_))).bind
          fun e => if e then ret () else writeP (percpuPtr c r i off) (fun _ => 0#8) c.itemLen) c.ncpu := by
      unfold zeroP
      congr 1
      funext _
      congr 1
      funext i
      rw [bind_assoc]
      congr 1
      funext w
      simp [MProg.bind]
    rw [e]
    exact key
  · rw [run_bind, run_cmpP] at h
    simp only [run, decide_eq_true_eq] at h
    have := (cmpItem_eq_zero_iff h8).1 h
    intro j hj
    rw [this j hj]
    unfold pat wordByte
    simp
  · exact (RO.cmpP fun j _ h2 => hx j (by rw [Nat.mul_div_cancel' h8] at h2; omega)).bind fun _ => .ret _

theorem ok_poisonItemP {c : Config} (hv : Valid c) {l : List Range} {r : Range} {off : Nat}
    (hs : Slot c l (r.base + off)) (hinit : r.init = if c.cow then some (r.base + c.stride * c.ncpu) else none)
    (v : Word) {m : Mem} (hwf : m.WF) (hsh : IShape c (r.base + off) m) :
    Ok c.pg (ItemBytes c (r.base + off)) (Rely c (· = r.base + off))
      (fun _ m' => Filled c (r.base + off) (pat v) c.itemLen c.ncpu m') (poisonItemP c r off v) m := by
  have h8 := hv.item_wb
  have h88 : wb * (0 + c.itemLen / wb) = c.itemLen := by rw [Nat.zero_add, Nat.mul_div_cancel' h8]
  have key := ok_genFill hv hs hinit (g := pat v) (Nat.le_refl c.itemLen)
    (wr := fun x => poisonP x v (c.itemLen / wb) 0)
    (cmp := fun x => (cmpP x v (c.itemLen / wb) 0).bind fun w => ret (decide (w = 0#_)))
    (fun x J m h1 h2 h3 h4 => ?_) (fun x m h => ?_) (fun x hx => ?_) hwf hsh
  · have e : poisonItemP c r off v = (match initPtr r off with
        | some p => poisonP p v (c.itemLen / wb) 0
        | none => ret ()).bind fun _ =>
        forCpusP (fun i => ((cmpP (percpuPtr c r i off) v (c.itemLen / wb) 0).bind fun w => ret (decide (w = 0#_))).bind
          fun e => if e then ret () else poisonP (percpuPtr c r i off) v (c.itemLen / wb) 0) c.ncpu := by
      unfold poisonItemP
      congr 1
      funext _
      congr 1
      funext i
      rw [bind_assoc]
      congr 1
      funext w
      simp [MProg.bind]
    rw [e]
    exact key
  · have := ok_poisonP (pg := c.pg) (A := ItemBytes c (r.base + off)) (R := Rely c (· = r.base + off)) (x := x) (v := v)
      (n := c.itemLen / wb) (k := 0) Rely.refl (J := J)
      (by rw [h88]; exact h1) (by rw [h88]; exact h2) (by rw [h88]; exact h3) h4
    rw [h88] at this
    exact this
  · rw [run_bind, run_cmpP] at h
    simp only [run, decide_eq_true_eq] at h
    exact (cmpItem_eq_zero_iff h8).1 h
  · exact (RO.cmpP fun j _ h2 => hx j (by rw [Nat.mul_div_cancel' h8] at h2; omega)).bind fun _ => .ret _

theorem ok_initP {c : Config} (hv : Valid c) {l : List Range} {r : Range} {off : Nat}
    (hs : Slot c l (r.base + off)) (hinit : r.init = if c.cow then some (r.base + c.stride * c.ncpu) else none)
    {f : Nat → Byte} {n : Nat} (hn : n ≤ c.itemLen) {m : Mem} (hwf : m.WF) (hsh : IShape c (r.base + off) m) :
    Ok c.pg (ItemBytes c (r.base + off)) (Rely c (· = r.base + off))
      (fun _ m' => Filled c (r.base + off) f n c.ncpu m') (initP c r off f n) m :=
  ok_genFill hv hs hinit hn (wr := fun x => writeP x f n) (cmp := fun x => memEqualP x f n)
    (fun x J m h1 h2 h3 h4 => ok_writeP Rely.refl h1 h2 h3 h4)
    (fun x m h => by rw [run_memEqualP] at h; exact memEqual_iff.1 h)
    (fun x hx => RO.memEqualP hx) hwf hsh

/-- What a fill promises. -/
def Content (c : Config) (p : Nat) (fill : Fill) (m : Mem) : Prop :=
  match fill with
  | .plain _ => True
  | .zero => ∀ i, i < c.ncpu → Holds c.pg m (p + c.stride * i) (fun _ => 0#8) c.itemLen
  | .init f n => ∀ i, i < c.ncpu → Holds c.pg m (p + c.stride * i) f n

theorem ok_fillP {c : Config} (hv : Valid c) {l : List Range} {r : Range} {off : Nat}
    (hs : Slot c l (r.base + off)) (hinit : r.init = if c.cow then some (r.base + c.stride * c.ncpu) else none)
    {fill : Fill} (hn : fill.len ≤ c.itemLen) {m : Mem} (hwf : m.WF) (hsh : IShape c (r.base + off) m) :
    Ok c.pg (ItemBytes c (r.base + off)) (Rely c (· = r.base + off))
      (fun _ m' => Content c (r.base + off) fill m') (fillP c r off fill) m := by
  cases fill with
  | plain n => exact fun m' _ => trivial
  | zero => exact (ok_zeroP hv hs hinit hwf hsh).mono fun _ _ h => h.cpus
  | init f n => exact (ok_initP hv hs hinit hn hwf hsh).mono fun _ _ h => h.cpus

/-- After the stores of a free: poison everywhere it must be, and the free list link. -/
structure FreedOK (c : Config) (p head : Nat) (m : Mem) : Prop where
  poison : ∀ v, c.poison = some v → ∀ col o, PoisonByte c col o → m.read c.pg (p + c.stride * col + o) = pat v o
  node : m.readWord c.pg (p + c.stride * c.flCol) = BitVec.ofNat _ head

theorem ok_freeP {c : Config} (hv : Valid c) {l : List Range} (hR : RangesInv c l) {r : Range} (hr : r ∈ l) {k : Nat}
    (hk : k * c.itemLen + c.itemLen ≤ c.stride) {head : Nat} {m : Mem} (hwf : m.WF)
    (hsh : IShape c (r.base + k * c.itemLen) m) :
    Ok c.pg (ItemBytes c (r.base + k * c.itemLen)) (Rely c (· = r.base + k * c.itemLen))
      (fun _ m' => FreedOK c (r.base + k * c.itemLen) head m') (freeP c r (r.base + k * c.itemLen) head) m := by
  have h8 := hv.item_ge
  have hfl := hv.flCol_lt
  have hs : Slot c l (r.base + k * c.itemLen) := ⟨r, hr, k, hk, rfl⟩
  have hmod := slot_base hv hR hr hk
  unfold freeP
  rw [hmod, toFreeList_eq]
  generalize hp : r.base + k * c.itemLen = p at *
  -- what the node stores keep
  have hlink : ∀ m1 : Mem, m1.WF → IShape c p m1 →
      (∀ v, c.poison = some v → ∀ col o, PoisonByte c col o → m1.read c.pg (p + c.stride * col + o) = pat v o) →
      Ok c.pg (ItemBytes c p) (Rely c (· = p)) (fun _ m' => FreedOK c p head m')
        (writeP (p + c.stride * c.flCol) (wordByte (BitVec.ofNat _ head)) wb) m1 := by
    intro m1 w1 s1 h1
    refine (ok_writeP (J := fun j m => m.WF ∧ IShape c p m ∧
      (∀ v, c.poison = some v → ∀ col o, PoisonByte c col o → m.read c.pg (p + c.stride * col + o) = pat v o) ∧
      ∀ o, o < j → m.read c.pg (p + c.stride * c.flCol + o) = wordByte (BitVec.ofNat _ head) o)
      Rely.refl ?_ (itemBytes_col hfl h8) ?_ ⟨w1, s1, h1, fun o ho => absurd ho (Nat.not_lt_zero _)⟩).mono ?_
    · rintro j m m' hj ⟨a1, a2, a3, a4⟩ hR
      refine ⟨hR.wf a1, a2.rely hR, fun v hv col o hb => ?_, fun o ho => ?_⟩
      · rw [hR.rd p rfl _ _ hb.col_lt hb.2.1]; exact a3 v hv col o hb
      · rw [hR.rd p rfl _ _ hfl (by omega)]; exact a4 o ho
    · rintro j m hj ⟨a1, a2, a3, a4⟩
      have hf : Frame c.pg _ m (m.write c.pg (p + c.stride * c.flCol + j) (wordByte (BitVec.ofNat _ head) j)) :=
        Frame.write hv.pg_pos
      refine ⟨hf.wf a1, a2.frame hf, fun v hpv col o hb => ?_, fun o ho => ?_⟩
      · rw [write_keep hv hs a1 a2 (by omega) hb.col_lt hb.2.1 ?_ ?_]
        · exact a3 v hpv col o hb
        · rcases hb.2.2 with hrob | h8o | ⟨hcz, hc0⟩
          · have := flCol_robust hrob
            have := hb.1
            left; omega
          · right; omega
          · cases hrob : c.robust with
            | true => have := flCol_robust hrob; have := hb.1; left; omega
            | false => rw [flCol_zero hrob hcz]; left; exact hc0
        · intro hfc hcow
          rcases hb.2.2 with hrob | h8o | ⟨hcz, _⟩
          · have := flCol_robust hrob
            rw [if_pos hcow] at this
            omega
          · right; omega
          · rw [hcow] at hcz; cases hcz
      · by_cases e : o = j
        · subst e
          exact read_write_self _ _ _ _
        · rw [write_keep hv hs a1 a2 (by omega) hfl (by omega) (Or.inr e) (by omega)]
          exact a4 o (by omega)
    · rintro _ m' ⟨_, _, a3, a4⟩
      exact ⟨a3, readWord_eq_iff.2 a4⟩
  refine Ok.bind Rely.refl ?_
  cases hpo : c.poison with
  | none => exact fun m' h' => hlink m' (h'.wf hwf) (hsh.rely h') (fun v hv => by rw [hpo] at hv; cases hv)
  | some v =>
    have hs' : Slot c l (r.base + k * c.itemLen) := by rw [hp]; exact hs
    have := ok_poisonItemP hv hs' (hR.each r hr).init_eq v hwf (by rw [hp]; exact hsh)
    rw [hp] at this
    refine this.mono fun _ m' h' => hlink m' h'.wf h'.sh fun v' hv' col o hb => ?_
    rw [hpo] at hv'
    cases hv'
    have hcol := hb.1
    by_cases hlt : col < c.ncpu
    · exact h'.cpus col hlt o hb.2.1
    · cases hc : c.cow with
      | false => rw [hc] at hcol; simp at hcol; omega
      | true =>
        rw [hc] at hcol
        simp at hcol
        have : col = c.ncpu := by omega
        rw [this]
        exact h'.ini hc o hb.2.1

end Verif.PoolConc
