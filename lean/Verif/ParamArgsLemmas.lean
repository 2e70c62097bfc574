import Verif.TapSh
import Verif.SmpProps
/-
Lemmas about the option loop of param_test.
-/

namespace Verif.Param

open Verif.Smp (Str strtol decimal)

/-! ### Specification: a command line read from the left -/

/-- The letter of an option word: `-x…`. -/
def letter : Str → Option UInt8
  | [] => none
  | c0 :: rest => if c0 = 45 then some (rest.headD 0) else none

/-- What an option letter asks for. -/
inductive Act
  | flag (f : Opts → Opts)
  | val (f : Opts → Str → Option Opts)
  | stop (e : End)

def act (avail : Bool) (c : UInt8) : Act :=
  if 49 ≤ c ∧ c ≤ 57 then .val fun o v => some { o with loop := upd o.loop (c.toNat - 48) (atoi32 v) }
  else if c = 109 then .val fun o v => if atoi32 v < 0 then none else some { o with modulo := atoi32 v }
  else if c = 115 then .val fun o v => if atoi32 v < 0 then none else some { o with sleep := atoi32 v }
  else if c = 121 then .flag fun o => { o with yield := true }
  else if c = 107 then .flag fun o => { o with signal := true }
  else if c = 100 then .flag fun o => { o with disableRseq := true }
  else if c = 68 then .val fun o v => if atoi32 v < 0 then none else some { o with disableMod := atoi32 v }
  else if c = 116 then .val fun o v => if atoi32 v < 0 then none else some { o with threads := atoi32 v }
  else if c = 114 then .val fun o v => if atoll v < 0 then none else some { o with reps := atoll v }
  else if c = 104 then .stop .exit0
  else if c = 84 then .val fun o v =>
    if v.headD 0 ∈ ([115, 108, 105, 98, 109, 114] : List UInt8) then some { o with test := v.headD 0 } else none
  else if c = 118 then .flag fun o => { o with verbose := true }
  else if c = 77 then .flag fun o => { o with release := true }
  else if c = 99 then .stop (if avail then .exit0 else .exit2)
  else .stop .error

/-- Words are read one by one; words that are no options are passed over; an option with a value takes the next word
as it is. -/
def eat (avail : Bool) (o : Opts) : List Str → End
  | [] => .run o
  | a :: rest =>
    match letter a with
    | none => eat avail o rest
    | some c =>
      match act avail c with
      | .stop e => e
      | .flag f => eat avail (f o) rest
      | .val f =>
        match rest with
        | [] => .error
        | v :: rest =>
          match f o v with
          | none => .error
          | some o => eat avail o rest

/-! ### The loop does that -/

/-- An option with a value, in terms of the words after it. -/
def valNext (i : Nat) (f : Str → Option Opts) : List Str → Next
  | [] => .stop .error
  | v :: _ =>
    match f v with
    | none => .stop .error
    | some o => .go (i + 2) o

def Act.next (i : Nat) (o : Opts) (rest : List Str) : Act → Next
  | .stop e => .stop e
  | .flag f => .go (i + 1) (f o)
  | .val f => valNext i (f o) rest

/-- What one round does, in terms of the words left. -/
def nextOf (avail : Bool) (i : Nat) (o : Opts) : List Str → Next
  | [] => .stop .ub
  | a :: rest =>
    match letter a with
    | none => .go (i + 1) o
    | some c => (act avail c).next i o rest

theorem byteAt_zero (a : Str) : byteAt a 0 = some (a.headD 0) := by
  cases a with
  | nil => rfl
  | cons c a => rfl

theorem byteAt_one (c : UInt8) (a : Str) : byteAt (c :: a) 1 = some (a.headD 0) := by
  cases a with
  | nil => rfl
  | cons d a => rfl

/-- `value` on the words left. -/
theorem value_eq (argv : List Str) (i : Nat) (a : Str) (rest : List Str) (h : argv.drop i = a :: rest)
    (f : Str → Option Opts) :
    value argv i f = valNext i f rest := by
  have hi : i < argv.length := by
    have := congrArg List.length h
    simp only [List.length_drop, List.length_cons] at this
    omega
  have hl : argv.length = i + 1 + rest.length := by
    have := congrArg List.length h
    simp only [List.length_drop, List.length_cons] at this
    omega
  have hg : argv[i + 1]? = rest[0]? := by
    have h2 : (argv.drop i)[1]? = argv[i + 1]? := by rw [List.getElem?_drop]
    rw [← h2, h]
    rfl
  unfold value
  cases rest with
  | nil => rw [if_pos (by simp at hl; omega)]; rfl
  | cons v rest =>
    rw [if_neg (by simp only [List.length_cons] at hl; omega), hg]
    rfl

theorem option_eq (argv : List Str) (avail : Bool) (i : Nat) (o : Opts) (c : UInt8) (a : Str) (rest : List Str)
    (h : argv.drop i = a :: rest) :
    option argv avail i o c = (act avail c).next i o rest := by
  have hv := value_eq argv i a rest h
  have ht : ∀ v, testOf o v = if v.headD 0 ∈ ([115, 108, 105, 98, 109, 114] : List UInt8) then
      some { o with test := v.headD 0 } else none := by
    intro v
    simp only [testOf, byteAt_zero]
    simp only [List.mem_cons, List.not_mem_nil, or_false]
  unfold option act
  by_cases h0 : 49 ≤ c ∧ c ≤ 57
  · rw [if_pos h0, if_pos h0]
    exact hv _
  rw [if_neg h0, if_neg h0]
  by_cases h1 : c = 109
  · rw [if_pos h1, if_pos h1]
    exact hv _
  rw [if_neg h1, if_neg h1]
  by_cases h2 : c = 115
  · rw [if_pos h2, if_pos h2]
    exact hv _
  rw [if_neg h2, if_neg h2]
  by_cases h3 : c = 121
  · rw [if_pos h3, if_pos h3]
    rfl
  rw [if_neg h3, if_neg h3]
  by_cases h4 : c = 107
  · rw [if_pos h4, if_pos h4]
    rfl
  rw [if_neg h4, if_neg h4]
  by_cases h5 : c = 100
  · rw [if_pos h5, if_pos h5]
    rfl
  rw [if_neg h5, if_neg h5]
  by_cases h6 : c = 68
  · rw [if_pos h6, if_pos h6]
    exact hv _
  rw [if_neg h6, if_neg h6]
  by_cases h7 : c = 116
  · rw [if_pos h7, if_pos h7]
    exact hv _
  rw [if_neg h7, if_neg h7]
  by_cases h8 : c = 114
  · rw [if_pos h8, if_pos h8]
    exact hv _
  rw [if_neg h8, if_neg h8]
  by_cases h9 : c = 104
  · rw [if_pos h9, if_pos h9]
    rfl
  rw [if_neg h9, if_neg h9]
  by_cases h10 : c = 84
  · rw [if_pos h10, if_pos h10]
    rw [hv, funext ht]
    rfl
  rw [if_neg h10, if_neg h10]
  by_cases h11 : c = 118
  · rw [if_pos h11, if_pos h11]
    rfl
  rw [if_neg h11, if_neg h11]
  by_cases h12 : c = 77
  · rw [if_pos h12, if_pos h12]
    rfl
  rw [if_neg h12, if_neg h12]
  by_cases h13 : c = 99
  · rw [if_pos h13, if_pos h13]
    rfl
  rw [if_neg h13, if_neg h13]
  rfl

theorem round_eq (argv : List Str) (avail : Bool) (i : Nat) (o : Opts) (hi : i < argv.length) :
    round argv avail i o = nextOf avail i o (argv.drop i) := by
  have hd : argv.drop i = argv[i] :: argv.drop (i + 1) := List.drop_eq_getElem_cons hi
  have hg : argv[i]? = some argv[i] := List.getElem?_eq_getElem hi
  unfold round
  rw [hg]
  generalize argv[i] = a at hd
  rw [hd]
  cases a with
  | nil => rfl
  | cons c0 a =>
    dsimp only
    rw [byteAt_zero, nextOf, letter]
    show (if c0 ≠ 45 then Next.go (i + 1) o
      else
        match byteAt (c0 :: a) 1 with
        | none => Next.stop .ub
        | some c => option argv avail i o c) = _
    by_cases h0 : c0 = 45
    · rw [if_neg (fun h => h h0), if_pos h0, byteAt_one]
      exact option_eq argv avail i o _ _ _ hd
    · rw [if_pos h0, if_neg h0]

theorem loop_eq (argv : List Str) (avail : Bool) (fuel i : Nat) (o : Opts) (hf : argv.length ≤ i + fuel) :
    loop argv avail fuel i o = eat avail o (argv.drop i) := by
  induction fuel generalizing i o with
  | zero =>
    rw [List.drop_eq_nil_of_le (by omega)]
    rfl
  | succ fuel ih =>
    unfold loop
    by_cases hi : argv.length ≤ i
    · rw [if_pos hi, List.drop_eq_nil_of_le hi]
      rfl
    · rw [if_neg hi, round_eq argv avail i o (by omega)]
      have hd : argv.drop i = argv[i] :: argv.drop (i + 1) := List.drop_eq_getElem_cons (by omega)
      have hd2 : ∀ v rest, argv.drop (i + 1) = v :: rest → rest = argv.drop (i + 2) := by
        intro v rest h
        have := congrArg (List.drop 1) h
        rw [List.drop_drop] at this
        simpa using this.symm
      rw [hd]
      generalize argv[i] = a
      rw [nextOf, eat]
      cases letter a with
      | none => exact ih (i + 1) o (by omega)
      | some c =>
        dsimp only
        cases act avail c with
        | stop e => rfl
        | flag f => exact ih (i + 1) (f o) (by omega)
        | val f =>
          dsimp only
          cases hr : argv.drop (i + 1) with
          | nil => rfl
          | cons v rest =>
            show (match valNext i (f o) (v :: rest) with
              | .stop e => e
              | .go i' o' => loop argv avail fuel i' o') = _
            dsimp only [valNext]
            cases f o v with
            | none => rfl
            | some o' =>
              dsimp only
              rw [hd2 v rest hr]
              exact ih (i + 2) o' (by omega)

theorem parse_eq (name : Str) (args : List Str) (avail : Bool) : parse (name :: args) avail = eat avail {} args := by
  unfold parse
  rw [loop_eq _ avail _ 1 {} (by simp)]
  rfl

/-! ### Reading in parts -/

theorem act_stop {avail : Bool} {c : UInt8} {e : End} (h : act avail c = .stop e) :
    e = .exit0 ∨ e = .exit2 ∨ e = .error := by
  unfold act at h
  by_cases h0 : 49 ≤ c ∧ c ≤ 57
  · rw [if_pos h0] at h
    cases h
  rw [if_neg h0] at h
  by_cases h1 : c = 109
  · rw [if_pos h1] at h
    cases h
  rw [if_neg h1] at h
  by_cases h2 : c = 115
  · rw [if_pos h2] at h
    cases h
  rw [if_neg h2] at h
  by_cases h3 : c = 121
  · rw [if_pos h3] at h
    cases h
  rw [if_neg h3] at h
  by_cases h4 : c = 107
  · rw [if_pos h4] at h
    cases h
  rw [if_neg h4] at h
  by_cases h5 : c = 100
  · rw [if_pos h5] at h
    cases h
  rw [if_neg h5] at h
  by_cases h6 : c = 68
  · rw [if_pos h6] at h
    cases h
  rw [if_neg h6] at h
  by_cases h7 : c = 116
  · rw [if_pos h7] at h
    cases h
  rw [if_neg h7] at h
  by_cases h8 : c = 114
  · rw [if_pos h8] at h
    cases h
  rw [if_neg h8] at h
  by_cases h9 : c = 104
  · rw [if_pos h9] at h
    cases h; exact .inl rfl
  rw [if_neg h9] at h
  by_cases h10 : c = 84
  · rw [if_pos h10] at h
    cases h
  rw [if_neg h10] at h
  by_cases h11 : c = 118
  · rw [if_pos h11] at h
    cases h
  rw [if_neg h11] at h
  by_cases h12 : c = 77
  · rw [if_pos h12] at h
    cases h
  rw [if_neg h12] at h
  by_cases h13 : c = 99
  · rw [if_pos h13] at h
    cases avail <;> cases h
    · exact .inr (.inl rfl)
    · exact .inl rfl
  rw [if_neg h13] at h
  cases h
  exact .inr (.inr rfl)

/-- If the words `xs` alone lead to the options `o'`, then reading goes on from there. -/
theorem eat_append (avail : Bool) (xs ys : List Str) (o o' : Opts) (h : eat avail o xs = .run o') :
    eat avail o (xs ++ ys) = eat avail o' ys := by
  induction hn : xs.length using Nat.strongRecOn generalizing xs o with
  | _ n ih =>
    cases xs with
    | nil =>
      simp only [eat, End.run.injEq] at h
      rw [h]
      rfl
    | cons a rest =>
      rw [List.length_cons] at hn
      rw [List.cons_append, eat]
      rw [eat] at h
      cases hl : letter a with
      | none =>
        rw [hl] at h
        exact ih rest.length (by omega) rest o h rfl
      | some c =>
        rw [hl] at h
        dsimp only at h ⊢
        cases ha : act avail c with
        | stop e =>
          rw [ha] at h
          dsimp only at h
          subst h
          rcases act_stop ha with h | h | h <;> cases h
        | flag f =>
          rw [ha] at h
          exact ih rest.length (by omega) rest (f o) h rfl
        | val f =>
          rw [ha] at h
          dsimp only at h ⊢
          cases rest with
          | nil => cases h
          | cons v rest =>
            dsimp only [List.cons_append] at h ⊢
            cases hf : f o v with
            | none => rw [hf] at h; cases h
            | some o'' =>
              rw [hf] at h
              rw [List.length_cons] at hn
              exact ih rest.length (by omega) rest o'' h rfl

/-- Options that hold before and are kept by every word hold at the end; and the end is never outside the words. -/
theorem eat_inv (avail : Bool) (P : Opts → Prop)
    (hflag : ∀ c f o, act avail c = .flag f → P o → P (f o))
    (hval : ∀ c f o v o', act avail c = .val f → P o → f o v = some o' → P o')
    (xs : List Str) (o : Opts) (ho : P o) :
    eat avail o xs ≠ .ub ∧ ∀ o', eat avail o xs = .run o' → P o' := by
  induction hn : xs.length using Nat.strongRecOn generalizing xs o with
  | _ n ih =>
    cases xs with
    | nil =>
      refine ⟨fun h => by simp [eat] at h, fun o' h => ?_⟩
      simp only [eat, End.run.injEq] at h
      exact h ▸ ho
    | cons a rest =>
      rw [List.length_cons] at hn
      rw [eat]
      cases hl : letter a with
      | none => exact ih rest.length (by omega) rest o ho rfl
      | some c =>
        dsimp only
        cases ha : act avail c with
        | stop e =>
          dsimp only
          rcases act_stop ha with h | h | h <;> subst h <;> exact ⟨(fun h => by cases h), fun o' h => by cases h⟩
        | flag f => exact ih rest.length (by omega) rest (f o) (hflag c f o ha ho) rfl
        | val f =>
          dsimp only
          cases rest with
          | nil => exact ⟨(fun h => by cases h), fun o' h => by cases h⟩
          | cons v rest =>
            dsimp only
            rw [List.length_cons] at hn
            cases hf : f o v with
            | none => exact ⟨(fun h => by cases h), fun o' h => by cases h⟩
            | some o'' => exact ih rest.length (by omega) rest o'' (hval c f o v o'' ha ho hf) rfl

end Verif.Param
