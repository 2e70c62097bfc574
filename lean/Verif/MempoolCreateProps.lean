import Verif.MempoolCreate
import Verif.MempoolDestroy
import Verif.BitsProps
/-
Property theorems for pool creation (C17) and attribute setters (C25).
-/
namespace Verif.Mempool
open Verif Verif.Mem Verif.Bits

variable [Abi]

/-- The stride a create call asks for: 64 KiB when left at zero. -/
def askedStride (a : Attr) : Nat := if a.stride.toNat = 0 then 65536 else a.stride.toNat

/-- The arguments are bad: unknown policy, per-CPU pool with a negative CPU count or whose CPU count
cannot be detected, or a stride that is not a power of two, below the page size, or below the item
length `2^k`. -/
def BadArgs (a : Attr) (k pg detected : Nat) : Prop :=
  (a.policy ≠ 0 ∧ a.policy ≠ 1) ∨
  (a.type = .percpu ∧ (a.maxNrCpus < 0 ∨ (a.maxNrCpus = 0 ∧ detected = 0))) ∨
  ¬ (∃ j, askedStride a = 2 ^ j) ∨ askedStride a < pg ∨ askedStride a < 2 ^ k

/-- `2^k` is the least power of two holding `len` bytes and a pointer. -/
def IsRounded (len k : Nat) : Prop := IsLeastOrder (max len wb) k

theorem setWidth64_toNat (x : Word) : (x.setWidth 64).toNat = x.toNat := by
  rw [BitVec.toNat_setWidth]
  apply Nat.mod_eq_of_lt
  have := x.isLt
  have hw : 2 ^ (8 * wb) ≤ 2 ^ 64 := by
    apply Nat.pow_le_pow_right (by omega)
    rcases Abi.wb_eq with h | h <;> rw [h] <;> omega
  omega

theorem bits_eq : 8 * wb = 32 ∨ 8 * wb = 64 := by
  rcases Abi.wb_eq with h | h <;> rw [h] <;> omega

theorem ofNat_toNat_lt {x : Nat} (h : x < 2 ^ 32) : (BitVec.ofNat (8 * wb) x).toNat = x := by
  rw [BitVec.toNat_ofNat]
  apply Nat.mod_eq_of_lt
  have hw : 2 ^ 32 ≤ 2 ^ (8 * wb) := by
    apply Nat.pow_le_pow_right (by omega)
    rcases Abi.wb_eq with h | h <;> rw [h] <;> omega
  omega

theorem roundedOrder {len : Word} (hlen : len.toNat ≤ 2 ^ (8 * wb - 1)) :
    ∃ k : Nat, countOrderUlong (if len.toNat < wb then BitVec.ofNat _ wb else len) = k ∧ IsRounded len.toNat k ∧
      wb ≤ 2 ^ k ∧ k < 8 * wb := by
  have hw8 : wb ≤ 8 ∧ 4 ≤ wb := by rcases Abi.wb_eq with h | h <;> rw [h] <;> omega
  have hval : (if len.toNat < wb then BitVec.ofNat _ wb else len).toNat = max len.toNat wb := by
    split
    · rename_i h; rw [Nat.max_eq_right (by omega)]; exact ofNat_toNat_lt (by omega)
    · rename_i h; rw [Nat.max_eq_left (by omega)]
  have hne : (if len.toNat < wb then BitVec.ofNat _ wb else len) ≠ 0#_ := by
    intro e
    rw [e] at hval
    have : (0#(8 * wb)).toNat = 0 := by simp
    have := Nat.le_max_right len.toNat wb
    omega
  obtain ⟨k, hk, hl, _⟩ := countOrderUlong_isLeast bits_eq _ hne
  rw [hval] at hl
  refine ⟨k, hk, hl, Nat.le_trans (Nat.le_max_right len.toNat wb) hl.1, ?_⟩
  have := hl.2 (8 * wb - 1) (by
      apply Nat.max_le.2
      refine ⟨hlen, ?_⟩
      have : 2 ^ 3 ≤ 2 ^ (8 * wb - 1) := Nat.pow_le_pow_right (by omega) (by omega)
      omega)
  omega

theorem stride_toNat (a : Attr) :
    (if a.stride = 0#_ then 65536#_ else a.stride).toNat = askedStride a := by
  unfold askedStride
  by_cases h : a.stride = 0#_
  · rw [if_pos h, h, if_pos (by simp)]; exact ofNat_toNat_lt (by omega)
  · rw [if_neg h, if_neg]
    intro e
    exact h (BitVec.eq_of_toNat_eq (by rw [e]; simp))

theorem stride_bad_iff (a : Attr) :
    isPow2 ((if a.stride = 0#_ then 65536#_ else a.stride).setWidth 64) = false ↔ ¬ ∃ j, askedStride a = 2 ^ j := by
  have h := isPow2_iff ((if a.stride = 0#_ then 65536#_ else a.stride).setWidth 64)
  rw [setWidth64_toNat, stride_toNat] at h
  have hne : askedStride a ≠ 0 := by
    unfold askedStride; split
    · omega
    · assumption
  constructor
  · intro hf hex
    have := h.2 (Or.inr hex)
    rw [hf] at this; cases this
  · intro hn
    cases hp : isPow2 ((if a.stride = 0#_ then 65536#_ else a.stride).setWidth 64) with
    | false => rfl
    | true =>
      rcases h.1 hp with h0 | hex
      · exact absurd h0 hne
      · exact absurd hex hn

/-- The poison of a robust pool that asks for none: every byte 0x55 with COW_INIT, every byte zero otherwise. -/
def askedPoison (cow : Bool) : Word := joinBytes fun _ => if cow then 0x55#8 else 0#8

/-- The configuration a successful create must produce. -/
structure Created (a : Attr) (k pg detected : Nat) (c : Config) : Prop where
  order : c.order = k
  pg : c.pg = pg
  stride : c.stride = askedStride a
  ncpu : c.ncpu = match a.type with
    | .global => 1
    | .percpu => if a.maxNrCpus = 0 then detected else a.maxNrCpus.toNat
  cow : c.cow = true ↔ a.policy = 0 ∧ a.type = .percpu
  robust : c.robust = a.robustSet
  poison : c.poison = if a.poisonSet then some a.poison
    else if a.robustSet then some (askedPoison c.cow) else none
  maxRanges : c.maxRanges = a.maxRanges
  initSet : c.initSet = a.initSet
  global : c.global = true ↔ a.type = .global

theorem defaultPoison_eq (cow : Bool) : defaultPoison cow = askedPoison cow := by
  rename_i inst
  obtain ⟨w, hw, be⟩ := inst
  rcases hw with rfl | rfl <;> cases be <;> cases cow <;> decide

theorem validateTail_spec (a : Attr) (k pg : Nat) (cow : Bool) (n : Nat) (g : Bool) :
    (validateTail a k pg cow n g = .einval ∧ (¬ (∃ j, askedStride a = 2 ^ j) ∨ askedStride a < pg ∨ askedStride a < 2 ^ k)) ∨
    (¬ (¬ (∃ j, askedStride a = 2 ^ j) ∨ askedStride a < pg ∨ askedStride a < 2 ^ k) ∧
      validateTail a k pg cow n g =
        .cfg { pg := pg, order := k, stride := askedStride a, ncpu := n, cow := cow, robust := a.robustSet,
               poison := if a.poisonSet then some a.poison
                 else if a.robustSet then some (askedPoison cow) else none
               maxRanges := a.maxRanges, initSet := a.initSet, global := g }) := by
  have hbad := stride_bad_iff a
  unfold validateTail
  dsimp only
  rw [stride_toNat]
  by_cases hb : 2 ^ k > askedStride a ∨ askedStride a < pg ∨
      isPow2 ((if a.stride = 0#_ then 65536#_ else a.stride).setWidth 64) = false
  · left
    rw [if_pos hb]
    refine ⟨rfl, ?_⟩
    rcases hb with h | h | h
    · exact Or.inr (Or.inr h)
    · exact Or.inr (Or.inl h)
    · exact Or.inl (hbad.1 h)
  · right
    rw [if_neg hb]
    refine ⟨?_, ?_⟩
    · rintro (h | h | h)
      · exact hb (Or.inr (Or.inr (hbad.2 h)))
      · exact hb (Or.inr (Or.inl h))
      · exact hb (Or.inl h)
    · rw [defaultPoison_eq]
      cases a.robustSet <;> cases a.poisonSet <;> rfl

theorem validate_spec (attr : Option Attr) (len : Word) (hlen : len.toNat ≤ 2 ^ (8 * wb - 1)) (pg detected : Nat) :
    ∃ k, IsRounded len.toNat k ∧ wb ≤ 2 ^ k ∧
      ((validate attr len pg detected = .einval ∧ BadArgs (attr.getD {}) k pg detected) ∨
       (¬ BadArgs (attr.getD {}) k pg detected ∧
        ∃ c, validate attr len pg detected = .cfg c ∧ Created (attr.getD {}) k pg detected c)) := by
  obtain ⟨k, hk, hr, h3, h64⟩ := roundedOrder hlen
  refine ⟨k, hr, h3, ?_⟩
  generalize ha : attr.getD {} = a
  unfold validate BadArgs
  dsimp only
  rw [hk, if_neg (by omega), if_neg (by omega), ha, Int.toNat_natCast]
  by_cases hpol : a.policy ≠ 0 ∧ a.policy ≠ 1
  · left; rw [if_pos hpol]; exact ⟨rfl, Or.inl hpol⟩
  rw [if_neg hpol]
  cases ht : a.type with
  | global =>
    rcases validateTail_spec a k pg false 1 true with ⟨e, h⟩ | ⟨h, e⟩
    · left; exact ⟨e, Or.inr (Or.inr h)⟩
    · right
      refine ⟨?_, _, e, ?_⟩
      · rintro (h' | ⟨h', _⟩ | h')
        · exact hpol h'
        · cases h'
        · exact h h'
      · exact { order := rfl, pg := rfl, stride := rfl, ncpu := by rw [ht], cow := by simp [ht], robust := rfl
                poison := rfl, maxRanges := rfl, initSet := rfl, global := by simp [ht] }
  | percpu =>
    dsimp only
    by_cases hneg : a.maxNrCpus < 0
    · left; rw [if_pos hneg]; exact ⟨rfl, Or.inr (Or.inl ⟨rfl, Or.inl hneg⟩)⟩
    rw [if_neg hneg]
    by_cases hz : a.maxNrCpus = 0
    · rw [if_pos hz]
      by_cases hd : detected = 0
      · left; rw [if_pos hd]; exact ⟨rfl, Or.inr (Or.inl ⟨rfl, Or.inr ⟨hz, hd⟩⟩)⟩
      rw [if_neg hd]
      rcases validateTail_spec a k pg (a.policy == 0) detected false with ⟨e, h⟩ | ⟨h, e⟩
      · left; exact ⟨e, Or.inr (Or.inr h)⟩
      · right
        refine ⟨?_, _, e, ?_⟩
        · rintro (h' | ⟨_, h' | h'⟩ | h')
          · exact hpol h'
          · exact hneg h'
          · exact hd h'.2
          · exact h h'
        · exact { order := rfl, pg := rfl, stride := rfl, ncpu := by rw [ht]; simp [hz], cow := by simp [ht], robust := rfl
                  poison := rfl, maxRanges := rfl, initSet := rfl, global := by simp [ht] }
    · rw [if_neg hz]
      rcases validateTail_spec a k pg (a.policy == 0) a.maxNrCpus.toNat false with ⟨e, h⟩ | ⟨h, e⟩
      · left; exact ⟨e, Or.inr (Or.inr h)⟩
      · right
        refine ⟨?_, _, e, ?_⟩
        · rintro (h' | ⟨_, h' | h'⟩ | h')
          · exact hpol h'
          · exact hneg h'
          · exact hz h'.1
          · exact h h'
        · exact { order := rfl, pg := rfl, stride := rfl, ncpu := by rw [ht]; simp [hz], cow := by simp [ht], robust := rfl
                  poison := rfl, maxRanges := rfl, initSet := rfl, global := by simp [ht] }

/-- C17: create fails with EINVAL exactly for bad arguments; otherwise only for lack of resources (ENOMEM), and
a created pool has the documented parameters. (Item lengths above half the address space shift by the word width: DESIGN F7.) -/
theorem create_validates (attr : Option Attr) (len : Word) (hlen : len.toNat ≤ 2 ^ (8 * wb - 1)) (pg detected : Nat)
    (callocOk nameOk : Bool) (env : RangeEnv) (m : Mem) :
    ∃ k, IsRounded len.toNat k ∧
      (create attr len pg detected callocOk nameOk env m = .null .EINVAL ↔ BadArgs (attr.getD {}) k pg detected) ∧
      (create attr len pg detected callocOk nameOk env m ≠ .ub) ∧
      (∀ c s, create attr len pg detected callocOk nameOk env m = .pool c s →
        Created (attr.getD {}) k pg detected c ∧ s.pool.head = 0 ∧ s.pool.ranges.length = 1) ∧
      (create attr len pg detected callocOk nameOk env m = .null .ENOMEM →
        callocOk = false ∨ nameOk = false ∨
        ∃ c, Created (attr.getD {}) k pg detected c ∧ (rangeCreate c ⟨[], 0, 0⟩ m env).2 = none) := by
  obtain ⟨k, hr, _, h⟩ := validate_spec attr len hlen pg detected
  refine ⟨k, hr, ?_⟩
  unfold create
  rcases h with ⟨e, hbad⟩ | ⟨hgood, c, e, hc⟩
  · rw [e]
    refine ⟨⟨fun _ => hbad, fun _ => rfl⟩, ?_, ?_, ?_⟩
    · intro h; cases h
    · intro c s h; cases h
    · intro h; cases h
  · rw [e]
    dsimp only
    cases callocOk
    · refine ⟨⟨(fun h => by cases h), fun h => absurd h hgood⟩, (fun h => by cases h), (fun c s h => by cases h), fun _ => Or.inl rfl⟩
    · simp only [Bool.not_true, Bool.false_eq_true, if_false]
      cases hrc : (rangeCreate c ⟨[], 0, 0⟩ m env).2 with
      | none =>
        exact ⟨⟨(fun h => by cases h), fun h => absurd h hgood⟩, (fun h => by cases h), (fun c s h => by cases h),
          fun _ => Or.inr (Or.inr ⟨c, hc, hrc⟩)⟩
      | some rm =>
        obtain ⟨r, m'⟩ := rm
        dsimp only
        cases nameOk
        · exact ⟨⟨(fun h => by cases h), fun h => absurd h hgood⟩, (fun h => by cases h), (fun c s h => by cases h),
            fun _ => Or.inr (Or.inl rfl)⟩
        · refine ⟨⟨(fun h => by cases h), fun h => absurd h hgood⟩, (fun h => by cases h), ?_, fun h => by cases h⟩
          intro c' s' h
          cases h
          exact ⟨hc, rfl, rfl⟩

/-- Every pool that create returns satisfies the validity conditions all other pool theorems assume, and
its initial state is the start of the histories they quantify over. -/
theorem create_reach (attr : Option Attr) (len : Word) (hlen : len.toNat ≤ 2 ^ (8 * wb - 1)) (pg detected : Nat)
    (hpg : ∃ k, pg = 2 ^ k) (callocOk nameOk : Bool) (env : RangeEnv) (m : Mem) (hwf : m.WF)
    (c : Config) (s : State) (henv : EnvOK c [] m env)
    (h : create attr len pg detected callocOk nameOk env m = .pool c s) :
    Valid c ∧ ∀ uaf, Reach c uaf ⟨s, [], []⟩ := by
  obtain ⟨k, hr, h3, hv⟩ := validate_spec attr len hlen pg detected
  unfold create at h
  rcases hv with ⟨e, _⟩ | ⟨hgood, c', e, hc⟩
  · rw [e] at h; cases h
  · rw [e] at h
    dsimp only at h
    split at h
    · cases h
    split at h
    · cases h
    · rename_i r m' hrc
      split at h
      · cases h
        refine ⟨?_, fun uaf => Reach.create m env r m' hwf henv hrc⟩
        generalize attr.getD {} = a at *
        have hs : (∃ j, askedStride a = 2 ^ j) ∧ pg ≤ askedStride a ∧ 2 ^ k ≤ askedStride a := by
          unfold BadArgs at hgood
          refine ⟨Classical.byContradiction fun h => hgood (Or.inr (Or.inr (Or.inl h))), ?_, ?_⟩
          · have : ¬ askedStride a < pg := fun h => hgood (Or.inr (Or.inr (Or.inr (Or.inl h))))
            omega
          · have : ¬ askedStride a < 2 ^ k := fun h => hgood (Or.inr (Or.inr (Or.inr (Or.inr h))))
            omega
        exact {
          item_ge := by unfold Config.itemLen; rw [hc.order]; exact h3
          item_le := by unfold Config.itemLen; rw [hc.order, hc.stride]; exact hs.2.2
          stride_pow := by rw [hc.stride]; exact hs.1
          pg_pow := by rw [hc.pg]; exact hpg
          pg_le := by rw [hc.pg, hc.stride]; exact hs.2.1
          ncpu_pos := by
            have := hc.ncpu
            cases ht : a.type with
            | global => rw [ht] at this; dsimp only at this; omega
            | percpu =>
              rw [ht] at this
              dsimp only at this
              have hn : ¬ (a.maxNrCpus < 0 ∨ (a.maxNrCpus = 0 ∧ detected = 0)) :=
                fun h => hgood (Or.inr (Or.inl ⟨ht, h⟩))
              split at this
              · rename_i hz
                have : detected ≠ 0 := fun hd => hn (Or.inr ⟨hz, hd⟩)
                omega
              · have : ¬ a.maxNrCpus < 0 := fun h => hn (Or.inl h)
                omega
          robust_poison := by
            intro hr
            rw [hc.poison]
            rw [hc.robust] at hr
            rw [hr]
            cases a.poisonSet <;> rfl
          global_zero := by
            intro hg
            have hg := hc.global.1 hg
            refine ⟨?_, ?_⟩
            · cases hcow : c.cow with
              | false => rfl
              | true => have := (hc.cow.1 hcow).2; rw [hg] at this; cases this
            · rw [hc.ncpu, hg] }
      · cases h

/-- The cleanup after a failed `strdup` (1022-1023) destroys an untouched pool: it never aborts. -/
theorem create_cleanup {c : Config} (hv : Valid c) (m0 : Mem) (hwf : m0.WF) (env : RangeEnv) (henv : EnvOK c [] m0 env)
    (r : Range) (m : Mem) (h : (rangeCreate c ⟨[], 0, 0⟩ m0 env).2 = some (r, m)) :
    destroy c (fun _ => true) { pool := ⟨[r], 0, 1⟩, mem := m } = .ok ⟨0, [(r.mmapAddr, r.mmapLen)], [], true⟩ := by
  have hi : Inv c false { pool := ⟨[r], 0, 1⟩, mem := m } [] [] := create_inv hv hwf henv h
  rw [destroy_spec hv hi, if_neg (by simp)]
  have hloop := destroyLoop_ok (c := c) (acc := true) (ok := fun _ => true) (fun _ => rfl) (l := [r])
    (not_leaked hi) (k := 0) (done := [])
  rw [if_neg ?_]
  · exact hloop
  · rintro ⟨hr, hp⟩
    obtain ⟨v, hpv⟩ := Option.isSome_iff_exists.1 (hv.robust_poison hr)
    have := (checkPoolPoison_iff hv hi hr hpv).2 (by rintro p (hp | hp) <;> cases hp)
    rw [hp] at this
    cases this

/-- C17, negative side (DESIGN F7): every item length above half the address space reaches `1UL << 64` (`1UL << 32`
with 32-bit words), whatever the other arguments. -/
theorem create_huge_item_ub (attr : Option Attr) (len : Word) (h : 2 ^ (8 * wb - 1) < len.toNat) (pg detected : Nat) :
    validate attr len pg detected = .ub := by
  have hw : 4 ≤ wb ∧ wb ≤ 8 := by rcases Abi.wb_eq with h | h <;> rw [h] <;> omega
  have h3 : 2 ^ 3 ≤ 2 ^ (8 * wb - 1) := Nat.pow_le_pow_right (by omega) (by omega)
  have hne : len ≠ 0#_ := by
    intro e
    rw [e] at h
    simp at h
  obtain ⟨k, hk, hl, _⟩ := countOrderUlong_isLeast bits_eq len hne
  have hk' : ¬ k ≤ 8 * wb - 1 := by
    intro hle
    have := Nat.pow_le_pow_right (n := 2) (by omega) hle
    have := hl.1
    omega
  unfold validate
  dsimp only
  rw [if_neg (show ¬ len.toNat < wb by omega), hk, if_neg (by omega), if_pos (by omega)]

/-! ### C25: attribute setters -/

/-- All attributes other than those listed in the argument flags are equal. -/
structure SameExcept (initG stride robustG rangesG poisonG policyG : Bool) (a b : Attr) : Prop where
  init : initG = false → b.initSet = a.initSet ∧ b.initFn = a.initFn
  shape : stride = false → b.type = a.type ∧ b.stride = a.stride ∧ b.maxNrCpus = a.maxNrCpus
  robust : robustG = false → b.robustSet = a.robustSet
  ranges : rangesG = false → b.maxRanges = a.maxRanges
  poison : poisonG = false → b.poisonSet = a.poisonSet ∧ b.poison = a.poison
  policy : policyG = false → b.policy = a.policy

/-- C25: every setter fails with EINVAL on NULL and otherwise sets exactly its attributes.
(`set_init` also resets the populate policy to COW_INIT: DESIGN F17.) -/
theorem setters_exact (a : Attr) :
    (∀ fn, setInit fn none = .einval ∧ ∃ b, setInit fn (some a) = .ok b ∧ b.initSet = true ∧ b.initFn = fn ∧
      b.policy = 0 ∧ SameExcept true false false false false true a b) ∧
    (setRobust none = .einval ∧ ∃ b, setRobust (some a) = .ok b ∧ b.robustSet = true ∧
      SameExcept false false true false false false a b) ∧
    (∀ s n, setPercpu s n none = .einval ∧ ∃ b, setPercpu s n (some a) = .ok b ∧ b.type = .percpu ∧ b.stride = s ∧
      b.maxNrCpus = n ∧ SameExcept false true false false false false a b) ∧
    (∀ s, setGlobal s none = .einval ∧ ∃ b, setGlobal s (some a) = .ok b ∧ b.type = .global ∧ b.stride = s ∧
      b.maxNrCpus = 0 ∧ SameExcept false true false false false false a b) ∧
    (∀ n, setMaxRanges n none = .einval ∧ ∃ b, setMaxRanges n (some a) = .ok b ∧ b.maxRanges = n ∧
      SameExcept false false false true false false a b) ∧
    (∀ v, setPoison v none = .einval ∧ ∃ b, setPoison v (some a) = .ok b ∧ b.poisonSet = true ∧ b.poison = v ∧
      SameExcept false false false false true false a b) ∧
    (∀ p, setPolicy p none = .einval ∧ ∃ b, setPolicy p (some a) = .ok b ∧ b.policy = p ∧
      SameExcept false false false false false true a b) := by
  refine ⟨fun fn => ⟨rfl, _, rfl, rfl, rfl, rfl, ?_⟩, ⟨rfl, _, rfl, rfl, ?_⟩, fun s n => ⟨rfl, _, rfl, rfl, rfl, rfl, ?_⟩,
    fun s => ⟨rfl, _, rfl, rfl, rfl, rfl, ?_⟩, fun n => ⟨rfl, _, rfl, rfl, ?_⟩, fun v => ⟨rfl, _, rfl, rfl, rfl, ?_⟩,
    fun p => ⟨rfl, _, rfl, rfl, ?_⟩⟩
  all_goals constructor <;> intro h <;> first | exact Bool.noConfusion h | exact ⟨rfl, rfl, rfl⟩ | exact ⟨rfl, rfl⟩ | rfl

/-- A setter call. -/
inductive Setter where
  | init (fn : Nat) | robust | percpu (s : Word) (n : Int) | global (s : Word) | maxRanges (n : Nat)
  | poison (v : Word) | policy (p : Nat)

def Setter.run : Setter → Attr → SetRes
  | .init fn, a => setInit fn (some a)
  | .robust, a => setRobust (some a)
  | .percpu s n, a => setPercpu s n (some a)
  | .global s, a => setGlobal s (some a)
  | .maxRanges n, a => setMaxRanges n (some a)
  | .poison v, a => setPoison v (some a)
  | .policy p, a => setPolicy p (some a)

/-- Which documented attribute group a setter belongs to. -/
def Setter.group : Setter → Nat
  | .init _ => 0 | .robust => 1 | .percpu _ _ => 2 | .global _ => 2 | .maxRanges _ => 3 | .poison _ => 4 | .policy _ => 5

def run2 (x y : Setter) (a : Attr) : SetRes :=
  match x.run a with
  | .einval => .einval
  | .ok b => y.run b

/-- C25: setters of different attribute groups commute, except set_init with set_populate_policy. -/
theorem setters_commute_partial (x y : Setter) (hg : x.group ≠ y.group)
    (h1 : ¬ (x.group = 0 ∧ y.group = 5)) (h2 : ¬ (x.group = 5 ∧ y.group = 0)) (a : Attr) :
    run2 x y a = run2 y x a := by
  cases x <;> cases y <;> first | rfl | (exfalso; simp [Setter.group] at hg h1 h2)

/-- C25, negative side (DESIGN F17): set_init silently overrides an earlier populate policy, so the order
of set_init and set_populate_policy matters. -/
theorem setters_do_not_commute :
    ∃ x y a, x.group ≠ y.group ∧ run2 x y a ≠ run2 y x a :=
  ⟨.init 1, .policy 1, {}, by simp [Setter.group], by
    intro e
    have := (SetRes.ok.inj e)
    have := congrArg Attr.policy this
    cases this⟩

end Verif.Mempool

namespace Verif.Mempool

section
attribute [local instance] le64
/-- Non-vacuity: a default 24-byte pool on a 4-CPU machine. -/
example : validate none 24#64 4096 4 =
    .cfg { pg := 4096, order := 5, stride := 65536, ncpu := 4, cow := true, robust := false, poison := none
           maxRanges := 0, initSet := false, global := false } := by decide
/-- A stride below the page size is rejected. -/
example : validate (some { stride := 2048#64 }) 24#64 4096 4 = .einval := by decide
/-- The witness of F7: 2^63 + 1 bytes. -/
example : validate none 0x8000000000000001#64 4096 4 = .ub := by decide
end

section
attribute [local instance] be32
/-- On a 32-bit machine the smallest item has 4 bytes and the default poison 32 bits. -/
example : validate (some { robustSet := true }) 3#32 4096 4 =
    .cfg { pg := 4096, order := 2, stride := 65536, ncpu := 4, cow := true, robust := true, poison := some 0x55555555#32
           maxRanges := 0, initSet := false, global := false } := by decide
example : validate none 0x80000001#32 4096 4 = .ub := by decide
end

end Verif.Mempool
