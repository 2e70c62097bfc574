import Verif.TapMempoolProps
import Verif.MempoolForkTestsProps
/-
C113, second part: the pools asked for by the tests that `main` of tests/mempool_test.c runs.
-/
namespace Verif.Mempool
open Verif Verif.Mem

section
variable [Abi]

/-- The numbers of the two policies (mempool.h:524-549). -/
def policyNr (cow : Bool) : Nat := if cow then 0 else 1

/-- The attributes of a fill test run by `main`. -/
def runAttr (r : Tap.FillRun) : Attr := fillAttr (policyNr r.cow) r.ranges (BitVec.ofNat _ r.len)

/-- An order for `struct test_data` (five words) is at most 6. -/
theorem testData_order {k : Nat} (h : IsRounded (testDataLen).toNat k) : 5 * wb ≤ 2 ^ k ∧ 2 ^ k ≤ 64 := by
  rw [testDataLen_toNat.1] at h
  unfold IsRounded Bits.IsLeastOrder at h
  obtain ⟨h1, h2⟩ := h
  have hmax : max (5 * wb) wb = 5 * wb := by omega
  rw [hmax] at h1 h2
  refine ⟨h1, ?_⟩
  have hw : 5 * wb ≤ 2 ^ 6 := by rcases Abi.wb_eq with h | h <;> rw [h] <;> omega
  have := h2 6 hw
  exact (Nat.pow_le_pow_right (by omega) this : 2 ^ k ≤ 2 ^ 6)

/-- C113: the library accepts the arguments of every fill test (pages of at least 64 bytes), and the pool is the one the test
wants: so creation can fail only for lack of resources. -/
theorem fill_accepted (j : Nat) (hj : 6 ≤ j) (r : Tap.FillRun) (hr : r ∈ Tap.fillRuns (2 ^ j)) (detected : Nat)
    (callocOk nameOk : Bool) (env : RangeEnv) (m : Mem) :
    (create (some (runAttr r)) testDataLen (2 ^ j) detected callocOk nameOk env m = .null .ENOMEM ∨
      ∃ c s, create (some (runAttr r)) testDataLen (2 ^ j) detected callocOk nameOk env m = .pool c s) ∧
    ∀ c s, create (some (runAttr r)) testDataLen (2 ^ j) detected callocOk nameOk env m = .pool c s →
      c.stride = r.len ∧ c.ncpu = 1024 ∧ c.maxRanges = r.ranges ∧ c.cow = r.cow ∧ c.robust = true ∧ 5 * wb ≤ c.itemLen := by
  obtain ⟨⟨n, hn⟩, hle, -⟩ := Tap.fill_strides j r hr
  have hlt : r.len < 2 ^ 32 := by
    rcases (Tap.fill_runs _ (Nat.two_pow_pos j) r).1 hr with ⟨_, h, _⟩ | ⟨_, h, _⟩ <;> omega
  have h64 : 64 ≤ 2 ^ j := (Nat.pow_le_pow_right (by omega) hj : 2 ^ 6 ≤ 2 ^ j)
  have hask : askedStride (runAttr r) = r.len := by
    unfold askedStride runAttr fillAttr
    dsimp only
    rw [ofNat_toNat_lt hlt, if_neg (by omega)]
  obtain ⟨k, hk, hbad, hub, hok, -⟩ := create_validates (some (runAttr r)) testDataLen testDataLen_toNat.2 (2 ^ j) detected callocOk nameOk env m
  obtain ⟨hk1, hk2⟩ := testData_order hk
  have hgood : ¬ BadArgs ((some (runAttr r)).getD {}) k (2 ^ j) detected := by
    show ¬ BadArgs (runAttr r) k (2 ^ j) detected
    rintro (⟨h0, h1⟩ | ⟨_, h | ⟨h, _⟩⟩ | h | h | h)
    · unfold runAttr fillAttr policyNr at h0 h1
      dsimp only at h0 h1
      cases hc : r.cow <;> rw [hc] at h0 h1
      · exact h1 rfl
      · exact h0 rfl
    · exact absurd (show (1024 : Int) < 0 from h) (by omega)
    · exact absurd (show (1024 : Int) = 0 from h) (by omega)
    · exact h ⟨n, by rw [hask]; exact hn⟩
    · rw [hask] at h; omega
    · rw [hask] at h; omega
  constructor
  · generalize hC : create (some (runAttr r)) testDataLen (2 ^ j) detected callocOk nameOk env m = C at hbad hub ⊢
    cases C with
    | null e =>
      cases e
      all_goals first
        | exact Or.inl rfl
        | exact absurd (hbad.1 rfl) hgood
        | (exfalso; unfold create at hC; repeat' split at hC
           all_goals cases hC)
    | ub => exact absurd rfl hub
    | pool c s => exact Or.inr ⟨c, s, rfl⟩
  · intro c s h
    have hc : Created (runAttr r) k (2 ^ j) detected c := (hok c s h).1
    refine ⟨hc.stride.trans hask, hc.ncpu, hc.maxRanges, ?_, hc.robust, ?_⟩
    · have := hc.cow
      cases hrc : r.cow
      · cases hcc : c.cow
        · rfl
        · exact absurd ((this.1 hcc).1) (by unfold runAttr fillAttr policyNr; rw [hrc]; dsimp only; decide)
      · exact this.2 ⟨by unfold runAttr fillAttr policyNr; rw [hrc]; rfl, rfl⟩
    · unfold Config.itemLen
      rw [hc.order]; exact hk1

/-- C113, finding F55: with pages of more than 64 kB the pool of the robust and fork checks cannot be made, as its stride is 64 kB. -/
theorem big_pages_refuse (policy pg : Nat) (hpg : 65536 < pg) (detected : Nat) (callocOk nameOk : Bool) (env : RangeEnv) (m : Mem) :
    create (some (testPoolAttr policy)) testDataLen pg detected callocOk nameOk env m = .null .EINVAL := by
  obtain ⟨k, -, hbad, -⟩ := create_validates (some (testPoolAttr policy)) testDataLen testDataLen_toNat.2 pg detected callocOk nameOk env m
  refine hbad.2 (Or.inr (Or.inr (Or.inr (Or.inl ?_))))
  have : askedStride (testPoolAttr policy) = 65536 := by
    unfold askedStride testPoolAttr
    dsimp only
    rw [ofNat_toNat_lt (by omega), if_neg (by omega)]
  show askedStride (testPoolAttr policy) < pg
  omega

/-- C113, finding F55: so there the robust checks fail and the fork check ends the program, which the driver reports as a
failure - for a library that is right. -/
theorem big_pages_fail (y : Sys) (hw : y.waitOk = true) (policy pg : Nat) (hpg : 65536 < pg) (detected : Nat) (callocOk nameOk : Bool)
    (env : RangeEnv) (m : Mem) (test : Config → State → Outcome Unit) (ok : Nat → Bool) :
    let P := create (some (testPoolAttr policy)) testDataLen pg detected callocOk nameOk env m
    runRobustTest y P test = false ∧ runForkDestroy y P ok = none ∧
    ∀ bs : List Bool, bs.length < 2 ^ 31 → ∃ s, Tap.calls (.noPlan :: Tap.oks bs) {} = .run s ∧ ¬ Tap.Success (Tap.verdict s.out 1) := by
  dsimp only
  rw [big_pages_refuse policy pg hpg]
  refine ⟨?_, rfl, fun bs h => Tap.mempool_test_early bs h 1⟩
  cases hr : runRobustTest y (.null .EINVAL) test with
  | false => rfl
  | true =>
    obtain ⟨_, c, s, w, e, _⟩ := (robust_check_iff y hw _ (by intro h; cases h) test (by intro c s h; cases h)).1 hr
    cases e

end

section
attribute [local instance] le64

/-- A fill test of `main` whose pool is created (4 kB pages). -/
example : (⟨true, 4, 8192⟩ : Tap.FillRun) ∈ Tap.fillRuns (2 ^ 12) ∧
    ∃ c s, create (some (runAttr ⟨true, 4, 8192⟩)) testDataLen (2 ^ 12) 8 true true { base := some 0x100000 } ⟨fun _ => 0#8, fun _ => none⟩ = .pool c s := by
  refine ⟨(Tap.fill_runs _ (by omega) _).2 (Or.inl ⟨⟨2, by omega, rfl⟩, by simp, 1, rfl⟩), ?_⟩
  obtain ⟨_, _, c, s, _, _, _, _, _, h⟩ := ex_test_pools 0 (Or.inl rfl)
  exact ⟨c, s, h⟩

/-- Pages of 256 kB (some PowerPC and Hexagon configurations): the pool of the robust checks is refused, those of the fill tests are not. -/
example : create (some (testPoolAttr 0)) testDataLen (2 ^ 18) 8 true true { base := some 0x100000 } ⟨fun _ => 0#8, fun _ => none⟩ = .null .EINVAL ∧
    (⟨true, 1, 262144⟩ : Tap.FillRun) ∈ Tap.fillRuns (2 ^ 18) :=
  ⟨big_pages_refuse 0 _ (by omega) _ _ _ _ _, (Tap.fill_runs _ (by omega) _).2 (Or.inr ⟨rfl, by simp, 0, rfl⟩)⟩

end

end Verif.Mempool
