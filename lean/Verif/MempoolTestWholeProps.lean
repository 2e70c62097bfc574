import Verif.MempoolTestWhole
import Verif.MempoolInstMore
/-
C114: tests/mempool_test.c passes on this library.
-/
namespace Verif.Mempool
open Verif Verif.Mem

section
variable [Abi]

/-- C114: a fill test that gets what it asks for from the system runs to its end, and its 16 checks hold. -/
theorem fill_test_passes (j detected : Nat) (r : Tap.FillRun) (hr : r ∈ Tap.fillRuns (2 ^ j)) (o : Option (List Bool))
    (h : FillTest (2 ^ j) detected r o) : o = some (List.replicate 16 true) := by
  cases h with
  | mk env0 m c s0 s L env e s' env1 env2 hwf henv0 hc hs henv hnr hnull =>
    rw [fillHead_some] at hc ⊢
    dsimp only at hc ⊢
    have hmax : r.ranges ≠ 0 := by have := (Tap.fill_strides j r hr).2.2; omega
    have h := (mempool_fill_test (policyNr r.cow) r.ranges hmax _ (2 ^ j) detected ⟨j, rfl⟩ true true env0 m hwf c s0 henv0 hc s L hs).2.2
      env henv hnr e s' hnull env1 env2
    rw [fillTail_of_rest h]
    rfl

/-- C114: if the attributes cannot be allocated, the six checks on them fail; the test goes on with a pool of default attributes
(64 kB stride, ranges without limit, not robust), not the one it wants. -/
theorem no_attr_noticed (policy max : Nat) (stride : Word) (pg detected : Nat) (nameOk : Bool) (env0 : RangeEnv) (m : Mem) :
    (fillHead policy max stride none).1 = List.replicate 6 false ∧
    ∀ c s, create (fillHead policy max stride none).2 testDataLen pg detected true nameOk env0 m = .pool c s →
      c.stride = 65536 ∧ c.maxRanges = 0 ∧ c.robust = false ∧ c.cow = true ∧ c.ncpu = detected := by
  refine ⟨rfl, fun c s h => ?_⟩
  obtain ⟨k, _, _, _, hok, _⟩ := create_validates none testDataLen testDataLen_toNat.2 pg detected true nameOk env0 m
  have hc : Created {} k pg detected c := (hok c s h).1
  refine ⟨hc.stride.trans ?_, hc.maxRanges, hc.robust, hc.cow.2 ⟨rfl, rfl⟩, hc.ncpu⟩
  unfold askedStride
  rw [if_pos (by dsimp only; rw [ofNat_toNat_lt (by omega)])]

/-- C114: the robust checks hold. -/
theorem robust_check_passes (y : Sys) (hw : y.waitOk = true) (hf : y.forkOk = true) (j detected policy i : Nat) (b : Bool)
    (h : RobustCheck y (2 ^ j) detected policy i b) : b = true := by
  cases h with
  | mk env0 m c s env env2 env3 ok fn hwf henv0 hc henv hfn hout =>
    obtain ⟨h0, h1, h2, h3, h4, h5⟩ := robust_checks_pass y hw hf policy (2 ^ j) detected ⟨j, rfl⟩ true true env0 m hwf c s henv0 hc
      env env2 env3 henv ok fn hfn hout
    match i with
    | 0 => exact h0
    | 1 => exact h1
    | 2 => exact h2
    | 3 => exact h3
    | 4 => exact h4
    | n + 5 => exact h5

/-- C114: the fork checks hold. -/
theorem fork_check_passes (y : Sys) (hw : y.waitOk = true) (hf : y.forkOk = true) (j detected policy : Nat) (o : Option Bool)
    (h : ForkCheck y (2 ^ j) detected policy o) : o = some true := by
  cases h with
  | mk env0 m c s hwf henv0 hc => exact (fork_check_partial y hw hf policy (2 ^ j) detected ⟨j, rfl⟩ true true env0 m hwf c s henv0 hc).1

/-- C114: the whole program, on a system that grants what it asks for: every test runs to its end, and the driver accepts. -/
theorem mempool_test_passes (y : Sys) (hw : y.waitOk = true) (hf : y.forkOk = true) (j detected : Nat)
    (fill : Tap.FillRun → Option (List Bool)) (hfill : ∀ r ∈ Tap.fillRuns (2 ^ j), FillTest (2 ^ j) detected r (fill r))
    (rob : Bool → Nat → Bool) (hrob : ∀ cow i, i < 6 → RobustCheck y (2 ^ j) detected (policyNr cow) i (rob cow i))
    (fork : Bool → Option Bool) (hfork : ∀ cow, ForkCheck y (2 ^ j) detected (policyNr cow) (fork cow)) :
    ∃ (F : Tap.FillRun → List Bool) (K : Bool → Bool), (∀ r ∈ Tap.fillRuns (2 ^ j), fill r = some (F r)) ∧ (∀ cow, fork cow = some (K cow)) ∧
      ∃ code s, Tap.program (.noPlan :: Tap.oks (Tap.mempoolChecks (2 ^ j) F (fun cow => (List.range 6).map (rob cow)) K)) {} = .exit code s ∧
        Tap.Success (Tap.verdict s.out (Tap.code8 code)) := by
  refine ⟨fun _ => List.replicate 16 true, fun _ => true, fun r hr => fill_test_passes j detected r hr _ (hfill r hr),
    fun cow => fork_check_passes y hw hf j detected _ _ (hfork cow), ?_⟩
  obtain ⟨code, s, h1, _, h2⟩ := Tap.mempool_test_success j (fun _ => List.replicate 16 true) (fun _ => by simp)
    (fun cow => (List.range 6).map (rob cow)) (fun _ => by simp) fun _ => true
  refine ⟨code, s, h1, h2.2 ⟨fun _ _ b hb => List.eq_of_mem_replicate hb, fun cow b hb => ?_, fun _ => rfl⟩⟩
  obtain ⟨i, hi, rfl⟩ := List.mem_map.1 hb
  exact robust_check_passes y hw hf j detected _ i _ (hrob cow i (List.mem_range.1 hi))

end

/-! ### The hypotheses can be met: 64 kB pages, all 12 fill tests, 12 robust checks, 2 fork checks -/
section
attribute [local instance] le64

/-- A system with memory at 4 GB. -/
def at4G : RangeEnv := { base := some 4294967296 }
def noMem : Mem := ⟨fun _ => 0#8, fun _ => none⟩

theorem noMem_wf : noMem.WF := fun p q h => by cases h

theorem at4G_ok {c : Config} (n : Nat) (hn : n ≤ 22) (hs : c.stride = 2 ^ n) (hpg : c.pg = 65536) (hc : c.ncpu ≤ 1024) :
    EnvOK c [] noMem at4G := by
  refine ⟨?_, (fun _ _ _ h => by cases h)⟩
  rintro base e
  cases e
  refine ⟨?_, by omega, ?_, (fun r hr => by cases hr), fun x hx => hx⟩
  · rw [hs]; exact Nat.pow_dvd_pow 2 (by omega : n ≤ 32)
  · have h1 : c.stride ≤ 2 ^ 22 := by rw [hs]; exact Nat.pow_le_pow_right (by omega) hn
    have h2 : c.stride * c.ncpu ≤ 2 ^ 22 * 1024 := Nat.mul_le_mul h1 hc
    have h3 : rangeLen c ≤ 2 ^ 22 * 1024 + 2 ^ 22 + 2 ^ 22 := by
      unfold rangeLen
      dsimp only
      split <;> split <;> omega
    show 4294967296 + rangeLen c ≤ 2 ^ 64
    omega

theorem ex_create64k {attr : Attr} (hgood : ∀ k, IsRounded (testDataLen).toNat k → ¬ BadArgs attr k 65536 8) (hi : attr.initSet = false) :
    ∃ c s k, create (some attr) testDataLen 65536 8 true true at4G noMem = .pool c s ∧ Created attr k 65536 8 c := by
  obtain ⟨k, hk, _, h⟩ := validate_spec (some attr) testDataLen testDataLen_toNat.2 65536 8
  rcases h with ⟨_, hb⟩ | ⟨_, c, e, hc⟩
  · exact absurd hb (hgood k hk)
  · unfold create
    rw [e]
    dsimp only
    cases hrc : (rangeCreate c ⟨[], 0, 0⟩ noMem at4G).2 with
    | none =>
      rw [rangeCreate_none_iff] at hrc
      rcases hrc with ⟨h1, h2⟩ | h | ⟨_, h⟩ | ⟨_, h⟩ | ⟨h, _⟩
      · simp at h2; exact absurd h2 h1
      · cases h
      · cases h
      · cases h
      · rw [hc.initSet] at h; exact absurd (h.symm.trans hi) (by decide)
    | some rm =>
      obtain ⟨r, m⟩ := rm
      exact ⟨c, _, k, rfl, hc⟩

theorem ex_fill64k (r : Tap.FillRun) (hr : r ∈ Tap.fillRuns (2 ^ 16)) : ∃ o, FillTest (2 ^ 16) 8 r o := by
  obtain ⟨⟨n, hn⟩, hle, -⟩ := Tap.fill_strides 16 r hr
  have h1 := Tap.one_range_only (2 ^ 16) (by omega) r hr
  have hlt : r.len < 2 ^ 22 := by
    rcases (Tap.fill_runs _ (by omega) r).1 hr with ⟨_, h, _⟩ | ⟨_, h, _⟩ <;> omega
  have hn22 : n ≤ 22 := by
    rw [hn] at hlt
    exact Nat.le_of_lt ((Nat.pow_lt_pow_iff_right (a := 2) (by omega)).1 hlt)
  have hask : askedStride (runAttr r) = r.len := by
    unfold askedStride runAttr fillAttr
    dsimp only
    rw [ofNat_toNat_lt (by omega), if_neg (by omega)]
  have hg : ∀ k, IsRounded (testDataLen).toNat k → ¬ BadArgs (runAttr r) k 65536 8 := by
    intro k hk
    have := (testData_order hk).2
    rintro (⟨h0, h1⟩ | ⟨_, h | ⟨h, _⟩⟩ | h | h | h)
    · unfold runAttr fillAttr policyNr at h0 h1
      dsimp only at h0 h1
      cases hc : r.cow <;> rw [hc] at h0 h1
      · exact h1 rfl
      · exact h0 rfl
    · exact absurd (show (1024 : Int) < 0 from h) (by omega)
    · exact absurd (show (1024 : Int) = 0 from h) (by omega)
    · exact h ⟨n, by rw [hask]; exact hn⟩
    · rw [hask] at h; omega
    · rw [hask] at h; omega
  obtain ⟨c, s0, k, e, hc⟩ := ex_create64k hg rfl
  have henv : EnvOK c [] noMem at4G :=
    at4G_ok n hn22 (hc.stride.trans (hask.trans hn)) hc.pg (Nat.le_of_eq hc.ncpu)
  obtain ⟨hv, hre⟩ := create_reach _ _ testDataLen_toNat.2 65536 8 ⟨16, rfl⟩ true true _ _ noMem_wf c s0 henv e
  have h0 : Hist c false ⟨s0, [], []⟩ := ⟨hv, hre false, fun h => by cases h⟩
  have hmr : c.maxRanges = 1 := hc.maxRanges.trans h1
  have hil := ((fill_accepted 16 (by omega) r hr 8 true true at4G noMem).2 c s0 e).2.2.2.2.2
  obtain ⟨s, L, env, er, s', hs, henv', hnr, hnull⟩ := test_fill_ends hil h0 (by omega) (by
    intro s L hs
    refine ⟨refuseEnv, refuseEnv_ok _ _ _, ?_⟩
    intro hlt
    obtain ⟨live, hh, _⟩ := (fill_inv hil h0 hs).hist
    have := List.length_pos_iff.2 (ranges_ne_nil hh.valid hh.mode hh.reach)
    dsimp only at this
    omega)
  exact ⟨_, .mk at4G noMem c s0 s L env er s' refuseEnv refuseEnv noMem_wf henv e hs henv' (fun h => hnr (by omega)) hnull⟩

theorem ex_pool64k (cow : Bool) : ∃ c s, EnvOK c [] noMem at4G ∧ c.pg = 65536 ∧
    create (some (testPoolAttr (policyNr cow))) testDataLen (2 ^ 16) 8 true true at4G noMem = .pool c s := by
  have hask : askedStride (testPoolAttr (policyNr cow)) = 65536 := rfl
  have hg : ∀ k, IsRounded (testDataLen).toNat k → ¬ BadArgs (testPoolAttr (policyNr cow)) k 65536 8 := by
    intro k hk
    have := (testData_order hk).2
    rintro (⟨h0, h1⟩ | ⟨_, h | ⟨h, _⟩⟩ | h | h | h)
    · cases cow
      · exact h1 rfl
      · exact h0 rfl
    · exact absurd (show (1 : Int) < 0 from h) (by omega)
    · exact absurd (show (1 : Int) = 0 from h) (by omega)
    · exact h ⟨16, hask⟩
    · rw [hask] at h; omega
    · rw [hask] at h; omega
  obtain ⟨c, s, k, e, hc⟩ := ex_create64k hg rfl
  exact ⟨c, s, at4G_ok 16 (by omega) (hc.stride.trans hask) hc.pg (Nat.le_trans (Nat.le_of_eq hc.ncpu) (show 1 ≤ 1024 by omega)), hc.pg, e⟩

theorem ex_robust64k (cow : Bool) (i : Nat) : ∃ b, RobustCheck goodSys (2 ^ 16) 8 (policyNr cow) i b := by
  obtain ⟨c, s, henv, hpg, e⟩ := ex_pool64k cow
  obtain ⟨hv, hre⟩ := create_reach _ _ testDataLen_toNat.2 (2 ^ 16) 8 ⟨16, rfl⟩ true true _ _ noMem_wf c s henv e
  have h : Hist c false ⟨s, [], []⟩ := ⟨hv, hre false, fun h => by cases h⟩
  refine ⟨_, .mk at4G noMem c s { base := none } { base := none } { base := none } (fun _ => true) 4096#64 noMem_wf henv e (ex_env ..) (by decide) ?_⟩
  intro p s1 hm r hr hin
  have h4 : (4096#64).toNat = 4096 := rfl
  rcases (malloc_local h.valid h.inv (ex_env ..) hm).2 r hr with ⟨r0, h0, hb⟩ | hb
  · have := (h.inv.ranges.each r0 h0).pos
    have h2 := hin.1
    omega
  · cases hb

theorem ex_fork64k (cow : Bool) : ∃ o, ForkCheck goodSys (2 ^ 16) 8 (policyNr cow) o := by
  obtain ⟨c, s, henv, _, e⟩ := ex_pool64k cow
  exact ⟨_, .mk at4G noMem c s noMem_wf henv e⟩

/-- Attributes that cannot be allocated, and a pool all the same. -/
example : ∃ c s, create (fillHead 0 4 8192#_ none).2 testDataLen 4096 8 true true { base := some 0x100000 } ⟨fun _ => 0#8, fun _ => none⟩ = .pool c s := by
  obtain ⟨s, e⟩ := ex_create_ok (attr := {}) (c := { pg := 4096, order := 6, stride := 65536, ncpu := 8, cow := true, robust := false, poison := none, maxRanges := 0, initSet := false, global := false }) (by decide) rfl
  exact ⟨_, s, e⟩

/-- The whole program on such a system. -/
example : ∃ (fill : Tap.FillRun → Option (List Bool)) (rob : Bool → Nat → Bool) (fork : Bool → Option Bool),
    (∀ r ∈ Tap.fillRuns (2 ^ 16), FillTest (2 ^ 16) 8 r (fill r)) ∧
    (∀ cow i, i < 6 → RobustCheck goodSys (2 ^ 16) 8 (policyNr cow) i (rob cow i)) ∧
    (∀ cow, ForkCheck goodSys (2 ^ 16) 8 (policyNr cow) (fork cow)) := by
  classical
  refine ⟨fun r => if h : r ∈ Tap.fillRuns (2 ^ 16) then (ex_fill64k r h).choose else none,
    fun cow i => (ex_robust64k cow i).choose, fun cow => (ex_fork64k cow).choose, ?_,
    fun cow i _ => (ex_robust64k cow i).choose_spec, fun cow => (ex_fork64k cow).choose_spec⟩
  intro r hr
  dsimp only
  rw [dif_pos hr]
  exact (ex_fill64k r hr).choose_spec

end

end Verif.Mempool
