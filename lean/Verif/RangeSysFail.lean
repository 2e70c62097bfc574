import Verif.RangeSysProps
/-
C66: exactly when creating a range fails.
-/
namespace Verif.RangeSys
open Verif Verif.Mempool

section general
variable [Abi]

/-- A step of the COW_INIT set-up is refused: the memory object, its length, the mapping of the init values
(request 0) or of a CPU (request `i + 1`), a fork flag. -/
def SetupRefused (c : Config) (env : SysEnv) : Prop :=
  env.memfd = none ∨ env.ftruncateOk = false ∨ (∃ i, i ≤ c.ncpu ∧ env.fixed i ≠ .ok) ∨ env.dontforkOk = false ∨ env.wipeOk = false

/-- The number of init callbacks: none without callback, one for a global pool, else one per CPU. -/
def wantedCalls (c : Config) : Nat := if c.initSet = false then 0 else if c.global = true then 1 else c.ncpu

theorem mmapFixed_fst {s : Sys} {pg : Nat} {a l : Word} {fd obj : Nat} {shared : Bool} {ans : Fixed} (hfd : s.fds.lookup fd = some obj) :
    (mmapFixed s pg a l fd shared ans).1 = true ↔ ans = .ok := by
  unfold mmapFixed
  rw [hfd]
  cases ans <;> simp

theorem mapCpus_fst {c : Config} {env : SysEnv} {base : Word} {fd obj : Nat} {s : Sys} (hfd : s.fds.lookup fd = some obj) (n : Nat) :
    ((mapCpus c env base fd n s).1 = true ↔ ∀ i, i < n → env.fixed (i + 1) = .ok) ∧ (mapCpus c env base fd n s).2.fds = s.fds := by
  induction n with
  | zero => exact ⟨⟨fun _ i hi => by omega, fun _ => rfl⟩, rfl⟩
  | succ n ih =>
    unfold mapCpus
    cases hm : mapCpus c env base fd n s with
    | mk b s1 =>
      rw [hm] at ih
      obtain ⟨ih1, ih2⟩ := ih
      simp only [] at ih1 ih2
      cases b with
      | false =>
        simp only []
        refine ⟨⟨fun h => (by cases h), fun h => ?_⟩, ih2⟩
        have := ih1.2 fun i hi => h i (by omega)
        cases this
      | true =>
        simp only []
        have hfd1 : s1.fds.lookup fd = some obj := by rw [ih2]; exact hfd
        refine ⟨?_, ?_⟩
        · rw [mmapFixed_fst hfd1]
          constructor
          · intro h i hi
            rcases Nat.lt_succ_iff_lt_or_eq.1 hi with h1 | rfl
            · exact ih1.1 rfl i h1
            · exact h
          · intro h
            exact h n (by omega)
        · obtain ⟨b2, s2, h2⟩ : ∃ b2 s2, mmapFixed s1 c.pg (base + BitVec.ofNat _ c.stride * BitVec.ofNat _ n) (BitVec.ofNat _ c.stride) fd false
              (env.fixed (n + 1)) = (b2, s2) := ⟨_, _, rfl⟩
          rw [h2]
          exact (mmapFixed_spec hfd1 h2).1.fds.trans ih2

theorem setupCow_done_iff {c : Config} {env : SysEnv} {base header : Word} {s : Sys} (hg : c.global = false) :
    (∃ s', setupCow c env base header s = .done s') ↔ ¬ SetupRefused c env := by
  unfold SetupRefused setupCow memfdCreateInit
  simp only []
  cases hm : env.memfd with
  | none => simp
  | some fd =>
    simp only []
    cases ht : env.ftruncateOk with
    | false => simp
    | true =>
      simp only [if_true]
      generalize hs1 : ({ page := s.page, fds := (fd, s.objs) :: s.fds, objs := s.objs + 1, objLen := fun o =>
        if o = s.objs then (BitVec.ofNat (8 * wb) c.stride).toNat else if o = s.objs then 0 else s.objLen o, heap := s.heap } : Sys) = s1
      have f1 : s1.fds = (fd, s.objs) :: s.fds := by rw [← hs1]
      have look : s1.fds.lookup fd = some s.objs := by rw [f1, List.lookup_cons]; simp
      obtain ⟨b2, s2, h2⟩ : ∃ b2 s2, mmapFixed s1 c.pg (base + BitVec.ofNat _ c.stride * BitVec.ofNat _ c.ncpu) (BitVec.ofNat _ c.stride) fd true
        (env.fixed 0) = (b2, s2) := ⟨_, _, rfl⟩
      have e0 := mmapFixed_fst (pg := c.pg) (a := base + BitVec.ofNat _ c.stride * BitVec.ofNat _ c.ncpu) (l := BitVec.ofNat _ c.stride) (shared := true)
        (ans := env.fixed 0) look
      have hfd2 := (mmapFixed_spec look h2).1.fds
      rw [h2] at e0 ⊢
      simp only [] at e0
      cases b2 with
      | false =>
        simp only []
        constructor
        · rintro ⟨s', h⟩; cases h
        · intro h
          exfalso
          refine h (Or.inr (Or.inr (Or.inl ⟨0, Nat.zero_le _, fun h0 => ?_⟩)))
          have := e0.2 h0
          cases this
      | true =>
        have h0 := e0.1 rfl
        simp only []
        rw [hg, if_neg (by decide)]
        obtain ⟨e1, _⟩ := mapCpus_fst (c := c) (env := env) (base := base) (fd := fd) (s := s2) (by rw [hfd2]; exact look) c.ncpu
        cases h3 : mapCpus c env base fd c.ncpu s2 with
        | mk b3 s3 =>
          rw [h3] at e1
          simp only [] at e1
          cases b3 with
          | false =>
            simp only []
            constructor
            · rintro ⟨s', h⟩; cases h
            · intro h
              exfalso
              have hno : ¬ ∀ i, i < c.ncpu → env.fixed (i + 1) = .ok := fun hh => by
                have := e1.2 hh
                cases this
              apply hno
              intro i hi
              by_cases hf : env.fixed (i + 1) = .ok
              · exact hf
              · exact absurd (Or.inr (Or.inr (Or.inl ⟨i + 1, hi, hf⟩))) h
          | true =>
            have h1 := e1.1 rfl
            have hfix : ¬ ∃ i, i ≤ c.ncpu ∧ env.fixed i ≠ .ok := by
              rintro ⟨i, hi, hne⟩
              cases i with
              | zero => exact hne h0
              | succ i => exact hne (h1 i hi)
            cases hd : env.dontforkOk with
            | false => simp
            | true =>
              cases hw : env.wipeOk with
              | false => simp
              | true => simpa using hfix

/-- What can stop a new range: no address space, a refused step of the COW_INIT set-up, no bitmap for a robust pool, a
failing init callback. -/
def RangeRefused (c : Config) (env : SysEnv) : Prop :=
  env.k.mmap (BitVec.ofNat (8 * wb) (c.pg + rangeLen c + c.stride)) = none ∨
  (c.cow = true ∧ SetupRefused c env) ∨ (c.robust = true ∧ env.bitmapOk = false) ∨ ∃ k, k < wantedCalls c ∧ env.cbOk k = false

/-- C66 (when): with a kernel that does not refuse to unmap, creating a range fails exactly when the limit on ranges is
reached, or the kernel has no address space for it, or a step of the COW_INIT set-up or the bitmap of a robust
pool is refused, or an init callback reports failure. -/
theorem rangeCreateSys_null_iff {c : Config} {nr : Nat} {env : SysEnv} {s : Sys} (h : SysOK c env s)
    (hun : ∀ a l, env.k.munmapOk a l = true) :
    (∃ s', rangeCreateSys c nr env s = .null s') ↔
      (c.maxRanges ≠ 0 ∧ c.maxRanges ≤ nr) ∨ RangeRefused c env := by
  unfold RangeRefused rangeCreateSys
  by_cases hmax : c.maxRanges ≠ 0 ∧ nr ≥ c.maxRanges
  · rw [if_pos hmax]
    exact ⟨fun _ => Or.inl hmax, fun _ => ⟨_, rfl⟩⟩
  · rw [if_neg hmax]
    simp only []
    have hmax' : ¬ (c.maxRanges ≠ 0 ∧ c.maxRanges ≤ nr) := hmax
    rcases block_spec h with ⟨hb, hk⟩ | ⟨hb, a, l, hab⟩ | ⟨base, header, mapped, unmaps, hb, hst, hph, hh0, hbh, hfit, hk, hnone, hsame, hpage⟩
    · rw [hb]
      exact ⟨fun _ => Or.inr (Or.inl hk), fun _ => ⟨_, rfl⟩⟩
    · rw [hun] at hab; cases hab
    · rw [hb]
      simp only []
      generalize (unmaps.foldl (fun s u => s.munmap c.pg u.1.toNat u.2.toNat) (s.mmapAnon c.pg mapped.1.toNat mapped.2.toNat)) = s1
      have hwc : nrCalls c = wantedCalls c := by
        unfold nrCalls wantedCalls
        cases c.initSet <;> simp
      -- the set-up
      have hset : (∃ s2, (if c.cow then setupCow c env base header s1 else .done s1) = .done s2) ↔ ¬ (c.cow = true ∧ SetupRefused c env) := by
        cases hc : c.cow with
        | false => simp
        | true =>
          have hg : c.global = false := by
            cases hgl : c.global with
            | false => rfl
            | true => rw [(h.valid.global_zero hgl).1] at hc; cases hc
          simp only [if_true, true_and]
          exact setupCow_done_iff hg
      have hnf : (if c.cow then setupCow c env base header s1 else .done s1) ≠ .assertFailed := by
        cases hc : c.cow with
        | false => simp
        | true =>
          have hg : c.global = false := by
            cases hgl : c.global with
            | false => rfl
            | true => rw [(h.valid.global_zero hgl).1] at hc; cases hc
          simp only [if_true]
          unfold setupCow
          simp only [hg]
          repeat' split
          all_goals first | exact fun hh => Setup.noConfusion hh | (rename_i hh; exact absurd hh (by decide))
      cases hr : (if c.cow then setupCow c env base header s1 else .done s1) with
      | assertFailed => exact absurd hr hnf
      | fail fd s2 =>
        simp only []
        refine ⟨fun _ => Or.inr (Or.inr (Or.inl ?_)), fun _ => ⟨_, rfl⟩⟩
        by_cases hh : c.cow = true ∧ SetupRefused c env
        · exact hh
        · obtain ⟨s3, h3⟩ := hset.2 hh
          rw [h3] at hr
          cases hr
      | done s2 =>
        have hno := hset.1 ⟨s2, hr⟩
        simp only []
        by_cases hbm : (c.robust && !env.bitmapOk) = true
        · rw [if_pos hbm]
          rw [Bool.and_eq_true, Bool.not_eq_true'] at hbm
          exact ⟨fun _ => Or.inr (Or.inr (Or.inr (Or.inl hbm))), fun _ => ⟨_, rfl⟩⟩
        · rw [if_neg hbm]
          rw [Bool.and_eq_true, Bool.not_eq_true'] at hbm
          by_cases hcb : (List.range (nrCalls c)).all env.cbOk = true
          · rw [if_pos hcb]
            constructor
            · rintro ⟨s', hh⟩; cases hh
            · rintro (hh | hh | hh | hh | ⟨k, hk1, hk2⟩)
              · exact absurd hh hmax'
              · exact absurd hh hk
              · exact absurd hh hno
              · exact absurd hh hbm
              · rw [List.all_eq_true] at hcb
                have := hcb k (List.mem_range.2 (by rw [hwc]; exact hk1))
                rw [hk2] at this
                cases this
          · rw [if_neg hcb]
            refine ⟨fun _ => Or.inr (Or.inr (Or.inr (Or.inr ?_))), fun _ => ⟨_, rfl⟩⟩
            rw [List.all_eq_true] at hcb
            apply Classical.byContradiction
            intro hne
            apply hcb
            intro k hk1
            rw [List.mem_range, hwc] at hk1
            cases hk2 : env.cbOk k with
            | true => rfl
            | false => exact absurd ⟨k, hk1, hk2⟩ hne

end general

section examples
attribute [local instance] le64

/-- The kernel of the example refuses nothing the pool needs. -/
example : ¬ RangeRefused exSysC exSysEnv := by
  rintro (h | ⟨_, h | h | ⟨i, _, h⟩ | h | h⟩ | ⟨_, h⟩ | ⟨k, hk, _⟩)
  · cases h
  · cases h
  · cases h
  · exact h rfl
  · cases h
  · cases h
  · cases h
  · exact absurd hk (by show ¬ k < 0; omega)

end examples

end Verif.RangeSys
