import Verif.RseqDispatch
import Verif.RseqConcEx
/-
C41: unsupported memory orders and modes are refused without effect, supported ones run the implementation
for exactly that order and mode.
-/

namespace Verif.Rseq

variable {n : Nat}

/-- The helpers with an attempt store (`v2` or the `dst` buffer), pseudocode.h: only these document a
release variant. -/
def HasAttempt : Op n → Prop
  | .cbneStoreStore .. => True
  | .cbneMemcpyStore .. => True
  | _ => False

/-- The documented combinations: order relaxed (0), or release (3) for helpers with an attempt store; mode
`cpu_id` (0) or `mm_cid` (1). -/
def Supported (op : Op n) (mo mode : BitVec 32) : Prop :=
  (mo.toNat = 0 ∨ (mo.toNat = 3 ∧ HasAttempt op)) ∧ mode.toNat < 2

/-- The field named by the mode. -/
def fieldOf (x : Thread n) (mode : BitVec 32) : BitVec 32 := if mode.toNat = 0 then x.cpuId else x.mmCid

theorem program_be {al : Opnd → Nat} {be : Bool} {csa : W n} {arch : Arch} {k : Kind} {rel : Bool} {p : Prog n}
    (h : program al be csa arch k rel = some p) : p.be = be := by
  cases arch <;> cases k <;> cases rel <;>
    simp only [program, reduceCtorEq, Option.some.injEq] at h <;> subst h <;> rfl

theorem toNat_eq {w : Nat} {a : BitVec w} {k : Nat} (hk : k < 2 ^ w) : a = BitVec.ofNat w k ↔ a.toNat = k := by
  constructor
  · rintro rfl; simp [Nat.mod_eq_of_lt hk]
  · intro h; apply BitVec.eq_of_toNat_eq; simp [h, Nat.mod_eq_of_lt hk]

/-- What the dispatch functions choose. -/
theorem dispatch_iff (op : Op n) (mo mode : BitVec 32) (i : Inst) :
    dispatch op.kind mo mode = some i ↔ Supported op mo mode ∧
      (i.rel = true ↔ mo.toNat = 3) ∧ (i.fld = .cpuId ↔ mode.toNat = 0) := by
  have m0 := toNat_eq (a := mode) (k := 0) (by decide)
  have m1 := toNat_eq (a := mode) (k := 1) (by decide)
  have o0 := toNat_eq (a := mo) (k := 0) (by decide)
  have o3 := toNat_eq (a := mo) (k := 3) (by decide)
  have hsw : ∀ rel, switchMode rel mode = some i ↔
      i.rel = rel ∧ mode.toNat < 2 ∧ (i.fld = .cpuId ↔ mode.toNat = 0) := by
    intro rel
    obtain ⟨r, fl⟩ := i
    unfold switchMode modeCpuId modeMmCid
    by_cases h0 : mode.toNat = 0
    · rw [if_pos (m0.2 h0)]; cases fl <;> simp [h0, eq_comm]
    · rw [if_neg (fun h => h0 (m0.1 h))]
      by_cases h1 : mode.toNat = 1
      · rw [if_pos (m1.2 h1)]; cases fl <;> simp [h1, eq_comm]
      · rw [if_neg (fun h => h1 (m1.1 h))]; simp; omega
  have hA : (if mo ≠ moRelaxed then none else switchMode false mode) = some i ↔
      mo.toNat = 0 ∧ i.rel = false ∧ mode.toNat < 2 ∧ (i.fld = .cpuId ↔ mode.toNat = 0) := by
    by_cases h : mo = moRelaxed
    · rw [if_neg (by simp [h]), hsw]; simp [o0.1 h]
    · rw [if_pos h]; simp; intro h'; exact absurd (o0.2 h') h
  have hB : (if mo = moRelaxed then switchMode false mode
      else if mo = moRelease then switchMode true mode
      else if mo = moAcquire ∨ mo = moAcqRel ∨ mo = moConsume ∨ mo = moSeqCst then none
      else none) = some i ↔
      ((mo.toNat = 0 ∧ i.rel = false) ∨ (mo.toNat = 3 ∧ i.rel = true)) ∧ mode.toNat < 2 ∧
        (i.fld = .cpuId ↔ mode.toNat = 0) := by
    by_cases h : mo = moRelaxed
    · rw [if_pos h, hsw]; simp [o0.1 h]
    · have h0 : mo.toNat ≠ 0 := fun h' => h (o0.2 h')
      rw [if_neg h]
      by_cases h3 : mo = moRelease
      · rw [if_pos h3, hsw]; simp [o3.1 h3]
      · have h3' : mo.toNat ≠ 3 := fun h' => h3 (o3.2 h')
        rw [if_neg h3]; simp [h0, h3']
  cases op <;> simp only [Op.kind, dispatch, dispCbneStore, dispCbeqStoreAddLoadStore, dispAddStore,
    dispAddLoadLoadAddStore, dispCbneCbneStore, dispCbneStoreStore, dispCbneMemcpyStore, hA, hB, Supported,
    HasAttempt] <;> cases i.rel <;> grind

/-- **C41.**  For every memory order and mode value, on every architecture that has the helper: an unsupported
combination returns -1 and leaves memory alone; a supported one behaves as the pseudo-code if the field named
by the mode contains `cpu`, and otherwise returns -1 leaving memory alone. -/
theorem helper_outcome (hn : 4 ≤ n) (arch : Arch) (be : Bool) (al : Opnd → Nat) (csa : W n) (x : Thread n)
    (mo mode : BitVec 32) (op : Op n) (hop : op.kind = .addLoadLoadAddStore → arch = .x86_64)
    (hok : CallOK arch al op) (cpu : BitVec 32) (l : LSt n) (m : Mem n)
    (hs : Setup (clobbers arch op.kind) (signExt arch) al op cpu l) (r : Int) (m' : Mem n) :
    Helper arch be al csa x mo mode op l m r m' ↔
      (Supported op mo mode ∧ fieldOf x mode = cpu ∧ (r, m') = pseudo be op m) ∨
      (¬ (Supported op mo mode ∧ fieldOf x mode = cpu) ∧ r = -1 ∧ m' = m) := by
  have hex : ∀ i, dispatch op.kind mo mode = some i → ∃ p, program al be csa arch op.kind i.rel = some p ∧
      p.be = be ∧ Supported op mo mode ∧ x.fv i.fld = fieldOf x mode := by
    intro i hi
    obtain ⟨hsup, hrel, hfl⟩ := (dispatch_iff op mo mode i).1 hi
    have : (program al be csa arch op.kind i.rel).isSome = true := by
      rw [program_exists_iff]
      refine ⟨fun hr => ?_, hop⟩
      have h3 := hrel.1 hr
      rcases hsup.1 with h | ⟨-, h⟩
      · omega
      · cases op <;> simp [HasAttempt, Op.kind] at h ⊢
    obtain ⟨p, hp⟩ := Option.isSome_iff_exists.1 this
    refine ⟨p, hp, program_be hp, hsup, ?_⟩
    unfold fieldOf
    cases hf : i.fld with
    | cpuId => rw [if_pos (hfl.1 hf)]; rfl
    | mmCid => rw [if_neg (fun h => by have := hfl.2 h; rw [hf] at this; simp at this)]; rfl
  have hnone : dispatch op.kind mo mode = none ↔ ¬ Supported op mo mode := by
    constructor
    · intro h hsup
      have := (dispatch_iff op mo mode
        ⟨decide (mo.toNat = 3), if mode.toNat = 0 then .cpuId else .mmCid⟩).2 ⟨hsup, by simp, by simp⟩
      rw [h] at this; simp at this
    · intro h
      cases hd : dispatch op.kind mo mode with
      | none => rfl
      | some i => exact absurd ((dispatch_iff op mo mode i).1 hd).1 h
  constructor
  · rintro (h | ⟨i, p, hi, hp, hr⟩)
    · exact .inr ⟨fun h' => hnone.1 h h'.1, rfl, rfl⟩
    · obtain ⟨p', hp', hbe, hsup, hfv⟩ := hex i hi
      obtain rfl : p' = p := by rw [hp] at hp'; injection hp' with h; exact h.symm
      have himp := helpers_implement_pseudocode hn arch i.rel be al csa op p' hp' hok cpu (x.fv i.fld) l m hs
      by_cases hc : x.fv i.fld = cpu
      · obtain ⟨e1, e2⟩ := hr.unique (himp.1 hc)
        refine .inl ⟨hsup, by rw [← hfv]; exact hc, ?_⟩
        rw [e1, e2, hbe]
      · obtain ⟨e1, e2⟩ := hr.unique (himp.2 hc)
        exact .inr ⟨fun h => hc (by rw [hfv]; exact h.2), e1, e2⟩
  · intro h
    cases hd : dispatch op.kind mo mode with
    | none =>
      rcases h with ⟨hsup, -, -⟩ | ⟨-, rfl, rfl⟩
      · exact absurd hsup (hnone.1 hd)
      · exact .refused hd
    | some i =>
      obtain ⟨p, hp, hbe, hsup, hfv⟩ := hex i hd
      have himp := helpers_implement_pseudocode hn arch i.rel be al csa op p hp hok cpu (x.fv i.fld) l m hs
      refine .ran i p hd hp ?_
      rcases h with ⟨-, hc, hrm⟩ | ⟨hno, rfl, rfl⟩
      · have := himp.1 (by rw [hfv]; exact hc)
        rw [hbe, ← hrm] at this
        exact this
      · exact himp.2 fun h => hno ⟨hsup, by rw [← hfv]; exact h⟩

/-- Every enumerator but relaxed and release, and every mode above 1, is refused by every helper: concrete
instances of the refusing case. -/
theorem ex_refused (mo mode : BitVec 32)
    (h : mo = moConsume ∨ mo = moAcquire ∨ mo = moAcqRel ∨ mo = moSeqCst ∨ mode = 2#32)
    (arch : Arch) (be : Bool) (al : Opnd → Nat) (csa : W n) (x : Thread n) (op : Op n) (l : LSt n) (m : Mem n)
    (r : Int) (m' : Mem n) (hh : Helper arch be al csa x mo mode op l m r m') : r = -1 ∧ m' = m := by
  rcases hh with hd | ⟨i, p, hi, -, -⟩
  · exact ⟨rfl, rfl⟩
  · obtain ⟨⟨h1, h2⟩, -⟩ := (dispatch_iff op mo mode i).1 hi
    rcases h with rfl | rfl | rfl | rfl | rfl <;>
      simp [moConsume, moAcquire, moAcqRel, moSeqCst] at h1 h2

/-- A supported call: release two-byte copy in `mm_cid` mode by a thread whose concurrency id is 1. -/
theorem ex_supported : Helper .aarch64 false exAl 0x8000#64 (th1 true 3#32 1#32) moRelease modeMmCid exOp
    (entry exInv exOp 1#32) exMem 0 (pseudo false exOp exMem).2 := by
  rw [helper_outcome (by decide) _ _ _ _ _ _ _ _ (by simp [exOp, Op.kind]) (exOp_ok _) 1#32 _ _
    (entry_setup (by decide) _ _ _)]
  refine .inl ⟨?_, ?_, ?_⟩
  · simp [Supported, moRelease, modeMmCid, HasAttempt, exOp]
  · simp [fieldOf, modeMmCid, th1]
  · rfl

end Verif.Rseq
