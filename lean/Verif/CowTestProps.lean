import Verif.CowTestInv
import Verif.PoolConcRace
/-
C92: tests/mempool_cow_race_test.c.  The test obeys the rules of the pool; it passes if the kernel
copies a page and switches the page table entry at once; with the kernel's two steps it can fail, and it
can pass although the item has lost its content (finding F40).
-/
namespace Verif.CowTest
open Verif Verif.Mem Verif.Mempool Verif.PoolConc MProg

section
variable [Abi]

variable {c : Config} {split : Bool} {f : Nat → Byte} {len : Nat} {v : Byte}

/-- C92: in every execution the test uses the pool as documented, whatever the kernel does: the writer
stores only to an allocated item of an existing pool, the frees are of items that are live and to which
nobody is storing, and the pool is destroyed when it is empty and nobody is inside. -/
theorem cow_test_legal (hv : Valid c) (hlen : len ≤ c.itemLen) {p : Prog} (h : PReach c split f len v p) :
    p.ip ≠ .misuse ∧ p.wp ≠ .misuse := by
  have hl := (pinv_of_reach hv hlen h).loc
  obtain ⟨cs, phase, stopI, stopW, p1, p2, ip, wp⟩ := p
  have st : Still ⟨cs, phase, stopI, stopW, p1, p2, ip, wp⟩ → wp ≠ .misuse := fun e => by
    have := e.2.2; dsimp only at this; rw [this]; simp
  have op : Open ⟨cs, phase, stopI, stopW, p1, p2, ip, wp⟩ → wp ≠ .misuse := fun e => by
    rcases e.2 with e | ⟨_, e | e | e⟩ <;> dsimp only at e <;> rw [e] <;> simp
  cases ip with
  | head => exact ⟨by simp, st hl.2⟩
  | call1 => exact ⟨by simp, st hl.1⟩
  | malloc1 => exact ⟨by simp, st hl.1⟩
  | publish => exact ⟨by simp, st hl.1⟩
  | call2 => exact ⟨by simp, op hl.1⟩
  | malloc2 => exact ⟨by simp, op hl.1⟩
  | check i => exact ⟨by simp, op hl.1⟩
  | wait => exact ⟨by simp, op hl.1⟩
  | callFree2 => exact ⟨by simp, st hl.1⟩
  | free2 => exact ⟨by simp, st hl.1⟩
  | callFree1 => exact ⟨by simp, st hl.1⟩
  | free1 => exact ⟨by simp, st hl.1⟩
  | destroy => exact ⟨by simp, st hl.1⟩
  | stopWriter => exact ⟨by simp, st hl.2⟩
  | stopPhase => refine ⟨by simp, ?_⟩; have := hl.2.2.2; dsimp only at this ⊢; rw [this]; simp
  | done => refine ⟨by simp, ?_⟩; rcases hl.2.2.2 with e | e | e <;> dsimp only at e ⊢ <;> rw [e] <;> simp
  | noMem =>
    rcases hl with h | ⟨h, _⟩
    · exact ⟨by simp, st h⟩
    · exact ⟨by simp, op h⟩
  | unexpected => exact ⟨by simp, op hl.2.1⟩
  | misuse => exact hl.elim

/-- C92, partial (missing: a kernel that copies the page before it switches the page table entry, with
several items on a page; there it is false, `cow_test_fails`): the test never prints "Unexpected value",
and no pool operation of the test aborts. -/
theorem cow_test_passes_partial (hv : Valid c) (hsafe : FaultSafe c split) (hlen : len ≤ c.itemLen) {p : Prog}
    (h : PReach c split f len v p) : p.ip ≠ .unexpected ∧ ∀ s, p.cs = some s → ∀ t, s.th t ≠ .dead := by
  have hi := pinv_of_reach hv hlen h
  refine ⟨fun e => ?_, fun s hs t => conc_no_abort hv hsafe (hi.reach s hs) t⟩
  have hl := hi.loc
  unfold At at hl
  rw [e] at hl
  exact hl.1 hsafe

/-- C92, partial (as `cow_test_passes_partial`): the check is not too early either.  From the first
comparison until the item is freed the item shows the init value. -/
theorem cow_test_shown_partial (hv : Valid c) (hsafe : FaultSafe c split) (hlen : len ≤ c.itemLen) {p : Prog}
    (h : PReach c split f len v p) (hip : p.ip = .wait ∨ ∃ i, p.ip = .check i) :
    ∃ s, p.cs = some s ∧ p.ptr2 ∈ s.live ∧ ∀ o, o < len → s.mem.read c.pg (cpuAddr c p.ptr2 0 + o) = f o := by
  have hl := (pinv_of_reach hv hlen h).loc
  unfold At at hl
  rcases hip with e | ⟨i, e⟩ <;> rw [e] at hl <;> obtain ⟨_, s, h1, h2, h3⟩ := hl <;>
    exact ⟨s, h1, by rw [h2.2]; exact List.mem_cons_self, fun o ho => h3 hsafe o ho⟩

theorem quiet_own {s : CState} (hst : s.th 0 ≠ .idle) (st : TSt) (m : Mem) (pool : Pool) (lk : Option Nat) :
    Quiet s { s with mem := m, pool := pool, lock := lk, th := upd s.th 0 st } := by
  intro u hu
  have hne : u ≠ 0 := fun e => hst (e ▸ hu)
  exact ⟨(upd_ne s.th hne st).trans hu, id⟩

/-- The init thread fills its new item without interference, on private pages. -/
theorem fill_run {p : Prog} {s : CState} {q : Nat} {fill : Fill} {k : MProg Unit} (h : PReach c split f len v p)
    (hc : p.cs = some s) (hst : s.th 0 = .filling fill q k) (hpn : s.pend 0 = none) {m' : Mem}
    (hk : runPriv c.pg k s.mem = some ((), m')) :
    PReach c split f len v { p with cs := some { s with mem := m', th := upd s.th 0 (.filling fill q (.ret ())) } } := by
  induction k generalizing s p with
  | ret b =>
    cases hk
    have e1 : upd s.th 0 (.filling fill q (.ret ())) = s.th := by
      funext u; unfold upd; split
      · rename_i e; rw [e, hst]
      · rfl
    rw [e1]
    obtain ⟨cs, phase, stopI, stopW, p1, p2, ip, wp⟩ := p
    cases hc
    exact h
  | rd x k ih =>
    have := ih _ (PReach.step h (PStep.inside hc (CStep.readFill 0 fill q x k hst hpn)
      (quiet_own (by rw [hst]; simp) _ _ _ _))) rfl (upd_self s.th 0 _) hpn hk
    dsimp only at this
    rw [upd_upd] at this
    exact this
  | wr x b k ih =>
    unfold runPriv at hk
    split at hk
    · rename_i hn
      have := ih (PReach.step h (PStep.inside hc (CStep.writeFill 0 fill q x b k hst hpn fun _ => Option.isNone_iff_eq_none.1 hn)
        (quiet_own (by rw [hst]; simp) _ _ _ _))) rfl (upd_self s.th 0 _) hpn hk
      dsimp only at this
      rw [upd_upd] at this
      exact this
    · cases hk

theorem quiet_install {s : CState} {u : Nat} (m : Mem) : Quiet s { s with mem := m, pend := upd s.pend u none } := by
  intro w hw
  refine ⟨hw, fun h => ?_⟩
  show upd s.pend u none w = none
  unfold upd; split
  · rfl
  · exact h

end

/-! ### The configuration of the test -/

attribute [local instance] le64

/-- 4 KiB pages, 256-byte items, a stride of 64 KiB, one CPU, one range, robust, COW_INIT (69-85). -/
def testC : Config :=
  { pg := 4096, order := 8, stride := 65536, ncpu := 1, cow := true, robust := true, poison := some 0x5555555555555555#64
    maxRanges := 1, initSet := false, global := false }

theorem testC_valid : Valid testC :=
  ⟨by decide, by decide, ⟨16, by decide⟩, ⟨12, by decide⟩, by decide, by decide, fun _ => rfl, fun h => by cases h⟩

/-- 159: the init value. -/
def testF : Nat → Byte := fun _ => 0x22#8

def testMem : Mem := mapRange testC 131072 raceMem

def testRange (nu : Nat) (bm : Nat → Word) : Range :=
  { base := 131072, header := 122880, init := some 196608, nextUnused := nu, mmapAddr := 122880, mmapLen := 204800
    bitmap := some bm, canary := 1#8 }

def tb0 : Nat → Word := fun _ => 0#_
def tb1 : Nat → Word := bitSet tb0 0
def tb2 : Nat → Word := bitSet tb1 1

def testS (mem : Mem) (nu : Nat) (bm : Nat → Word) (lock : Option Nat) (t0 : TSt) (p1 : Option Pend) (live : List Nat) : CState :=
  { mem := mem, pool := ⟨[testRange nu bm], 0, 1⟩, lock := lock, th := upd (fun _ => .idle) 0 t0
    pend := upd (fun _ => none) 1 p1, live := live }

theorem test_fresh : Fresh testC (testS testMem 0 tb0 none .idle none []) := by
  refine ⟨raceMem, { base := some 131072 }, testRange 0 tb0, testMem, fun _ _ h => (by cases h), ⟨fun b e => ?_, fun _ _ _ h => by cases h⟩,
    rfl, ?_⟩
  · cases e
    exact ⟨by decide, by decide, by decide, fun r hr => (by cases hr), fun x hx => hx⟩
  · have e1 : upd (fun _ => TSt.idle) 0 .idle = fun _ => .idle := by
      funext u; unfold upd; split <;> rfl
    have e2 : upd (fun _ => (none : Option Pend)) 1 none = fun _ => none := by
      funext u; unfold upd; split <;> rfl
    unfold testS
    rw [e1, e2]

theorem test_th (a b : TSt) : upd (upd (fun _ => TSt.idle) 0 a) 0 b = upd (fun _ => .idle) 0 b := upd_upd ..
theorem test_pend (a b : Option Pend) : upd (upd (fun _ => (none : Option Pend)) 1 a) 1 b = upd (fun _ => none) 1 b := upd_upd ..

def testInit : Fill := .init testF 256

/-- The first item is allocated and published; `malloc_init` has its item and begins to fill it. -/
theorem test_filling (split : Bool) : PReach testC split testF 256 0x33#8
    { cs := some (testS testMem 512 tb2 none (.filling testInit 131328 (fillP testC (testRange 512 tb2) 256 testInit)) none [131072])
      phase := true, stopInit := false, stopWriter := false, ptr1 := 131072, ptr2 := 0, ip := .malloc2, wp := .wait } := by
  have h0 := PReach.init (c := testC) (split := split) (f := testF) (len := 256) (v := 0x33#8) 0 0
  have h1 := PReach.step h0 (PStep.create rfl rfl test_fresh)
  have h2 := PReach.step h1 (PStep.call1 rfl rfl)
  have h3 := PReach.step h2 (PStep.inside rfl (CStep.lockAlloc 0 (.plain 0) rfl rfl) (quiet_own (by intro h; cases h) _ _ _ _))
  have h4 := PReach.step h3 (PStep.inside rfl (CStep.take 0 (.plain 0) (testRange 256 tb0) 0 131072 ⟨[testRange 256 tb0], 0, 1⟩
    (testRange 256 tb1) 0 131072 { pool := ⟨[testRange 256 tb1], 0, 1⟩, mem := testMem } rfl rfl)
    (quiet_own (by intro h; cases h) _ _ _ _))
  have h5 := PReach.step h4 (PStep.ret1 rfl rfl (CStep.returned 0 (.plain 0) 131072 rfl rfl))
  have h6 := PReach.step h5 (PStep.publish rfl)
  have h7 := PReach.step h6 (PStep.call2 rfl rfl)
  have h8 := PReach.step h7 (PStep.inside rfl (CStep.lockAlloc 0 testInit rfl rfl) (quiet_own (by intro h; cases h) _ _ _ _))
  have h9 := PReach.step h8 (PStep.inside rfl (CStep.take 0 testInit (testRange 512 tb1) 256 131328 ⟨[testRange 512 tb1], 0, 1⟩
    (testRange 512 tb2) 256 131328 { pool := ⟨[testRange 512 tb2], 0, 1⟩, mem := testMem } rfl rfl)
    (quiet_own (by intro h; cases h) _ _ _ _))
  unfold testS at h9 ⊢
  dsimp only at h9
  rw [test_th, test_th, test_th, test_th, test_th, test_th, test_th] at h9
  exact h9

/-- The copy of the page that the writer's fault takes: the second item is not yet initialised. -/
def testPend : Pend := ⟨131072, 131072, snapOf 4096 testMem 131072⟩

def testP : MProg Unit := fillP testC (testRange 512 tb2) 256 testInit

/-- The memory after `n` bytes of the init area are written, the fault still in progress. -/
def filledTo (n : Nat) : Mem :=
  { phys := fun y => if 196864 ≤ y ∧ y < 196864 + n then 0x22#8 else testMem.phys y, src := testMem.src }

def testFilled : Mem := filledTo 256

theorem runPriv_bind {α β : Type} (pg : Nat) (p : MProg α) (k : α → MProg β) (m : Mem) :
    runPriv pg (p.bind k) m = (runPriv pg p m).bind fun x => runPriv pg (k x.1) x.2 := by
  induction p generalizing m with
  | ret a => rfl
  | rd x q ih => exact ih _ m
  | wr x b q ih =>
    show (if _ then runPriv pg (q.bind k) _ else none) = (if _ then runPriv pg q _ else none).bind _
    split
    · exact ih _
    · rfl

theorem page48 {n : Nat} (hn : n < 256) : (196864 + n) / 4096 = 48 := by omega
theorem page32 {n : Nat} (hn : n < 256) : (131328 + n) / 4096 = 32 := by omega
theorem src48 : testMem.src 48 = none := by decide
theorem src32 : testMem.src 32 = some 48 := by decide

theorem filled_write {n : Nat} (hn : n < 256) : (filledTo n).write 4096 (196864 + n) 0x22#8 = filledTo (n + 1) := by
  have h : (filledTo n).src ((196864 + n) / 4096) = none := by rw [page48 hn]; exact src48
  unfold Mem.write
  rw [h]
  suffices e : (fun x => if x = 196864 + n then 0x22#8 else (filledTo n).phys x) = (filledTo (n + 1)).phys by
    show Mem.mk _ _ = filledTo (n + 1)
    rw [e]; rfl
  funext y
  show (if _ then _ else if _ then _ else _) = if _ then _ else _
  by_cases h1 : y = 196864 + n
  · subst h1; rw [if_pos rfl, if_pos (by omega)]
  · rw [if_neg h1]
    by_cases h2 : 196864 ≤ y ∧ y < 196864 + n
    · rw [if_pos h2, if_pos (by omega)]
    · rw [if_neg h2, if_neg (by omega)]

theorem filled_read {n N : Nat} (hn : n < N) (hN : N ≤ 256) : (filledTo N).read 4096 (131328 + n) = 0x22#8 := by
  have h : (filledTo N).src ((131328 + n) / 4096) = some 48 := by rw [page32 (by omega)]; exact src32
  unfold Mem.read Mem.resolve
  rw [h]
  exact if_pos (by show 196864 ≤ 48 * 4096 + (131328 + n) % 4096 ∧ 48 * 4096 + (131328 + n) % 4096 < 196864 + N; omega)

theorem test_write : ∀ n, n ≤ 256 → runPriv 4096 (writeP 196864 testF n) testMem = some ((), filledTo n) := by
  intro n
  induction n with
  | zero =>
    intro _
    show some ((), testMem) = _
    have e : testMem.phys = (filledTo 0).phys := by
      funext y
      exact (if_neg (by omega)).symm
    have e : testMem = filledTo 0 := by
      show Mem.mk testMem.phys testMem.src = _
      rw [e]; rfl
    rw [← e]
  | succ n ih =>
    intro hn
    show runPriv 4096 ((writeP 196864 testF n).bind _) testMem = _
    rw [runPriv_bind, ih (by omega)]
    show (if ((filledTo n).src ((196864 + n) / 4096)).isNone then some ((), (filledTo n).write 4096 (196864 + n) 0x22#8) else none) = _
    have h : (filledTo n).src ((196864 + n) / 4096) = none := by rw [page48 (by omega)]; exact src48
    rw [h, filled_write (by omega)]
    rfl

theorem test_cmp {N : Nat} (hN : N ≤ 256) : ∀ n, n ≤ N →
    runPriv 4096 (memEqualP 131328 testF n) (filledTo N) = some (true, filledTo N) := by
  intro n
  induction n with
  | zero => intro _; rfl
  | succ n ih =>
    intro hn
    show runPriv 4096 ((memEqualP 131328 testF n).bind _) (filledTo N) = _
    rw [runPriv_bind, ih (by omega)]
    show some (((filledTo N).read 4096 (131328 + n) == 0x22#8), filledTo N) = _
    rw [filled_read (by omega) hN]
    rfl

theorem test_init {n : Nat} (hn : n ≤ 256) :
    runPriv 4096 (initP testC (testRange 512 tb2) 256 testF n) testMem = some ((), filledTo n) := by
  show runPriv 4096 ((writeP 196864 testF n).bind fun _ => (memEqualP 131328 testF n).bind fun e => if e then ret () else _) testMem = _
  rw [runPriv_bind, test_write n hn]
  show runPriv 4096 ((memEqualP 131328 testF n).bind _) (filledTo n) = _
  rw [runPriv_bind, test_cmp hn n (Nat.le_refl _)]
  rfl

theorem test_fill : runPriv testC.pg testP testMem = some ((), testFilled) := test_init (Nat.le_refl _)

/-- `malloc_init` is about to return; the kernel has copied the page for the writer and not yet switched the
page table entry. -/
theorem test_filled : PReach testC true testF 256 0x33#8
    { cs := some (testS testFilled 512 tb2 none (.filling testInit 131328 (.ret ())) (some testPend) [131072])
      phase := true, stopInit := false, stopWriter := false, ptr1 := 131072, ptr2 := 0, ip := .malloc2, wp := .store } := by
  have h1 := PReach.step (test_filling true) (PStep.begin rfl rfl)
  have h2 := PReach.step h1 (PStep.stay rfl rfl)
  have h3 := PReach.step h2 (PStep.snap (q := 48) rfl rfl ⟨List.mem_cons_self, by decide, by decide⟩ rfl rfl rfl rfl)
  have h4 := fill_run h3 rfl rfl rfl test_fill
  unfold testS at h4 ⊢
  dsimp only at h4
  rw [test_th, test_pend] at h4
  exact h4

/-- C92, negation for the kernel's two steps: in the configuration of the test, with the values of the test,
"Unexpected value" is printed.  The writer's fault copies the page before `malloc_init` writes, `malloc_init` finds
CPU 0's instance (the shared page) equal, the kernel installs the copy, and the check reads 0.  Finding F18. -/
theorem cow_test_fails : ∃ p, PReach testC true testF 256 0x33#8 p ∧ p.ip = .unexpected := by
  have h1 := PReach.step test_filled (PStep.inside rfl (CStep.install 1 testPend rfl) (quiet_install _))
  have h2 := PReach.step h1 (PStep.ret2 rfl rfl (CStep.returned 0 testInit 131328 rfl rfl))
  refine ⟨_, PReach.step h2 (PStep.checkBad (i := 0) rfl rfl (by decide) ?_), rfl⟩
  decide +kernel

/-- The state while the check runs, the fault still in progress. -/
def testCheck (i : Nat) : Prog :=
  { cs := some { testS testFilled 512 tb2 none (.filling testInit 131328 (.ret ())) (some testPend) [131072] with
      th := upd (upd (fun _ => .idle) 0 (.filling testInit 131328 (.ret ()))) 0 .idle, live := [131328, 131072] }
    phase := true, stopInit := false, stopWriter := false, ptr1 := 131072, ptr2 := 131328, ip := .check i, wp := .store }

theorem test_shown : ∀ i, i < 256 → testFilled.read testC.pg (cpuAddr testC 131328 0 + i) = testF i :=
  fun _ h => filled_read h (Nat.le_refl _)

theorem test_private : (installAt testC.pg testFilled testPend).src ((cpuAddr testC 131072 0 + 0) / testC.pg) = none := by
  decide +kernel

theorem test_checks : ∀ i, i ≤ 256 → PReach testC true testF 256 0x33#8 (testCheck i) := by
  intro i
  induction i with
  | zero =>
    intro _
    exact PReach.step test_filled (PStep.ret2 rfl rfl (CStep.returned 0 testInit 131328 rfl rfl))
  | succ i ih =>
    intro hi
    refine PReach.step (ih (by omega)) (PStep.checkOk (p := testCheck i) (i := i) rfl rfl (by omega) ?_)
    exact test_shown i (by omega)

/-- C92, the test is too weak: all 256 comparisons of an iteration succeed, the writer finishes, the iteration goes on to
free the items; yet the item, which nobody has stored to, no longer shows the init value.  The check comes before the wait for
the writer (104-112), so a page switched after the check goes unnoticed.  Finding F40. -/
theorem cow_test_blind : ∃ p s, PReach testC true testF 256 0x33#8 p ∧ p.ip = .callFree2 ∧ p.cs = some s ∧
    p.ptr2 ∈ s.live ∧ ∀ o, o < 256 → s.mem.read testC.pg (cpuAddr testC p.ptr2 0 + o) ≠ testF o := by
  have h1 := PReach.step (test_checks 256 (Nat.le_refl _)) (PStep.checked rfl)
  have h2 := PReach.step h1 (PStep.inside rfl (CStep.install 1 testPend rfl) (quiet_install _))
  have h3 := PReach.step h2 (PStep.store rfl rfl ⟨by decide, by decide, by decide⟩
    (CStep.store 1 131072 0 0 0x33#8 rfl rfl (by decide) (by decide) (by decide) (fun _ => test_private)))
  have h4 := PReach.step h3 (PStep.reset rfl)
  have h5 := PReach.step h4 (PStep.waited rfl rfl)
  refine ⟨_, _, h5, rfl, rfl, List.mem_cons_self, ?_⟩
  decide +kernel

/-- The executions the theorems are about: the hypotheses of `cow_test_legal` hold in the configuration of the test while the
writer is at its store; those of the `_partial` theorems at the first comparison, with the atomic page copy. -/
example : Valid testC ∧ 256 ≤ testC.itemLen ∧ ∃ p, PReach testC true testF 256 0x33#8 p ∧ p.wp = .store :=
  ⟨testC_valid, by decide, _, test_filled, rfl⟩

theorem ex_check : Valid testC ∧ FaultSafe testC false ∧ 256 ≤ testC.itemLen ∧
    ∃ p, PReach testC false testF 256 0x33#8 p ∧ p.ip = .check 0 := by
  refine ⟨testC_valid, Or.inl rfl, by decide, ?_⟩
  have h1 := fill_run (test_filling false) rfl rfl rfl test_fill
  exact ⟨_, PReach.step h1 (PStep.ret2 rfl rfl (CStep.returned 0 testInit 131328 rfl rfl)), rfl⟩

end Verif.CowTest
