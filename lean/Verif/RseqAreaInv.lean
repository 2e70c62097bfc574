import Verif.RseqArea
import Verif.RegisterInv
/-
Invariant of the areas.
-/
namespace Verif.Area

open Verif.Register (Env Reg Proc Lib featureSize rseqInit minAlloc kRegister kUnregister)

variable {n : Nat} {L : Layout n}

/-! ### Bytes -/

theorem off_toNat (a : BitVec n) {i : Nat} (h : i < 2 ^ n) : (a + BitVec.ofNat n i - a).toNat = i := by
  rw [BitVec.add_comm, BitVec.add_sub_cancel, BitVec.toNat_ofNat, Nat.mod_eq_of_lt h]

theorem bytes_le (v : BitVec 32) :
    v.extractLsb' 24 8 ++ v.extractLsb' 16 8 ++ v.extractLsb' 8 8 ++ v.extractLsb' 0 8 = v := by
  apply BitVec.eq_of_getLsbD_eq
  intro i hi
  simp only [BitVec.getLsbD_append, BitVec.getLsbD_extractLsb']
  by_cases h1 : i < 8
  · simp [h1]
  · by_cases h2 : i - 8 < 8
    · simp [h1, h2]
      rw [show 8 + (i - 8) = i by omega]
    · by_cases h3 : i - 8 - 8 < 8
      · simp [h1, h2, h3]
        rw [show 16 + (i - 8 - 8) = i by omega]
      · have : i - 8 - 8 - 8 < 8 := by omega
        simp [h1, h2, h3, this]
        rw [show 24 + (i - 8 - 8 - 8) = i by omega]

theorem ld32_of {be : Bool} {m : Mem n} {a : BitVec n} {v : BitVec 32}
    (h : ∀ j, j < 4 → m (a + BitVec.ofNat n j) = byteOf be v j) : ld32 be m a = v := by
  unfold ld32
  dsimp only
  rw [h 0 (by omega), h 1 (by omega), h 2 (by omega), h 3 (by omega)]
  cases be
  · exact bytes_le v
  · exact bytes_le v

/-- The bytes that `g` mentions are in the area at `a`. -/
def Holds (m : Mem n) (a : BitVec n) (g : Nat → Option Byte) : Prop :=
  ∀ o b, o < 28 → g o = some b → m (a + BitVec.ofNat n o) = b

theorem Holds.ld32 {be : Bool} {m : Mem n} {a : BitVec n} {g : Nat → Option Byte} (h : Holds m a g) (o : Nat)
    (v : BitVec 32) (ho : o ≤ 24) (hg : ∀ j, j < 4 → g (o + j) = some (byteOf be v j)) :
    Area.ld32 be m (a + BitVec.ofNat n o) = v := by
  apply ld32_of
  intro j hj
  rw [BitVec.add_assoc, ← BitVec.ofNat_add]
  exact h _ _ (by omega) (hg j hj)

theorem fill_at (hn : 5 ≤ n) (m : Mem n) (a : BitVec n) (g : Nat → Option Byte) (o : Nat) (ho : o < 28) :
    fill m a g (a + BitVec.ofNat n o) = (match g o with | some b => b | none => m (a + BitVec.ofNat n o)) := by
  have : 2 ^ 5 ≤ 2 ^ n := Nat.pow_le_pow_right (by omega) hn
  unfold fill
  rw [off_toNat a (by omega)]
  cases g o <;> rfl

theorem fill_out {m : Mem n} {a x : BitVec n} {g : Nat → Option Byte} (h : g (x - a).toNat = none) :
    fill m a g x = m x := by
  unfold fill; rw [h]

/-! ### What an area contains -/

/-- The four fields the kernel writes; those that it does not know stay 0. -/
def img (be : Bool) (F : Nat) (start id node cid : BitVec 32) (o : Nat) : Option Byte :=
  if o < 4 then some (byteOf be start o)
  else if o < 8 then some (byteOf be id (o - 4))
  else if o < 20 then none
  else if o < 24 then some (byteOf be (if 24 ≤ F then node else 0#32) (o - 20))
  else if o < 28 then some (byteOf be (if 28 ≤ F then cid else 0#32) (o - 24))
  else none

/-- `cpu_id` of an area that is not registered. -/
def idleId (L : Layout n) (s : State n) (t : Nat) : BitVec 32 :=
  if L.own then -1#32 else (match s.libc t with | .failed => -2#32 | _ => -1#32)

/-- What the area of a live thread contains. -/
def want (L : Layout n) (s : State n) (t : Nat) : Nat → Option Byte :=
  match regLen L s t with
  | some _ => img L.be (featureSize L.env) (s.place t).cpu (s.place t).cpu (s.place t).node (s.place t).cid
  | none => img L.be (featureSize L.env) 0#32 (idleId L s t) 0#32 0#32

/-- The kernel's structure fits into what is allocated. -/
structure Fits (L : Layout n) : Prop where
  addr : 5 ≤ n
  own : L.own = true → featureSize L.env ≤ abiSize
  libc : L.own = false → abiSize ≤ L.libcLen

structure Inv (L : Layout n) (s : State n) : Prop where
  p : Register.Reach L.env s.p
  disj : ∀ t u x, s.alive t = true → s.alive u = true → t ≠ u → InArea L t x → ¬ InArea L u x
  born : ∀ t, s.alive t = true → s.born t = true
  unborn : ∀ t, s.born t = false → s.p.kern t = .none ∧ s.libc t = .notYet
  place : ∀ t, s.alive t = true → PlaceOK L (s.place t)
  flds : ∀ t, s.alive t = true → Holds s.mem (L.area t) (want L s t)

theorem Fits.alloc (h : Fits L) : abiSize ≤ L.alloc := by
  unfold Layout.alloc
  by_cases ho : L.own = true
  · rw [if_pos ho]; exact Nat.le_refl _
  · rw [if_neg ho]; exact h.libc (by simpa using ho)

theorem kImage_lt (h : Fits L) {len : Nat} {pl : Place} {ext : Nat → Byte} {o : Nat} {b : Byte}
    (hlen : L.own = false → len = L.libcLen)
    (hg : kImage L.be (featureSize L.env) len pl ext o = some b) : o < L.alloc := by
  have ha := h.alloc
  unfold abiSize at ha
  unfold kImage at hg
  by_cases h28 : o < 28
  · omega
  · rw [if_neg (by omega), if_neg (by omega), if_neg (by omega), if_neg (by omega), if_neg (by omega)] at hg
    by_cases hc : o < featureSize L.env ∧ featureSize L.env ≤ len
    · unfold Layout.alloc
      by_cases ho : L.own = true
      · rw [if_pos ho]; have := h.own ho; omega
      · have ho : L.own = false := by simpa using ho
        rw [if_neg (by simp [ho])]; have := hlen ho; omega
    · rw [if_neg hc] at hg; simp at hg

theorem kReset_lt {F o : Nat} {b : Byte} (hg : kReset F o = some b) : o < abiSize := by
  unfold kReset at hg
  unfold abiSize
  repeat' split at hg
  all_goals first | omega | simp at hg

theorem img_none {be : Bool} {F : Nat} {a b c d : BitVec 32} {o : Nat} (h8 : oRseqCs ≤ o) (h20 : o < oNodeId) :
    img be F a b c d o = none := by
  unfold oRseqCs at h8; unfold oNodeId at h20
  unfold img
  rw [if_neg (by omega), if_neg (by omega), if_pos (by omega)]

theorem want_none {s : State n} {t o : Nat} (h8 : oRseqCs ≤ o) (h20 : o < oNodeId) : want L s t o = none := by
  unfold want
  cases regLen L s t <;> exact img_none h8 h20

/-- Bytes stored into one thread's area do not show in another's. -/
theorem Holds.other (hF : Fits L) {m : Mem n} {t u : Nat} {g w : Nat → Option Byte}
    (hd : ∀ x, InArea L u x → ¬ InArea L t x) (hg : ∀ o b, g o = some b → o < L.alloc)
    (h : Holds m (L.area u) w) : Holds (fill m (L.area t) g) (L.area u) w := by
  have ha := hF.alloc
  unfold abiSize at ha
  have hp : 2 ^ 5 ≤ 2 ^ n := Nat.pow_le_pow_right (by omega) hF.addr
  intro o b ho hw
  rw [fill_out, h o b ho hw]
  have h1 : InArea L u (L.area u + BitVec.ofNat n o) := by
    unfold InArea; rw [off_toNat _ (by omega)]; omega
  have h2 := hd _ h1
  unfold InArea at h2
  cases hgo : g (L.area u + BitVec.ofNat n o - L.area t).toNat with
  | none => rfl
  | some b => exact absurd (hg _ _ hgo) h2

/-- Bytes stored into a thread's own area. -/
theorem Holds.own (hn : 5 ≤ n) {m : Mem n} {a : BitVec n} {g w : Nat → Option Byte}
    (h : ∀ o b, o < 28 → w o = some b → g o = some b ∨ (g o = none ∧ m (a + BitVec.ofNat n o) = b)) :
    Holds (fill m a g) a w := by
  intro o b ho hw
  rw [fill_at hn _ _ _ _ ho]
  rcases h o b ho hw with h | ⟨h, h'⟩
  · rw [h]
  · rw [h]; exact h'

theorem img_kImage {be : Bool} {F len : Nat} {pl : Place} {ext : Nat → Byte} {o : Nat} {b : Byte} (ho : o < 28)
    (h : img be F pl.cpu pl.cpu pl.node pl.cid o = some b) :
    kImage be F len pl ext o = some b ∨
      (kImage be F len pl ext o = none ∧ ∀ x y z w, img be F x y z w o = some b) := by
  unfold img at h ⊢
  unfold kImage
  simp only [ho, if_true] at h ⊢
  by_cases h4 : o < 4
  · simp only [h4, if_true] at h ⊢; exact .inl h
  · by_cases h8 : o < 8
    · simp only [h4, h8, if_true, if_false] at h ⊢; exact .inl h
    · by_cases h20 : o < 20
      · simp only [h4, h8, h20, if_true, if_false] at h; simp at h
      · by_cases h24 : o < 24
        · by_cases hF : 24 ≤ F
          · simp only [h4, h8, h20, h24, hF, if_true, if_false] at h ⊢; exact .inl h
          · simp only [h4, h8, h20, h24, hF, if_true, if_false] at h ⊢; exact .inr ⟨trivial, fun _ _ _ _ => h⟩
        · by_cases hF : 28 ≤ F
          · simp only [h4, h8, h20, h24, hF, if_true, if_false] at h ⊢; exact .inl h
          · simp only [h4, h8, h20, h24, hF, if_true, if_false] at h ⊢; exact .inr ⟨trivial, fun _ _ _ _ => h⟩

theorem byteOf_zero (be : Bool) (j : Nat) : byteOf be 0#32 j = 0#8 := by
  unfold byteOf
  apply BitVec.eq_of_getLsbD_eq
  intro i hi
  simp

theorem byteOf_ones (be : Bool) (j : Nat) (hj : j < 4) : byteOf be (-1#32) j = 0xff#8 := by
  unfold byteOf
  have h1 : j = 0 ∨ j = 1 ∨ j = 2 ∨ j = 3 := by omega
  cases be <;> rcases h1 with rfl | rfl | rfl | rfl <;> decide

theorem img_idle {be : Bool} {F : Nat} {o : Nat} (ho : o < 28) :
    img be F 0#32 (-1#32) 0#32 0#32 o =
      if o < 4 then some 0#8 else if o < 8 then some 0xff#8 else if o < 20 then none else some 0#8 := by
  unfold img
  have e1 : (if 24 ≤ F then 0#32 else 0#32) = 0#32 := by split <;> rfl
  have e2 : (if 28 ≤ F then 0#32 else 0#32) = 0#32 := by split <;> rfl
  simp only [ho, if_true, e1, e2, byteOf_zero]
  by_cases h4 : o < 4
  · simp [h4]
  · by_cases h8 : o < 8
    · simp only [h4, h8, if_true, if_false]; rw [byteOf_ones _ _ (by omega)]
    · simp [h4, h8]

theorem img_kReset {be : Bool} {F : Nat} {o : Nat} {b : Byte} (ho : o < 28)
    (h : img be F 0#32 (-1#32) 0#32 0#32 o = some b) :
    kReset F o = some b ∨ (kReset F o = none ∧ ∀ x y z w, img be F x y z w o = some b) := by
  have h' := h
  rw [img_idle ho] at h'
  unfold kReset
  simp only [ho, if_true]
  by_cases h4 : o < 4
  · simp only [h4, if_true] at h' ⊢; exact .inl h'
  · by_cases h8 : o < 8
    · simp only [h4, h8, if_true, if_false] at h' ⊢; exact .inl h'
    · by_cases h20 : o < 20
      · simp only [h4, h8, h20, if_true, if_false] at h'; simp at h'
      · by_cases h24 : o < 24
        · by_cases hF : 24 ≤ F
          · simp only [h4, h8, h20, h24, hF, if_true, if_false] at h' ⊢; exact .inl h'
          · simp only [h4, h8, h20, h24, hF, if_true, if_false] at h' ⊢
            refine .inr ⟨trivial, fun _ _ _ _ => ?_⟩
            unfold img
            simp only [h4, h8, h20, h24, hF, if_true, if_false, byteOf_zero]; exact h'
        · by_cases hF : 28 ≤ F
          · simp only [h4, h8, h20, h24, hF, if_true, if_false] at h' ⊢; exact .inl h'
          · simp only [h4, h8, h20, h24, hF, if_true, if_false] at h' ⊢
            refine .inr ⟨trivial, fun _ _ _ _ => ?_⟩
            unfold img
            simp only [h4, h8, h20, h24, hF, ho, if_true, if_false, byteOf_zero]; exact h'

theorem want_img (L : Layout n) (s : State n) (t : Nat) :
    ∃ a b c d, want L s t = img L.be (featureSize L.env) a b c d := by
  unfold want
  cases regLen L s t with
  | none => exact ⟨_, _, _, _, rfl⟩
  | some _ => exact ⟨_, _, _, _, rfl⟩

/-- Bytes that the kernel leaves alone are as before. -/
theorem kept {s : State n} {t o : Nat} {b : Byte} {g : Nat → Option Byte} (h : Holds s.mem (L.area t) (want L s t))
    (ho : o < 28) (hg : g o = some b ∨ (g o = none ∧ ∀ x y z w, img L.be (featureSize L.env) x y z w o = some b)) :
    g o = some b ∨ (g o = none ∧ s.mem (L.area t + BitVec.ofNat n o) = b) := by
  rcases hg with hg | ⟨hg, hi⟩
  · exact .inl hg
  · refine .inr ⟨hg, h o b ho ?_⟩
    obtain ⟨x, y, z, w, e⟩ := want_img L s t
    rw [e]; exact hi x y z w

theorem img_tls {be : Bool} {F size : Nat} {o : Nat} {b : Byte} (hs : 32 ≤ size) (ho : o < 28)
    (h : img be F 0#32 (-1#32) 0#32 0#32 o = some b) : tlsImage size o = some b := by
  rw [img_idle ho] at h
  unfold tlsImage
  rw [if_pos (by omega)]
  repeat' split at h
  all_goals first
    | (simp at h; done)
    | (simp only [Option.some.injEq] at h ⊢; subst h
       first | rw [if_pos (by omega)] | rw [if_neg (by omega)])

theorem img_fail {be : Bool} {F : Nat} {o : Nat} :
    img be F 0#32 (-2#32) 0#32 0#32 o =
      if 4 ≤ o ∧ o < 8 then failImage be o else img be F 0#32 (-1#32) 0#32 0#32 o := by
  unfold img failImage
  by_cases h4 : o < 4
  · simp [h4]; omega
  · by_cases h8 : o < 8
    · have : 4 ≤ o ∧ o < 8 := by omega
      simp [h4, h8, this]
    · have : ¬ (4 ≤ o ∧ o < 8) := by omega
      simp [h4, h8]

/-! ### Preservation -/

theorem upd_same {α : Type} (f : Nat → α) (t : Nat) (v : α) : upd f t v t = v := by simp [upd]
theorem upd_other {α : Type} (f : Nat → α) {t u : Nat} (v : α) (h : u ≠ t) : upd f t v u = f u := by
  simp [upd, h]
theorem rupd_same {α : Type} (f : Nat → α) (t : Nat) (v : α) : Register.upd f t v t = v := by
  simp [Register.upd]
theorem rupd_other {α : Type} (f : Nat → α) {t u : Nat} (v : α) (h : u ≠ t) : Register.upd f t v u = f u := by
  simp [Register.upd, h]

theorem want_congr {s s' : State n} {u : Nat} (hk : s'.p.kern u = s.p.kern u) (hl : s'.libc u = s.libc u)
    (hp : s'.place u = s.place u) : want L s' u = want L s u := by
  unfold want regLen idleId
  rw [hk, hl, hp]

theorem holds_congr {m : Mem n} {a : BitVec n} {s s' : State n} {u : Nat} (hk : s'.p.kern u = s.p.kern u)
    (hl : s'.libc u = s.libc u) (hp : s'.place u = s.place u) (h : Holds m a (want L s u)) :
    Holds m a (want L s' u) := by
  rw [want_congr hk hl hp]; exact h

theorem Inv.start (hF : Fits L) (m : Mem n) (pl : Place) (h : PlaceOK L pl) : Inv L (State.start L m pl) := by
  have ha := hF.alloc
  refine ⟨.init _ (by simp), ?_, ?_, ?_, ?_, ?_⟩
  · intro t u x h1 h2 hne
    simp only [State.start, beq_iff_eq] at h1 h2
    exact absurd (h1.trans h2.symm) hne
  · intro t h; exact h
  · intro t _; exact ⟨rfl, rfl⟩
  · intro t _; exact h
  · intro t ht
    simp only [State.start, beq_iff_eq] at ht
    subst ht
    refine Holds.own hF.addr fun o b ho hw => .inl ?_
    refine img_tls (be := L.be) (F := featureSize L.env) (by unfold abiSize at ha; omega) ho ?_
    have hr : regLen L (State.start L m pl) L.t0 = none := by
      unfold regLen; split <;> rfl
    have hi : idleId L (State.start L m pl) L.t0 = -1#32 := by
      unfold idleId; split <;> rfl
    unfold want at hw
    rw [hr] at hw
    dsimp only at hw
    rw [hi] at hw
    exact hw

theorem Inv.ownEq {s : State n} (h : Inv L s) : s.p.lib.own = L.own := (Register.reach_inv h.p).own

theorem Inv.kstep (hF : Fits L) {s s' : State n} (h : Inv L s) (hs : KStep L s s') : Inv L s' := by
  have ha := hF.alloc
  have hOwn := h.ownEq
  cases hs with
  | register t len ext hal hab hp hk =>
    have hown : L.own = true := by
      rw [← hOwn]; exact ((Register.reach_inv h.p).pcLen t len (.inl hp)).1
    refine ⟨.step _ _ h.p (.regSysOk _ t len hab hp hk), h.disj, h.born, ?_, h.place, ?_⟩
    · intro u hu
      have : u ≠ t := by rintro rfl; have := h.born u hal; simp_all
      dsimp only
      rw [rupd_other _ _ this]; exact h.unborn u hu
    · intro u hu
      by_cases hut : u = t
      · subst hut
        refine Holds.own hF.addr fun o b ho hw => kept (h.flds u hu) ho ?_
        have hr : regLen L { s with
            p := { s.p with kern := Register.upd s.p.kern u (.ours len), pc := Register.upd s.p.pc u .regOk }
            mem := fill s.mem (L.area u) (kImage L.be (featureSize L.env) len (s.place u) ext) } u =
            some len := by
          unfold regLen; rw [if_pos hown]; dsimp only; rw [rupd_same]
        unfold want at hw
        rw [hr] at hw
        exact img_kImage ho hw
      · refine holds_congr (s := s) (by dsimp only; rw [rupd_other _ _ hut]) rfl rfl ?_
        refine Holds.other hF (fun x => h.disj u t x hu hal hut) ?_ (h.flds u hu)
        intro o b hg
        exact kImage_lt hF (by intro hx; rw [hx] at hown; simp at hown) hg
  | unregister t len hal hab hp hk =>
    have hown : L.own = true := by
      rw [← hOwn]; exact ((Register.reach_inv h.p).pcLen t len (.inr hp)).1
    have hpr : Register.Reach L.env { s.p with
          kern := Register.upd s.p.kern t .none
          pc := Register.upd s.p.pc t .idle
          log := .unregRet t 0 :: s.p.log } := by
      have := Register.Reach.step _ _ h.p (.unregSys _ t len hab hp)
      rw [hk] at this
      exact this
    refine ⟨hpr, h.disj, h.born, ?_, h.place, ?_⟩
    · intro u hu
      have : u ≠ t := by rintro rfl; have := h.born u hal; simp_all
      dsimp only
      rw [rupd_other _ _ this]; exact h.unborn u hu
    · intro u hu
      by_cases hut : u = t
      · subst hut
        refine Holds.own hF.addr fun o b ho hw => kept (h.flds u hu) ho ?_
        unfold want regLen idleId at hw
        rw [if_pos hown] at hw
        dsimp only at hw
        rw [rupd_same] at hw
        rw [if_pos hown] at hw
        exact img_kReset (be := L.be) ho hw
      · refine holds_congr (s := s) (by dsimp only; rw [rupd_other _ _ hut]) rfl rfl ?_
        refine Holds.other hF (fun x => h.disj u t x hu hal hut) ?_ (h.flds u hu)
        intro o b hg
        have := kReset_lt hg; omega
  | resume t pl ext hal hpl =>
    refine ⟨h.p, h.disj, h.born, h.unborn, ?_, ?_⟩
    · intro u hu
      dsimp only
      by_cases hut : u = t
      · subst hut; rw [upd_same]; exact hpl
      · rw [upd_other _ _ hut]; exact h.place u hu
    · intro u hu
      dsimp only
      cases hr : regLen L s t with
      | none =>
        have hm : toUser L s t pl ext = s.mem := by unfold toUser; rw [hr]
        rw [hm]
        by_cases hut : u = t
        · subst hut
          have hw : want L { s with place := upd s.place u pl, mem := s.mem } u = want L s u := by
            have e : regLen L { s with place := upd s.place u pl, mem := s.mem } u = regLen L s u := rfl
            unfold want
            rw [e, hr]; rfl
          rw [hw]; exact h.flds u hu
        · refine holds_congr (s := s) rfl rfl (by dsimp only; rw [upd_other _ _ hut]) ?_
          exact h.flds u hu
      | some len =>
        have hm : toUser L s t pl ext =
            fill s.mem (L.area t) (kImage L.be (featureSize L.env) len pl ext) := by
          unfold toUser; rw [hr]
        have hlen : L.own = false → len = L.libcLen := by
          intro ho
          unfold regLen at hr
          rw [if_neg (by simp [ho])] at hr
          split at hr
          · injection hr with hr; exact hr.symm
          · simp at hr
        rw [hm]
        by_cases hut : u = t
        · subst hut
          refine Holds.own hF.addr fun o b ho hw => kept (h.flds u hu) ho ?_
          have e : regLen L
              { s with
                place := upd s.place u pl
                mem := fill s.mem (L.area u) (kImage L.be (featureSize L.env) len pl ext) } u =
              regLen L s u := rfl
          unfold want at hw
          rw [e, hr] at hw
          dsimp only at hw
          rw [upd_same] at hw
          exact img_kImage ho hw
        · refine holds_congr (s := s) rfl rfl (by dsimp only; rw [upd_other _ _ hut]) ?_
          exact Holds.other hF (fun x => h.disj u t x hu hal hut) (fun o b hg => kImage_lt hF hlen hg)
            (h.flds u hu)
  | libcRegister t ext hal ho hn hk =>
    refine ⟨h.p, h.disj, h.born, ?_, h.place, ?_⟩
    · intro u hu
      have : u ≠ t := by rintro rfl; have := h.born u hal; simp_all
      dsimp only
      rw [upd_other _ _ this]; exact h.unborn u hu
    · intro u hu
      dsimp only
      by_cases hut : u = t
      · subst hut
        refine Holds.own hF.addr fun o b ho' hw => kept (h.flds u hu) ho' ?_
        unfold want regLen at hw
        rw [if_neg (by simp [ho])] at hw
        dsimp only at hw
        rw [upd_same] at hw
        exact img_kImage ho' hw
      · refine holds_congr (s := s) rfl (by dsimp only; rw [upd_other _ _ hut]) rfl ?_
        exact Holds.other hF (fun x => h.disj u t x hu hal hut) (fun o b hg => kImage_lt hF (fun _ => rfl) hg)
          (h.flds u hu)

theorem Inv.step (hF : Fits L) {s s' : State n} (h : Inv L s) (hs : Step L s s') : Inv L s' := by
  have ha := hF.alloc
  have hOwn := h.ownEq
  cases hs with
  | lib p' hs hk hl =>
    refine ⟨.step _ _ h.p hs, h.disj, h.born, ?_, h.place, ?_⟩
    · intro t ht; dsimp only; rw [hk]; exact h.unborn t ht
    · intro t ht
      refine holds_congr (s := s) (by dsimp only; rw [hk]) rfl rfl ?_
      exact h.flds t ht
  | kernel hk => exact h.kstep hF hk
  | foreign t r hal hab hr hk =>
    refine ⟨.step _ _ h.p (.foreign _ t r hab hr hk), h.disj, h.born, ?_, h.place, ?_⟩
    · intro u hu
      have : u ≠ t := by rintro rfl; have := h.born u hal; simp_all
      dsimp only
      rw [rupd_other _ _ this]; exact h.unborn u hu
    · intro u hu
      by_cases hut : u = t
      · subst hut
        have hw : want L { s with p := { s.p with kern := Register.upd s.p.kern u r } } u = want L s u := by
          unfold want regLen idleId
          dsimp only
          rw [rupd_same]
          rcases hr with rfl | rfl <;> rcases hk with hk | hk <;> rw [hk]
        rw [hw]; exact h.flds u hu
      · refine holds_congr (s := s) (by dsimp only; rw [rupd_other _ _ hut]) rfl rfl ?_
        exact h.flds u hu
  | libcFails t hal ho hn =>
    refine ⟨h.p, h.disj, h.born, ?_, h.place, ?_⟩
    · intro u hu
      have : u ≠ t := by rintro rfl; have := h.born u hal; simp_all
      dsimp only
      rw [upd_other _ _ this]; exact h.unborn u hu
    · intro u hu
      dsimp only
      by_cases hut : u = t
      · subst hut
        have h0 := h.flds u hu
        unfold want regLen idleId at h0
        rw [if_neg (by simp [ho]), hn] at h0
        dsimp only at h0
        rw [if_neg (by simp [ho])] at h0
        refine Holds.own hF.addr fun o b ho' hw => ?_
        unfold want regLen idleId at hw
        rw [if_neg (by simp [ho])] at hw
        dsimp only at hw
        rw [upd_same] at hw
        dsimp only at hw
        rw [if_neg (by simp [ho]), img_fail] at hw
        by_cases hc : 4 ≤ o ∧ o < 8
        · rw [if_pos hc] at hw; exact .inl hw
        · rw [if_neg hc] at hw
          exact .inr ⟨by unfold failImage; rw [if_neg hc], h0 o b ho' hw⟩
      · refine holds_congr (s := s) rfl (by dsimp only; rw [upd_other _ _ hut]) rfl ?_
        refine Holds.other hF (fun x => h.disj u t x hu hal hut) ?_ (h.flds u hu)
        intro o b hg
        unfold failImage at hg
        unfold abiSize at ha
        split at hg
        · omega
        · simp at hg
  | user m' hm =>
    refine ⟨h.p, h.disj, h.born, h.unborn, h.place, ?_⟩
    intro u hu o b ho hw
    unfold abiSize at ha
    have hp : 2 ^ 5 ≤ 2 ^ n := Nat.pow_le_pow_right (by omega) hF.addr
    have hw : want L s u o = some b := hw
    have e := off_toNat (L.area u) (i := o) (by omega)
    dsimp only
    rw [hm u _ hu (by unfold InArea; rw [e]; omega) (by
      rw [e]; rintro ⟨h1, h2⟩; rw [want_none h1 h2] at hw; simp at hw)]
    exact h.flds u hu o b ho hw
  | create t pl hb hd hpl =>
    have hna : s.alive t = false := by
      cases hx : s.alive t with
      | false => rfl
      | true => have := h.born t hx; rw [hb] at this; simp at this
    refine ⟨h.p, ?_, ?_, ?_, ?_, ?_⟩
    · intro u v x hu hv hne hx
      dsimp only at hu hv
      by_cases hut : u = t
      · subst hut
        rw [upd_other _ _ (Ne.symm hne)] at hv
        intro hx'; exact hd v x hv hx' hx
      · rw [upd_other _ _ hut] at hu
        by_cases hvt : v = t
        · subst hvt; exact hd u x hu hx
        · rw [upd_other _ _ hvt] at hv; exact h.disj u v x hu hv hne hx
    · intro u hu
      dsimp only at hu ⊢
      by_cases hut : u = t
      · subst hut; rw [upd_same]
      · rw [upd_other _ _ hut] at hu ⊢; exact h.born u hu
    · intro u hu
      dsimp only at hu ⊢
      by_cases hut : u = t
      · subst hut; rw [upd_same] at hu; simp at hu
      · rw [upd_other _ _ hut] at hu; exact h.unborn u hu
    · intro u hu
      dsimp only at hu ⊢
      by_cases hut : u = t
      · subst hut; rw [upd_same]; exact hpl
      · rw [upd_other _ _ hut] at hu ⊢; exact h.place u hu
    · intro u hu
      dsimp only at hu ⊢
      by_cases hut : u = t
      · subst hut
        obtain ⟨k1, k2⟩ := h.unborn u hb
        refine Holds.own hF.addr fun o b ho hw => .inl ?_
        refine img_tls (be := L.be) (F := featureSize L.env) (by unfold abiSize at ha; omega) ho ?_
        unfold want regLen idleId at hw
        dsimp only at hw
        rw [k1, k2] at hw
        by_cases hown : L.own = true
        · rw [if_pos hown] at hw; dsimp only at hw; rw [if_pos hown] at hw; exact hw
        · rw [if_neg hown] at hw; dsimp only at hw; rw [if_neg hown] at hw; exact hw
      · rw [upd_other _ _ hut] at hu
        refine holds_congr (s := s) rfl rfl (by dsimp only; rw [upd_other _ _ hut]) ?_
        refine Holds.other hF (fun x => hd u x hu) ?_ (h.flds u hu)
        intro o b hg
        unfold tlsImage at hg
        split at hg
        · assumption
        · simp at hg
  | exit t hal =>
    have sub : ∀ u, upd s.alive t false u = true → s.alive u = true := by
      intro u hu
      by_cases hut : u = t
      · subst hut; exact hal
      · rw [upd_other _ _ hut] at hu; exact hu
    exact ⟨h.p, fun u v x hu hv => h.disj u v x (sub u hu) (sub v hv), fun u hu => h.born u (sub u hu), h.unborn,
      fun u hu => h.place u (sub u hu), fun u hu => h.flds u (sub u hu)⟩

theorem Reach.inv (hF : Fits L) {s : State n} (h : Reach L s) : Inv L s := by
  induction h with
  | start m pl h => exact Inv.start hF m pl h
  | step _ hs ih => exact ih.step hF hs

end Verif.Area
