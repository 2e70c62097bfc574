import Verif.BarriersProps
/-
Examples for `BarriersProps.lean`: runs that meet the hypotheses, and runs that show what the macros do
not order.
-/

namespace Verif.Barrier

open Relation (TransGen ReflTransGen)
open Verif.Rseq (Arch)

/-! ### Finite runs -/

/-- Location and value a C operation stores. -/
def wOf : Op → Option (Nat × Int)
  | .store x v | .storeRelease x v => some (x, v)
  | _ => none

/-- Location and value a C operation loads. -/
def rOf : Op → Option (Nat × Int)
  | .load x v | .loadAcquire x v => some (x, v)
  | _ => none

/-- A run with memory initially 0. -/
def mk (th : List (List Op)) (rf co : List (Ev × Ev)) : Exec :=
  ⟨fun t => th.getD t [], fun _ => 0, fun w r => (w, r) ∈ rf, fun w w' => (w, w') ∈ co⟩

def opAt (th : List (List Op)) (e : Ev) : Option Op := (th.getD e.t [])[e.k]?

def evs (th : List (List Op)) : List Ev :=
  (List.range th.length).flatMap fun t => (List.range (th.getD t []).length).map fun k => ⟨t, k⟩

def wAt (th : List (List Op)) (e : Ev) : Option (Nat × Int) := (opAt th e).bind wOf
def rAt (th : List (List Op)) (e : Ev) : Option (Nat × Int) := (opAt th e).bind rOf

variable {th : List (List Op)} {rf co : List (Ev × Ev)}

theorem mk_isW {e : Ev} {x : Nat} {v : Int} : IsW (mk th rf co) e x v ↔ wAt th e = some (x, v) := by
  change ((opAt th e = _) ∨ opAt th e = _) ↔ _
  unfold wAt
  rcases opAt th e with _ | o
  · simp
  · cases o <;> simp [wOf]

theorem mk_isR {e : Ev} {x : Nat} {v : Int} : IsR (mk th rf co) e x v ↔ rAt th e = some (x, v) := by
  change ((opAt th e = _) ∨ opAt th e = _) ↔ _
  unfold rAt
  rcases opAt th e with _ | o
  · simp
  · cases o <;> simp [rOf]

theorem mem_evs {e : Ev} {o : Op} (h : opAt th e = some o) : e ∈ evs th := by
  obtain ⟨t, k⟩ := e
  simp only [opAt] at h
  have hk : k < (th.getD t []).length := (List.getElem?_eq_some_iff.1 h).1
  have ht : t < th.length := by
    refine Nat.lt_of_not_le fun hn => ?_
    rw [List.getD_eq_getElem?_getD, List.getElem?_eq_none hn] at hk
    simp at hk
  exact List.mem_flatMap.2 ⟨t, List.mem_range.2 ht, List.mem_map.2 ⟨k, List.mem_range.2 hk, rfl⟩⟩

theorem mem_w {e : Ev} {y : Nat × Int} (h : wAt th e = some y) : e ∈ evs th := by
  obtain ⟨o, h1, -⟩ := Option.bind_eq_some_iff.1 h
  exact mem_evs h1

theorem mem_r {e : Ev} {y : Nat × Int} (h : rAt th e = some y) : e ∈ evs th := by
  obtain ⟨o, h1, -⟩ := Option.bind_eq_some_iff.1 h
  exact mem_evs h1

/-- Check of `Fits`. -/
def fitsB (th : List (List Op)) (rf co : List (Ev × Ev)) : Bool :=
  (rf.all fun p => (wAt th p.1).isSome && wAt th p.1 == rAt th p.2) &&
  (rf.all fun p => rf.all fun q => p.2 != q.2 || p.1 == q.1) &&
  ((evs th).all fun e => match rAt th e with
    | none => true
    | some (_, v) => (rf.any fun p => p.2 == e) || v == 0) &&
  (co.all fun p => match wAt th p.1, wAt th p.2 with
    | some (x, _), some (y, _) => x == y && p.1 != p.2
    | _, _ => false) &&
  (co.all fun p => co.all fun q => p.2 != q.1 || co.contains (p.1, q.2)) &&
  ((evs th).all fun e => (evs th).all fun f => match wAt th e, wAt th f with
    | some (x, _), some (y, _) => x != y || e == f || co.contains (e, f) || co.contains (f, e)
    | _, _ => true)

theorem fits_of (h : fitsB th rf co = true) : Fits (mk th rf co) := by
  simp only [fitsB, Bool.and_eq_true, List.all_eq_true] at h
  obtain ⟨⟨⟨⟨⟨h1, h2⟩, h3⟩, h4⟩, h5⟩, h6⟩ := h
  refine ⟨?_, ?_, ?_, ?_, ?_, ?_, ?_⟩
  · intro w r hr
    have := h1 (w, r) hr
    simp only [Option.isSome_iff_exists, beq_iff_eq] at this
    obtain ⟨⟨⟨x, v⟩, hx⟩, he⟩ := this
    exact ⟨x, v, mk_isW.2 hx, mk_isR.2 (he ▸ hx)⟩
  · intro w w' r hr hr'
    have := h2 (w, r) hr (w', r) hr'
    simpa using this
  · intro r x v hr hn
    have hr := mk_isR.1 hr
    have := h3 r (mem_r hr)
    rw [hr] at this
    simp only [Bool.or_eq_true, List.any_eq_true, beq_iff_eq] at this
    rcases this with ⟨p, hp, rfl⟩ | hv
    · exact (hn p.1 hp).elim
    · exact hv
  · intro w w' hc
    have := h4 (w, w') hc
    revert this
    rcases hw : wAt th w with _ | ⟨x, v⟩ <;> rcases hw' : wAt th w' with _ | ⟨y, v'⟩ <;> simp
    rintro rfl -
    exact ⟨x, ⟨v, mk_isW.2 hw⟩, ⟨v', mk_isW.2 hw'⟩⟩
  · intro w hc
    have := h4 (w, w) hc
    revert this
    rcases hw : wAt th w with _ | ⟨x, v⟩ <;> simp
  · intro w w' w'' hc hc'
    have := h5 (w, w') hc (w', w'') hc'
    change (w, w'') ∈ co
    simpa using this
  · intro w w' x v v' hw hw' hne
    have hw := mk_isW.1 hw
    have hw' := mk_isW.1 hw'
    have := h6 w (mem_w hw) w' (mem_w hw')
    rw [hw, hw'] at this
    simp [hne] at this
    exact this

/-- Check of `Interleaved`. -/
def interB (th : List (List Op)) (rf co : List (Ev × Ev)) (time : Ev → Nat) : Bool :=
  fitsB th rf co &&
  ((evs th).all fun e => (evs th).all fun f => e.t != f.t || !(e.k < f.k) || time e < time f) &&
  (rf.all fun p => time p.1 < time p.2) &&
  (co.all fun p => time p.1 < time p.2) &&
  ((evs th).all fun e => (evs th).all fun f => match rAt th e, wAt th f with
    | some (x, _), some (y, _) => x != y || (rf.any fun p => p.2 == e && !(co.contains (p.1, f))) || time e < time f
    | _, _ => true)

theorem access_mem {e : Ev} (h : Access (mk th rf co) e) : e ∈ evs th := by
  obtain ⟨x, v, h | h⟩ := h
  · exact mem_r (mk_isR.1 h)
  · exact mem_w (mk_isW.1 h)

theorem inter_of {time : Ev → Nat} (h : interB th rf co time = true) : Interleaved (mk th rf co) time := by
  simp only [interB, Bool.and_eq_true, List.all_eq_true] at h
  obtain ⟨⟨⟨⟨h1, h2⟩, h3⟩, h4⟩, h5⟩ := h
  refine ⟨fits_of h1, ?_, ?_, ?_, ?_⟩
  · intro e f ⟨he, hf, ht, hk⟩
    have := h2 e (access_mem he) f (access_mem hf)
    simpa [ht, hk] using this
  · intro w r hr
    simpa using h3 (w, r) hr
  · intro w w' hc
    simpa using h4 (w, w') hc
  · intro r w ⟨x, v, v', hr, hw, hall⟩
    have hr := mk_isR.1 hr
    have hw := mk_isW.1 hw
    have := h5 r (mem_r hr) w (mem_w hw)
    rw [hr, hw] at this
    simp only [Bool.or_eq_true, List.any_eq_true, Bool.and_eq_true, beq_iff_eq, decide_eq_true_eq] at this
    rcases this with (h | ⟨p, hp, rfl, hn⟩) | h
    · simp at h
    · have := hall p.1 hp
      simp only [mk] at this
      simp [this] at hn
    · exact h

/-! ### Runs that meet the hypotheses -/

/-- Locations: 0 data, 1 flag, 2 second flag. The last load gets `v`. -/
def mpTh (v : Int) : List (List Op) :=
  [[.store 0 42, .storeRelease 1 1],
   [.loadAcquire 1 1, .storeRelease 2 1],
   [.load 2 1, .branch 0, .acqCtrl, .load 0 v]]

def mp (v : Int) (rf : List (Ev × Ev)) : Exec :=
  mk (mpTh v) ([(⟨0, 1⟩, ⟨1, 0⟩), (⟨1, 1⟩, ⟨2, 0⟩)] ++ rf) []

/-- `rseq_init` (rseq.c:217, rseq.c:298) and a third thread: possible on each architecture. -/
example (a : Arch) : Allowed a (mp 42 [(⟨0, 0⟩, ⟨2, 3⟩)]) :=
  interleaved_allowed a _ (fun e => e.t * 10 + e.k) (inter_of (by decide))

theorem mp_hb (v : Int) (rf : List (Ev × Ev)) : HB (mp v rf) ⟨0, 0⟩ ⟨2, 3⟩ := by
  have acc : ∀ {e x u}, wAt (mpTh v) e = some (x, u) ∨ rAt (mpTh v) e = some (x, u) → Access (mp v rf) e := by
    rintro e x u (h | h)
    · exact ⟨x, u, .inr (mk_isW.2 h)⟩
    · exact ⟨x, u, .inl (mk_isR.2 h)⟩
  have a00 : Access (mp v rf) ⟨0, 0⟩ := acc (.inl rfl)
  have a01 : Access (mp v rf) ⟨0, 1⟩ := acc (.inl rfl)
  have a10 : Access (mp v rf) ⟨1, 0⟩ := acc (.inr rfl)
  have a11 : Access (mp v rf) ⟨1, 1⟩ := acc (.inl rfl)
  have a20 : Access (mp v rf) ⟨2, 0⟩ := acc (.inr rfl)
  have a23 : Access (mp v rf) ⟨2, 3⟩ := acc (.inr rfl)
  refine TransGen.tail (b := ⟨1, 1⟩) (.single (.inr ⟨⟨0, 1⟩, ⟨1, 0⟩, .inr ⟨a00, a01, rfl, by decide⟩, ⟨1, 1, rfl⟩, ?_, ?_⟩)) ?_
  · simp [mp, mk]
  · exact .inl ⟨⟨1, 1, rfl⟩, a10, a11, rfl, by decide⟩
  · refine .inr ⟨⟨1, 1⟩, ⟨2, 0⟩, .inl rfl, ⟨2, 1, rfl⟩, by simp [mp, mk], .inr ⟨⟨2, 1, .inl rfl⟩, ?_, 1, 2, ?_⟩⟩
    · exact ⟨a20, a23, rfl, by decide⟩
    · exact ⟨by decide, by decide, by decide, rfl, rfl⟩

/-- The third thread cannot get anything but 42, however it got it. -/
example (a : Arch) (v : Int) (rf : List (Ev × Ev)) (h : Allowed a (mp v rf)) : v = 42 :=
  handover_value a _ h ⟨0, 0⟩ ⟨2, 3⟩ 0 42 v (.inl rfl) (.inl rfl) (mp_hb v rf) (by
    intro w' v' hw
    have hw := mk_isW.1 hw
    have hm := mem_w hw
    simp only [evs, mpTh] at hm
    simp [List.range_succ] at hm
    rcases hm with rfl | rfl | rfl | rfl | rfl | rfl | rfl | rfl <;>
      simp [wAt, opAt, mpTh, wOf] at hw ⊢)

example (a : Arch) (h : Allowed a (mp 42 [(⟨0, 0⟩, ⟨2, 3⟩)])) :
    ¬ Eff (mp 42 [(⟨0, 0⟩, ⟨2, 3⟩)]) ⟨2, 3⟩ ⟨0, 0⟩ :=
  (happens_before_respected a _ h _ _ (mp_hb _ _)).1

/-- Publication with `rseq_smp_wmb` (param_test.c:1553, param_test.c:1432). -/
def pubTh (v : Int) : List (List Op) :=
  [[.store 0 42, .wmb, .store 1 1], [.loadAcquire 1 1, .load 0 v]]

def pub (v : Int) (rf : List (Ev × Ev)) : Exec := mk (pubTh v) ((⟨0, 2⟩, ⟨1, 0⟩) :: rf) []

example (a : Arch) : Allowed a (pub 42 [(⟨0, 0⟩, ⟨1, 1⟩)]) :=
  interleaved_allowed a _ (fun e => e.t * 10 + e.k) (inter_of (by decide))

theorem pub_order (a : Arch) (v : Int) (rf : List (Ev × Ev)) (h : Allowed a (pub v rf)) :
    ¬ Eff (pub v rf) ⟨1, 1⟩ ⟨0, 0⟩ := by
  have w0 : IsW (pub v rf) ⟨0, 0⟩ 0 42 := .inl rfl
  have w2 : IsW (pub v rf) ⟨0, 2⟩ 1 1 := .inl rfl
  have r0 : IsR (pub v rf) ⟨1, 0⟩ 1 1 := .inr rfl
  have r1 : IsR (pub v rf) ⟨1, 1⟩ 0 v := .inl rfl
  exact wmb_publishes a _ h ⟨0, 0⟩ ⟨0, 2⟩ ⟨1, 0⟩ ⟨1, 1⟩ 0 1 42 1 w0 w2
    ⟨⟨w0.access, w2.access, rfl, by decide⟩, 1, by decide, by decide, rfl⟩ (by simp [pub, mk])
    (.inl (.inl ⟨⟨1, 1, rfl⟩, r0.access, r1.access, rfl, by decide⟩))

/-- The reader of a published pointer does not see the time before the publication. -/
example (a : Arch) : ¬ Allowed a (pub 0 []) := by
  intro h
  refine pub_order a 0 [] h (.single (.inr (.inr ⟨0, 0, 42, .inl rfl, .inl rfl, ?_⟩)))
  intro w0 h0
  simp [pub, mk] at h0

/-- Store buffering with `rseq_smp_mb`. -/
def sbTh (u v : Int) : List (List Op) :=
  [[.store 0 1, .mb, .load 1 u], [.store 1 1, .mb, .load 0 v]]

example (a : Arch) : Allowed a (mk (sbTh 0 1) [(⟨0, 0⟩, ⟨1, 2⟩)] []) :=
  interleaved_allowed a _ (fun e => e.t * 10 + e.k) (inter_of (by decide))

/-- The two threads cannot both miss the other's store. -/
example (a : Arch) : ¬ Allowed a (mk (sbTh 0 0) [] []) := by
  intro h
  have w0 : IsW (mk (sbTh 0 0) [] []) ⟨0, 0⟩ 0 1 := .inl rfl
  have w1 : IsW (mk (sbTh 0 0) [] []) ⟨1, 0⟩ 1 1 := .inl rfl
  have r0 : IsR (mk (sbTh 0 0) [] []) ⟨0, 2⟩ 1 0 := .inl rfl
  have r1 : IsR (mk (sbTh 0 0) [] []) ⟨1, 2⟩ 0 0 := .inl rfl
  have s0 : Sep (mk (sbTh 0 0) [] []) .mb ⟨0, 0⟩ ⟨0, 2⟩ :=
    ⟨⟨w0.access, r0.access, rfl, by decide⟩, 1, by decide, by decide, rfl⟩
  have s1 : Sep (mk (sbTh 0 0) [] []) .mb ⟨1, 0⟩ ⟨1, 2⟩ :=
    ⟨⟨w1.access, r1.access, rfl, by decide⟩, 1, by decide, by decide, rfl⟩
  have f0 : Older (mk (sbTh 0 0) [] []) ⟨0, 2⟩ ⟨1, 0⟩ := ⟨1, 0, 1, r0, w1, fun w hw => by simp [mk] at hw⟩
  have f1 : Older (mk (sbTh 0 0) [] []) ⟨1, 2⟩ ⟨0, 0⟩ := ⟨0, 0, 1, r1, w0, fun w hw => by simp [mk] at hw⟩
  exact mb_sequential a _ h ⟨0, 0⟩
    (.tail (.tail (.tail (.single (.inl s0)) (.inr (.inr (.inr f0)))) (.inl s1)) (.inr (.inr (.inr f1))))

/-- Two threads that each take the lock (location 0) and increment the counter (location 1). -/
def lockTh : List (List Op) :=
  [[.load 0 0, .branch 0, .store 0 1, .acqCtrl, .load 1 0, .store 1 1, .storeRelease 0 0],
   [.load 0 0, .branch 0, .store 0 1, .acqCtrl, .load 1 1, .store 1 2, .storeRelease 0 0]]

def lockCo : List (Ev × Ev) :=
  [(⟨0, 2⟩, ⟨0, 6⟩), (⟨0, 2⟩, ⟨1, 2⟩), (⟨0, 2⟩, ⟨1, 6⟩), (⟨0, 6⟩, ⟨1, 2⟩), (⟨0, 6⟩, ⟨1, 6⟩), (⟨1, 2⟩, ⟨1, 6⟩),
   (⟨0, 5⟩, ⟨1, 5⟩)]

def lockRun : Exec := mk lockTh [(⟨0, 6⟩, ⟨1, 0⟩), (⟨0, 5⟩, ⟨1, 4⟩)] lockCo

theorem lockRun_allowed (a : Arch) : Allowed a lockRun :=
  interleaved_allowed a _ (fun e => e.t * 10 + e.k) (inter_of (by decide))

def lockC (i : Fin 2) : Sect := ⟨i.val, 0, 1, 2, 3, some 6⟩

theorem lock_sections : Sections lockRun 0 lockC where
  isIn i := by
    match i with
    | 0 => exact ⟨by decide, by decide, by decide, rfl, rfl, rfl, rfl, fun k hk => by cases hk; exact ⟨by decide, rfl⟩⟩
    | 1 => exact ⟨by decide, by decide, by decide, rfl, rfl, rfl, rfl, fun k hk => by cases hk; exact ⟨by decide, rfl⟩⟩
  only w v h := by
    have hw := mk_isW.1 h
    have hm := mem_w hw
    have : ∀ e ∈ evs lockTh, (wAt lockTh e).map (·.1) = some 0 →
        ∃ i, e = (lockC i).st ∨ e = ⟨(lockC i).t, 6⟩ := by decide
    obtain ⟨i, h | h⟩ := this w hm (by rw [hw]; rfl)
    · exact ⟨i, .inl h⟩
    · exact ⟨i, .inr ⟨6, rfl, h⟩⟩
  st_inj := by decide
  kr_inj i j k ht _ _ := Fin.ext ht
  serial i j hall hco := by
    have hco : ((lockC i).st, (lockC j).st) ∈ lockCo := hco
    have key : ∀ i j, ((lockC i).st, (lockC j).st) ∈ lockCo → i = 0 ∧ j = 1 := by decide
    have : i = 0 ∧ j = 1 := key i j hco
    obtain ⟨rfl, rfl⟩ := this
    have h6 : ((⟨0, 6⟩ : Ev), (lockC 0).st) ∈ lockCo := hall ⟨0, 6⟩ (by simp [lockRun, mk, lockC, Sect.ld])
    revert h6; decide

theorem lock_counting : Counting lockRun 1 lockC (fun _ => 4) (fun _ => 5) (fun i => (i.val : Int)) where
  order i := by simp [lockC]
  load i := by match i with
    | 0 => rfl
    | 1 => rfl
  store i := by match i with
    | 0 => rfl
    | 1 => rfl
  rel i := ⟨6, rfl, by decide⟩
  only w v h := by
    have hw := mk_isW.1 h
    have hm := mem_w hw
    have : ∀ e ∈ evs lockTh, (wAt lockTh e).map (·.1) = some 1 → ∃ i, e = ⟨(lockC i).t, 5⟩ := by decide
    exact this w hm (by rw [hw]; rfl)

example (a : Arch) : Precedes lockRun (lockC 0) (lockC 1) ∨ Precedes lockRun (lockC 1) (lockC 0) :=
  lock_orders_sections a lockRun (lockRun_allowed a) 0 lockC lock_sections 0 1 (by decide)

/-- The only final value is 2. -/
example (a : Arch) (u : Int) (hf : Final lockRun 1 u) : u = 2 := by
  have := lock_counter_exact a lockRun (lockRun_allowed a) 0 1 lockC lock_sections _ _ _ lock_counting u hf
  simpa [lockRun, mk] using this

/-! ### What the macros do not order -/

/-- Kind of the access of an event. -/
def kindAt (th : List (List Op)) (e : Ev) : Option RW :=
  if (rAt th e).isSome then some .r else if (wAt th e).isSome then some .w else none

/-- Could the instruction order accesses of kinds `k1`, `k2` around it? -/
def mayOrder (k1 k2 : RW) : Instr → Bool
  | .bar b => b.orders k1 k2
  | .br _ => k1 == .r && k2 == .w
  | _ => false

def isLdar : Instr → Bool
  | .ldar _ _ => true
  | _ => false

def isStlr : Instr → Bool
  | .stlr _ _ => true
  | _ => false

/-- Instructions of operation `k` of thread `t`. -/
def insOf (a : Arch) (th : List (List Op)) (t k : Nat) : List Instr :=
  match opAt th ⟨t, k⟩ with
  | some o => expand a o
  | none => []

/-- Order inside a thread that the architecture might keep (not less than `Ppo` and `Fenced`). -/
def poB (a : Arch) (th : List (List Op)) (e f : Ev) : Bool :=
  match kindAt th e, kindAt th f with
  | some k1, some k2 => e.t == f.t && e.k < f.k &&
    (tso a && !(k1 == .w && k2 == .r) ||
      ((List.range (f.k + 1)).any fun k => e.k ≤ k && (insOf a th e.t k).any (mayOrder k1 k2)) ||
      (insOf a th e.t e.k).any isLdar || (insOf a th f.t f.k).any isStlr)
  | _, _ => false

theorem mk_acc {a : Arch} {e : Ev} {j : Nat} {k : RW} (h : Acc a (mk th rf co) e j k) : kindAt th e = some k := by
  rcases acc_kind h with ⟨rfl, x, v, h⟩ | ⟨rfl, x, v, h⟩
  · simp [kindAt, mk_isR.1 h]
  · have : ∀ y, rAt th e ≠ some y := by
      intro ⟨y, u⟩ hr
      exact not_r_w (mk_isR (rf := rf) (co := co).2 hr) h
    have hn : rAt th e = none := by
      rcases hr : rAt th e with _ | y
      · rfl
      · exact (this y hr).elim
    simp [kindAt, mk_isW.1 h, hn]

theorem mk_ins {a : Arch} {t : Nat} {p : Nat × Nat} {i : Instr} (h : ins a (mk th rf co) t p = some i) :
    i ∈ insOf a th t p.1 := by
  simp only [ins, Option.bind_eq_some_iff] at h
  obtain ⟨o, ho, hi⟩ := h
  have : opAt th ⟨t, p.1⟩ = some o := ho
  simp only [insOf, this]
  exact List.mem_of_getElem? hi

theorem before_le {p q : Nat × Nat} (h : Before p q) : p.1 ≤ q.1 := by
  simp only [Before] at h
  omega

theorem hb_poB {a : Arch} {e f : Ev} (h : Hb a (mk th rf co) e f) : Ext (mk th rf co).rf e f ∨ poB a th e f = true := by
  rcases h with hp | hp | h
  · right
    have hpo := Ppo.po hp
    have ht := hpo.2.2.1
    have hk := hpo.2.2.2
    rcases hp with ⟨-, j1, j2, p, h1, h2, hi, b1, b2⟩ | ⟨-, j1, j2, k1, k2, h1, h2, -, hh⟩ |
      ⟨hs, -, j1, j2, k1, k2, h1, h2, -, hn⟩
    · have l1 := before_le b1
      have l2 := before_le b2
      simp only [poB, mk_acc h1, mk_acc h2, ht, hk]
      simp only [BEq.rfl, decide_true, Bool.true_and, Bool.or_eq_true, List.any_eq_true, Bool.and_eq_true]
      refine .inl (.inl (.inr ⟨p.1, List.mem_range.2 (Nat.lt_succ_of_le l2), by simpa using l1, .br e.k, ?_, rfl⟩))
      rw [← ht]; exact mk_ins hi
    · simp only [poB, mk_acc h1, mk_acc h2, ht, hk]
      simp only [BEq.rfl, decide_true, Bool.true_and, Bool.or_eq_true, List.any_eq_true]
      rcases hh with ⟨x, v, hi⟩ | ⟨x, v, hi⟩
      · exact .inl (.inr ⟨_, ht ▸ mk_ins hi, rfl⟩)
      · exact .inr ⟨_, mk_ins hi, rfl⟩
    · simp only [poB, mk_acc h1, mk_acc h2, ht, hk, hs]
      have : (!(k1 == RW.w && k2 == RW.r)) = true := by
        cases k1 <;> cases k2 <;> simp_all
      simp [this]
  · right
    obtain ⟨b, k1, k2, hb, ho⟩ := hp
    have hpo := hb.po
    have ht := hpo.2.2.1
    have hk := hpo.2.2.2
    obtain ⟨-, j1, j2, p, h1, h2, hi, b1, b2⟩ := hb
    have l1 := before_le b1
    have l2 := before_le b2
    simp only [poB, mk_acc h1, mk_acc h2, ht, hk]
    simp only [BEq.rfl, decide_true, Bool.true_and, Bool.or_eq_true, List.any_eq_true, Bool.and_eq_true]
    refine .inl (.inl (.inr ⟨p.1, List.mem_range.2 (Nat.lt_succ_of_le l2), by simpa using l1, .bar b, ?_, ho⟩))
    rw [← ht]; exact mk_ins hi
  · exact .inl h

def isBar : Instr → Bool
  | .bar _ => true
  | _ => false

/-- No barrier instructions in the run. -/
def noBar (a : Arch) (th : List (List Op)) : Bool := (evs th).all fun e => !(insOf a th e.t e.k).any isBar

theorem noBar_ins {a : Arch} (h : noBar a th = true) {t : Nat} {p : Nat × Nat} {b : Bar}
    (hi : ins a (mk th rf co) t p = some (.bar b)) : False := by
  have hm := mk_ins hi
  have hmem : (⟨t, p.1⟩ : Ev) ∈ evs th := by
    simp only [ins, Option.bind_eq_some_iff] at hi
    obtain ⟨o, ho, -⟩ := hi
    exact mem_evs (e := ⟨t, p.1⟩) ho
  have := List.all_eq_true.1 h _ hmem
  simp only [Bool.not_eq_true', List.any_eq_false] at this
  exact this _ hm rfl

theorem noBar_fenced {a : Arch} (h : noBar a th = true) {e f : Ev} {b : Bar} {k1 k2 : RW}
    (hf : Between a (mk th rf co) b k1 k2 e f) : False := by
  obtain ⟨-, j1, j2, p, -, -, hi, -⟩ := hf
  exact noBar_ins h hi

theorem noBar_prop {a : Arch} (h : noBar a th = true) {e f : Ev} (hp : Prop' a (mk th rf co) e f) : False := by
  rcases hp with ⟨⟨g, ⟨b, k1, k2, hb, -⟩, -⟩ | ⟨r, g, -, ⟨b, k1, k2, hb, -⟩, -⟩, -⟩ | ⟨b, c, d, -, -, ⟨b', k1, k2, hb, -⟩, -⟩ <;>
    exact noBar_fenced h hb

/-- Check of `Allowed` on the architectures with one global order, and on the others for runs without barrier
instructions: `t1` orders each location, `t2` everything. -/
def allowB (a : Arch) (th : List (List Op)) (rf co : List (Ev × Ev)) (t1 t2 : Ev → Nat) : Bool :=
  fitsB th rf co && (multiCopy a || noBar a th) &&
  ((evs th).all fun e => (evs th).all fun f => e.t != f.t || !(e.k < f.k) ||
    ((rAt th e).or (wAt th e)).map (·.1) != ((rAt th f).or (wAt th f)).map (·.1) || t1 e < t1 f) &&
  (rf.all fun p => t1 p.1 < t1 p.2 && (p.1.t == p.2.t || t2 p.1 < t2 p.2)) &&
  (co.all fun p => t1 p.1 < t1 p.2 && (p.1.t == p.2.t || t2 p.1 < t2 p.2)) &&
  ((evs th).all fun e => (evs th).all fun f => match rAt th e, wAt th f with
    | some (x, _), some (y, _) => x != y || (rf.any fun p => p.2 == e && !(co.contains (p.1, f))) ||
      t1 e < t1 f && (e.t == f.t || t2 e < t2 f)
    | _, _ => true) &&
  ((evs th).all fun e => (evs th).all fun f => !(poB a th e f) || t2 e < t2 f)

theorem kind_mem {e : Ev} {k : RW} (h : kindAt th e = some k) : e ∈ evs th := by
  unfold kindAt at h
  rcases hr : rAt th e with _ | y
  · rcases hw : wAt th e with _ | y
    · simp [hr, hw] at h
    · exact mem_w hw
  · exact mem_r hr

theorem poB_mem {a : Arch} {e f : Ev} (h : poB a th e f = true) : e ∈ evs th ∧ f ∈ evs th := by
  unfold poB at h
  rcases h1 : kindAt th e with _ | k1
  · simp [h1] at h
  · rcases h2 : kindAt th f with _ | k2
    · simp [h1, h2] at h
    · exact ⟨kind_mem h1, kind_mem h2⟩

theorem at_loc {e : Ev} {x : Nat} (h : At (mk th rf co) e x) : ((rAt th e).or (wAt th e)).map (·.1) = some x := by
  obtain ⟨v, h | h⟩ := h
  · simp [mk_isR.1 h]
  · have hn : rAt th e = none := by
      rcases hr : rAt th e with _ | ⟨y, u⟩
      · rfl
      · exact (not_r_w (mk_isR (rf := rf) (co := co).2 hr) h).elim
    simp [hn, mk_isW.1 h]

theorem allowed_of {a : Arch} {t1 t2 : Ev → Nat} (h : allowB a th rf co t1 t2 = true) : Allowed a (mk th rf co) := by
  simp only [allowB, Bool.and_eq_true, List.all_eq_true] at h
  obtain ⟨⟨⟨⟨⟨⟨h1, hm⟩, h2⟩, h3⟩, h4⟩, h5⟩, h6⟩ := h
  have com : ∀ {e f}, Comm (mk th rf co) e f → t1 e < t1 f ∧ (e.t = f.t ∨ t2 e < t2 f) := by
    rintro e f (hc | hc | ⟨x, v, v', hr, hw, hall⟩)
    · simpa using h3 (e, f) hc
    · simpa using h4 (e, f) hc
    · have hr := mk_isR.1 hr
      have hw := mk_isW.1 hw
      have := h5 e (mem_r hr) f (mem_w hw)
      rw [hr, hw] at this
      simp only [Bool.or_eq_true, List.any_eq_true, Bool.and_eq_true, beq_iff_eq, decide_eq_true_eq] at this
      rcases this with (h | ⟨p, hp, rfl, hn⟩) | h
      · simp at h
      · have := hall p.1 hp
        simp only [mk] at this
        simp [this] at hn
      · exact h
  have hb : ∀ {e f}, Hb a (mk th rf co) e f → t2 e < t2 f := by
    intro e f hb
    rcases hb_poB hb with hr | hp
    · rcases (com (.inl hr.1)).2 with ht | ht
      · exact (hr.2 ht).elim
      · exact ht
    · obtain ⟨m1, m2⟩ := poB_mem hp
      simpa [hp] using h6 e m1 f m2
  refine ⟨(fits_of h1).wf a, ?_, fun _ => ?_, ?_, fun hf => ?_, fun hf => ?_⟩
  · refine acyclic_of t1 fun e f h => ?_
    rcases h with h | h
    · obtain ⟨ht, hk, x, a1, a2⟩ := poLoc_iff.1 h
      have := h2 e (access_mem (At.access a1)) f (access_mem (At.access a2))
      simpa [ht, hk, at_loc a1, at_loc a2] using this
    · exact (com (com_iff.1 h)).1
  · refine acyclic_of t2 fun e f h => ?_
    rcases h with h | h
    · exact hb h
    · rcases (com (com_iff.1 h.1)).2 with ht | ht
      · exact (h.2 ht).elim
      · exact ht
  · exact acyclic_of t2 fun e f h => hb h
  · have hm : noBar a th = true := by simpa [hf] using hm
    exact fun r w w' _ hp => (noBar_prop hm hp).elim
  · have hm : noBar a th = true := by simpa [hf] using hm
    refine acyclic_of t1 fun e f h => ?_
    rcases h with h | h
    · exact (com (.inr (.inl h))).1
    · exact (noBar_prop hm h).elim

/-- Rank for `allowed_of`. -/
def rank (l : List (Ev × Nat)) (e : Ev) : Nat := ((l.find? fun p => p.1 == e).map (·.2)).getD 0

/-- Release and acquire do not replace `rseq_smp_mb`: on x86 both threads may miss the other's store. -/
theorem release_acquire_not_full :
    Allowed .x86_64 (mk [[.storeRelease 0 1, .loadAcquire 1 0], [.storeRelease 1 1, .loadAcquire 0 0]] [] []) :=
  allowed_of (t1 := fun e => 1 - e.k) (t2 := fun e => 1 - e.k) (by decide)

/-- `rseq_smp_acquire__after_ctrl_dep` without a branch on the loaded value is no acquire: on riscv both
threads may read the other's later store. -/
theorem acquire_needs_branch :
    Allowed .riscv (mk [[.load 0 1, .acqCtrl, .store 1 1], [.load 1 1, .acqCtrl, .store 0 1]]
      [(⟨1, 2⟩, ⟨0, 0⟩), (⟨0, 2⟩, ⟨1, 0⟩)] []) :=
  allowed_of (t1 := fun e => 2 - e.k) (t2 := fun e => 2 - e.k) (by decide)

/-- `rseq_smp_wmb` does not replace a release: on riscv it does not hand over what the publishing thread
only read. -/
theorem wmb_not_release :
    Allowed .riscv (mk [[.store 0 1], [.load 0 1, .wmb, .store 1 1], [.loadAcquire 1 1, .load 0 0]]
      [(⟨0, 0⟩, ⟨1, 0⟩), (⟨1, 2⟩, ⟨2, 0⟩)] []) :=
  allowed_of (t1 := rank [(⟨1, 2⟩, 0), (⟨2, 0⟩, 1), (⟨2, 1⟩, 2), (⟨0, 0⟩, 3), (⟨1, 0⟩, 4)])
    (t2 := rank [(⟨1, 2⟩, 0), (⟨2, 0⟩, 1), (⟨2, 1⟩, 2), (⟨0, 0⟩, 3), (⟨1, 0⟩, 4)]) (by decide)

/-- Plain stores and loads publish nothing on aarch64. -/
theorem plain_not_ordered :
    Allowed .aarch64 (mk [[.store 0 42, .store 1 1], [.load 1 1, .load 0 0]] [(⟨0, 1⟩, ⟨1, 0⟩)] []) :=
  allowed_of (t1 := rank [(⟨0, 1⟩, 0), (⟨1, 0⟩, 1), (⟨1, 1⟩, 2), (⟨0, 0⟩, 3)])
    (t2 := rank [(⟨0, 1⟩, 0), (⟨1, 0⟩, 1), (⟨1, 1⟩, 2), (⟨0, 0⟩, 3)]) (by decide)

end Verif.Barrier
