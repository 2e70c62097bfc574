import Verif.BarriersSpec
/- Helper lemmas for `BarriersProps.lean`. -/

namespace Verif.Barrier

open Relation (TransGen ReflTransGen)
open Verif.Rseq (Arch)

variable {a : Arch} {X : Exec}

theorem tgMono {R S : Ev → Ev → Prop} {e e' : Ev} (h : TransGen R e e') (hs : ∀ x y, R x y → S x y) :
    TransGen S e e' := by
  induction h with
  | single h => exact .single (hs _ _ h)
  | tail _ h ih => exact ih.tail (hs _ _ h)

/-! ### Operations and instructions -/

theorem ins_op {e : Ev} {o : Op} (h : X.op e = some o) (j : Nat) :
    ins a X e.t (e.k, j) = (expand a o)[j]? := by
  simp only [Exec.op] at h
  simp [ins, h]

theorem ins_none {e : Ev} (h : X.op e = none) (j : Nat) : ins a X e.t (e.k, j) = none := by
  simp only [Exec.op] at h
  simp [ins, h]

theorem getElem?_one {α} {x i : α} {j : Nat} (h : [x][j]? = some i) : i = x := by
  rcases j with _ | j <;> simp_all

theorem getElem?_two {α} {x y i : α} {j : Nat} (h : [x, y][j]? = some i) : i = x ∨ i = y := by
  rcases j with _ | _ | j <;> simp_all

theorem expand_read {o : Op} {j : Nat} {i : Instr} {x : Nat} {v : Int}
    (h : (expand a o)[j]? = some i) (hr : i.read = some (x, v)) :
    o = .load x v ∨ o = .loadAcquire x v := by
  have hm : i ∈ expand a o := List.mem_of_getElem? h
  cases o <;> cases a <;>
    simp [expand, loadAcquireI, storeReleaseI, mbI, rmbI, wmbI, acqCtrlI] at hm <;>
    (try rcases hm with rfl | rfl) <;> (try subst hm) <;> simp_all [Instr.read]

theorem expand_write {o : Op} {j : Nat} {i : Instr} {x : Nat} {v : Int}
    (h : (expand a o)[j]? = some i) (hr : i.write = some (x, v)) :
    o = .store x v ∨ o = .storeRelease x v := by
  have hm : i ∈ expand a o := List.mem_of_getElem? h
  cases o <;> cases a <;>
    simp [expand, loadAcquireI, storeReleaseI, mbI, rmbI, wmbI, acqCtrlI] at hm <;>
    (try rcases hm with rfl | rfl) <;> (try subst hm) <;> simp_all [Instr.write]

/-- The load is the first instruction. -/
theorem expand_load (a : Arch) {o : Op} {x : Nat} {v : Int} (h : o = .load x v ∨ o = .loadAcquire x v) :
    ∃ i : Instr, (expand a o)[0]? = some i ∧ i.read = some (x, v) ∧ i.rw = some .r := by
  rcases h with rfl | rfl <;> cases a <;> simp [expand, loadAcquireI, Instr.read, Instr.rw]

/-- The store is the last instruction. -/
theorem expand_store (a : Arch) {o : Op} {x : Nat} {v : Int} (h : o = .store x v ∨ o = .storeRelease x v) :
    ∃ (j : Nat) (i : Instr), (expand a o)[j]? = some i ∧ i.write = some (x, v) ∧ i.rw = some .w := by
  rcases h with rfl | rfl
  · exact ⟨0, .st x v, by simp [expand], rfl, rfl⟩
  · cases a <;> first
      | exact ⟨0, .st x v, rfl, rfl, rfl⟩
      | exact ⟨1, .st x v, rfl, rfl, rfl⟩
      | exact ⟨0, .stlr x v, rfl, rfl, rfl⟩

theorem isR_op {e : Ev} {x : Nat} {v : Int} (h : IsR X e x v) :
    ∃ o, X.op e = some o ∧ (o = .load x v ∨ o = .loadAcquire x v) := by
  rcases h with h | h <;> exact ⟨_, h, by simp⟩

theorem isW_op {e : Ev} {x : Nat} {v : Int} (h : IsW X e x v) :
    ∃ o, X.op e = some o ∧ (o = .store x v ∨ o = .storeRelease x v) := by
  rcases h with h | h <;> exact ⟨_, h, by simp⟩

theorem reads_iff {e : Ev} {x : Nat} {v : Int} : Reads a X e x v ↔ IsR X e x v := by
  constructor
  · rintro ⟨j, i, hi, hr⟩
    rcases ho : X.op e with _ | o
    · rw [ins_none ho] at hi; simp at hi
    · rw [ins_op ho] at hi
      rcases expand_read hi hr with rfl | rfl
      · exact .inl ho
      · exact .inr ho
  · intro h
    obtain ⟨o, ho, hc⟩ := isR_op h
    obtain ⟨i, hi, hr, -⟩ := expand_load a hc
    exact ⟨0, i, by rw [ins_op ho]; exact hi, hr⟩

theorem writes_iff {e : Ev} {x : Nat} {v : Int} : Writes a X e x v ↔ IsW X e x v := by
  constructor
  · rintro ⟨j, i, hi, hr⟩
    rcases ho : X.op e with _ | o
    · rw [ins_none ho] at hi; simp at hi
    · rw [ins_op ho] at hi
      rcases expand_write hi hr with rfl | rfl
      · exact .inl ho
      · exact .inr ho
  · intro h
    obtain ⟨o, ho, hc⟩ := isW_op h
    obtain ⟨j, i, hi, hr, -⟩ := expand_store a hc
    exact ⟨j, i, by rw [ins_op ho]; exact hi, hr⟩

theorem acc_r {e : Ev} {x : Nat} {v : Int} (h : IsR X e x v) : Acc a X e 0 .r := by
  obtain ⟨o, ho, hc⟩ := isR_op h
  obtain ⟨i, hi, -, hk⟩ := expand_load a hc
  exact ⟨i, by rw [ins_op ho]; exact hi, hk⟩

theorem acc_w {e : Ev} {x : Nat} {v : Int} (h : IsW X e x v) : ∃ j, Acc a X e j .w := by
  obtain ⟨o, ho, hc⟩ := isW_op h
  obtain ⟨j, i, hi, -, hk⟩ := expand_store a hc
  exact ⟨j, i, by rw [ins_op ho]; exact hi, hk⟩

theorem access_acc {e : Ev} (h : Access X e) : ∃ j k, Acc a X e j k := by
  obtain ⟨x, v, h | h⟩ := h
  · exact ⟨0, _, acc_r h⟩
  · obtain ⟨j, hj⟩ := acc_w (a := a) h
    exact ⟨j, _, hj⟩

theorem IsR.access {e : Ev} {x : Nat} {v : Int} (h : IsR X e x v) : Access X e := ⟨x, v, .inl h⟩
theorem IsW.access {e : Ev} {x : Nat} {v : Int} (h : IsW X e x v) : Access X e := ⟨x, v, .inr h⟩

theorem Release.isW {e : Ev} (h : Release X e) : ∃ x v, IsW X e x v := by
  obtain ⟨x, v, h⟩ := h; exact ⟨x, v, .inr h⟩

theorem not_r_w {e : Ev} {x y : Nat} {v u : Int} (h : IsR X e x v) (h' : IsW X e y u) : False := by
  rcases h with h | h <;> rcases h' with h' | h' <;> rw [h] at h' <;> simp at h'

theorem isR_unique {e : Ev} {x y : Nat} {v u : Int} (h : IsR X e x v) (h' : IsR X e y u) : x = y ∧ v = u := by
  rcases h with h | h <;> rcases h' with h' | h' <;> rw [h] at h' <;> simp_all

theorem isW_unique {e : Ev} {x y : Nat} {v u : Int} (h : IsW X e x v) (h' : IsW X e y u) : x = y ∧ v = u := by
  rcases h with h | h <;> rcases h' with h' | h' <;> rw [h] at h' <;> simp_all

theorem fr_iff {r w : Ev} : Fr a X r w ↔ Older X r w := by
  simp only [Fr, Older, reads_iff, writes_iff]

theorem po_trans {e1 e2 e3 : Ev} (h : Po X e1 e2) (h' : Po X e2 e3) : Po X e1 e3 :=
  ⟨h.1, h'.2.1, h.2.2.1.trans h'.2.2.1, Nat.lt_trans h.2.2.2 h'.2.2.2⟩

/-! ### Barriers of each architecture -/

/-- An operation between two accesses that contains barrier `b`. -/
theorem between_of {e1 e2 : Ev} {k : Nat} {o : Op} {b : Bar} {j1 j2 jb : Nat} {k1 k2 : RW}
    (ht : e1.t = e2.t) (h1 : Acc a X e1 j1 k1) (h2 : Acc a X e2 j2 k2) (hl : e1.k < k) (hr : k < e2.k)
    (ho : X.op ⟨e1.t, k⟩ = some o) (hb : (expand a o)[jb]? = some (.bar b)) : Between a X b k1 k2 e1 e2 :=
  ⟨ht, j1, j2, (k, jb), h1, h2, by rw [← hb]; exact ins_op ho jb, .inl hl, .inl hr⟩

theorem acc_unique {e : Ev} {o : Op} (ho : X.op e = some o) {j : Nat} {k : RW} (h : Acc a X e j k) :
    ∃ i, (expand a o)[j]? = some i ∧ i.rw = some k := by
  obtain ⟨i, hi, hk⟩ := h
  exact ⟨i, by rw [← ins_op ho]; exact hi, hk⟩

/-- Order that carries over to what the first event read. -/
def F (a : Arch) (X : Exec) (e s : Ev) : Prop := CFenced a X e s ∨ multiCopy a = true ∧ Hb a X e s

theorem F.hb {e s : Ev} (h : F a X e s) : Hb a X e s := by
  rcases h with ⟨b, k1, k2, h, h', -⟩ | ⟨-, h⟩
  · exact .inr (.inl ⟨b, k1, k2, h, h'⟩)
  · exact h

/-- A store-release comes after everything earlier. -/
theorem release_F {e s : Ev} (hp : Po X e s) (hs : Release X s) : F a X e s := by
  obtain ⟨he, -, ht, hk⟩ := hp
  obtain ⟨j1, k1, h1⟩ := access_acc (a := a) he
  obtain ⟨x, v, ho⟩ := hs
  have hins := fun j => ins_op (a := a) ho j
  cases a
  case x86_64 =>
    refine .inr ⟨rfl, .inl (.inr (.inr ⟨rfl, ht, j1, 0, k1, .w, h1, ⟨.st x v, ?_, rfl⟩, .inl hk, by simp⟩))⟩
    rw [hins]; rfl
  case i386 =>
    refine .inr ⟨rfl, .inl (.inr (.inr ⟨rfl, ht, j1, 0, k1, .w, h1, ⟨.st x v, ?_, rfl⟩, .inl hk, by simp⟩))⟩
    rw [hins]; rfl
  case s390 =>
    refine .inr ⟨rfl, .inl (.inr (.inr ⟨rfl, ht, j1, 0, k1, .w, h1, ⟨.st x v, ?_, rfl⟩, .inl hk, by simp⟩))⟩
    rw [hins]; rfl
  case aarch64 =>
    refine .inr ⟨rfl, .inl (.inr (.inl ⟨ht, j1, 0, k1, .w, h1, ⟨.stlr x v, ?_, rfl⟩, .inl hk, .inr ⟨x, v, ?_⟩⟩))⟩ <;>
    · rw [hins]; rfl
  case riscv =>
    refine .inl ⟨.fence true true false true, k1, .w, ⟨ht, j1, 1, (s.k, 0), h1, ⟨.st x v, ?_, rfl⟩, ?_, .inl hk, .inr ⟨rfl, by simp⟩⟩, ?_, by decide⟩
    · rw [hins]; rfl
    · rw [ht, hins]; rfl
    · cases k1 <;> decide
  case ppc =>
    refine .inl ⟨.lwsync, k1, .w, ⟨ht, j1, 1, (s.k, 0), h1, ⟨.st x v, ?_, rfl⟩, ?_, .inl hk, .inr ⟨rfl, by simp⟩⟩, ?_, by decide⟩
    · rw [hins]; rfl
    · rw [ht, hins]; rfl
    · cases k1 <;> decide
  case mips =>
    refine .inl ⟨.mipsSync, k1, .w, ⟨ht, j1, 1, (s.k, 0), h1, ⟨.st x v, ?_, rfl⟩, ?_, .inl hk, .inr ⟨rfl, by simp⟩⟩, ?_, by decide⟩
    · rw [hins]; rfl
    · rw [ht, hins]; rfl
    · cases k1 <;> decide
  case arm =>
    refine .inl ⟨.dmb, k1, .w, ⟨ht, j1, 1, (s.k, 0), h1, ⟨.st x v, ?_, rfl⟩, ?_, .inl hk, .inr ⟨rfl, by simp⟩⟩, ?_, by decide⟩
    · rw [hins]; rfl
    · rw [ht, hins]; rfl
    · cases k1 <;> decide
  case loongarch =>
    refine .inl ⟨.dbar 0x12, k1, .w, ⟨ht, j1, 1, (s.k, 0), h1, ⟨.st x v, ?_, rfl⟩, ?_, .inl hk, .inr ⟨rfl, by simp⟩⟩, ?_, by decide⟩
    · rw [hins]; rfl
    · rw [ht, hins]; rfl
    · cases k1 <;> decide

/-- Everything later comes after a load-acquire. -/
theorem loadAcquire_hb {l e : Ev} (hp : Po X l e) {x : Nat} {v : Int} (ho : X.op l = some (.loadAcquire x v)) :
    Hb a X l e := by
  obtain ⟨-, he, ht, hk⟩ := hp
  obtain ⟨j2, k2, h2⟩ := access_acc (a := a) he
  have hins := fun j => ins_op (a := a) ho j
  have h1 : Acc a X l 0 .r := acc_r (.inr ho)
  cases a
  case x86_64 => exact .inl (.inr (.inr ⟨rfl, ht, 0, j2, .r, k2, h1, h2, .inl hk, by simp⟩))
  case i386 => exact .inl (.inr (.inr ⟨rfl, ht, 0, j2, .r, k2, h1, h2, .inl hk, by simp⟩))
  case s390 => exact .inl (.inr (.inr ⟨rfl, ht, 0, j2, .r, k2, h1, h2, .inl hk, by simp⟩))
  case aarch64 =>
    refine .inl (.inr (.inl ⟨ht, 0, j2, .r, k2, h1, h2, .inl hk, .inl ⟨x, v, ?_⟩⟩))
    rw [hins]; rfl
  case riscv =>
    refine .inr (.inl ⟨.fence true false true true, .r, k2, ⟨ht, 0, j2, (l.k, 1), h1, h2, ?_, .inr ⟨rfl, by simp⟩, .inl hk⟩, ?_⟩)
    · rw [hins]; rfl
    · cases k2 <;> decide
  case ppc =>
    refine .inr (.inl ⟨.lwsync, .r, k2, ⟨ht, 0, j2, (l.k, 1), h1, h2, ?_, .inr ⟨rfl, by simp⟩, .inl hk⟩, ?_⟩)
    · rw [hins]; rfl
    · cases k2 <;> decide
  case mips =>
    refine .inr (.inl ⟨.mipsSync, .r, k2, ⟨ht, 0, j2, (l.k, 1), h1, h2, ?_, .inr ⟨rfl, by simp⟩, .inl hk⟩, ?_⟩)
    · rw [hins]; rfl
    · cases k2 <;> decide
  case arm =>
    refine .inr (.inl ⟨.dmb, .r, k2, ⟨ht, 0, j2, (l.k, 1), h1, h2, ?_, .inr ⟨rfl, by simp⟩, .inl hk⟩, ?_⟩)
    · rw [hins]; rfl
    · cases k2 <;> decide
  case loongarch =>
    refine .inr (.inl ⟨.dbar 0x14, .r, k2, ⟨ht, 0, j2, (l.k, 1), h1, h2, ?_, .inr ⟨rfl, by simp⟩, .inl hk⟩, ?_⟩)
    · rw [hins]; rfl
    · cases k2 <;> decide

/-- A read barrier between two loads. -/
theorem rmb_hb {l e : Ev} {x y : Nat} {u v : Int} (hl : IsR X l x u) (he : IsR X e y v) (ht : l.t = e.t)
    {k : Nat} {o : Op} (h1 : l.k < k) (h2 : k < e.k) (ho : X.op ⟨l.t, k⟩ = some o)
    (hc : o = .rmb ∨ o = .acqCtrl) : Hb a X l e := by
  have a1 : Acc a X l 0 .r := acc_r hl
  have a2 : Acc a X e 0 .r := acc_r he
  have fin : ∀ b : Bar, (expand a o)[0]? = some (.bar b) → b.orders .r .r = true → Hb a X l e :=
    fun b hb h => .inr (.inl ⟨b, .r, .r, between_of ht a1 a2 h1 h2 ho hb, h⟩)
  have sb : tso a = true → Hb a X l e :=
    fun h => .inl (.inr (.inr ⟨h, ht, 0, 0, .r, .r, a1, a2, .inl (Nat.lt_trans h1 h2), by simp⟩))
  rcases hc with rfl | rfl <;> cases a <;> first
    | exact sb rfl
    | exact fin _ rfl (by decide)

/-- A write barrier between two stores. -/
theorem wmb_fenced {w s : Ev} {x y : Nat} {u v : Int} (hw : IsW X w x u) (hs : IsW X s y v) (ht : w.t = s.t)
    {k : Nat} (h1 : w.k < k) (h2 : k < s.k) (ho : X.op ⟨w.t, k⟩ = some .wmb) :
    Fenced a X w s ∨ multiCopy a = true ∧ Hb a X w s := by
  obtain ⟨j1, a1⟩ := acc_w (a := a) hw
  obtain ⟨j2, a2⟩ := acc_w (a := a) hs
  have fin : ∀ b : Bar, (expand a .wmb)[0]? = some (.bar b) → b.orders .w .w = true →
      Fenced a X w s ∨ multiCopy a = true ∧ Hb a X w s :=
    fun b hb h => .inl ⟨b, .w, .w, between_of ht a1 a2 h1 h2 ho hb, h⟩
  have sb : tso a = true → multiCopy a = true → Fenced a X w s ∨ multiCopy a = true ∧ Hb a X w s :=
    fun h h' => .inr ⟨h', .inl (.inr (.inr ⟨h, ht, j1, j2, .w, .w, a1, a2, .inl (Nat.lt_trans h1 h2), by simp⟩))⟩
  cases a <;> first
    | exact sb rfl rfl
    | exact fin _ rfl (by decide)

/-- A full barrier between two accesses. -/
theorem mb_ffenced {e1 e2 : Ev} (h : Sep X .mb e1 e2) : FFenced a X e1 e2 := by
  obtain ⟨⟨he1, he2, ht, -⟩, k, h1, h2, ho⟩ := h
  obtain ⟨j1, k1, a1⟩ := access_acc (a := a) he1
  obtain ⟨j2, k2, a2⟩ := access_acc (a := a) he2
  have fin : ∀ b : Bar, (expand a .mb)[0]? = some (.bar b) → b.full = true → FFenced a X e1 e2 :=
    fun b hb h => ⟨b, k1, k2, between_of ht a1 a2 h1 h2 ho hb, h⟩
  cases a <;> exact fin _ rfl (by decide)

theorem full_orders {b : Bar} (h : b.full = true) (k1 k2 : RW) : b.orders k1 k2 = true := by
  simp only [Bar.full, Bool.and_eq_true] at h
  obtain ⟨⟨⟨h1, h2⟩, h3⟩, h4⟩ := h
  cases k1 <;> cases k2 <;> assumption

theorem FFenced.cfenced {e1 e2 : Ev} (h : FFenced a X e1 e2) : CFenced a X e1 e2 := by
  obtain ⟨b, k1, k2, hb, hf⟩ := h
  exact ⟨b, k1, k2, hb, full_orders hf _ _, by simp [Bar.cumulative, full_orders hf]⟩

theorem CFenced.fenced {e1 e2 : Ev} (h : CFenced a X e1 e2) : Fenced a X e1 e2 := by
  obtain ⟨b, k1, k2, hb, hf, -⟩ := h
  exact ⟨b, k1, k2, hb, hf⟩

theorem Fenced.hb {e1 e2 : Ev} (h : Fenced a X e1 e2) : Hb a X e1 e2 := .inr (.inl h)

theorem mb_F {e1 e2 : Ev} (h : Sep X .mb e1 e2) : F a X e1 e2 := .inl (mb_ffenced h).cfenced

/-- An acquire comes before everything later. -/
theorem acquired_hb {l e : Ev} (h : Acquired X l e) : Hb a X l e := by
  rcases h with ⟨⟨x, v, ho⟩, hp⟩ | ⟨⟨x, v, hl⟩, ⟨-, he, ht, -⟩, kb, ka, h1, h2, h3, hb, ha⟩
  · exact loadAcquire_hb hp ho
  · obtain ⟨y, u, he | he⟩ := he
    · exact rmb_hb hl he ht (Nat.lt_trans h1 h2) h3 ha (.inr rfl)
    · obtain ⟨j2, a2⟩ := acc_w (a := a) he
      refine .inl (.inl ⟨ht, 0, j2, (kb, 0), acc_r hl, a2, ?_, .inl h1, .inl (Nat.lt_trans h2 h3)⟩)
      exact ins_op (a := a) (e := ⟨l.t, kb⟩) hb 0

theorem Acquired.po {l e : Ev} (h : Acquired X l e) : Po X l e := by
  rcases h with ⟨-, h⟩ | ⟨-, h, -⟩ <;> exact h

theorem Acquired.isR {l e : Ev} (h : Acquired X l e) : ∃ x v, IsR X l x v := by
  rcases h with ⟨⟨x, v, h⟩, -⟩ | ⟨h, -, -⟩
  · exact ⟨x, v, .inr h⟩
  · exact h

theorem Acquired.trans {l e e' : Ev} (h : Acquired X l e) (hp : Po X e e') : Acquired X l e' := by
  rcases h with ⟨h, h'⟩ | ⟨h, h', kb, ka, h1, h2, h3, h4⟩
  · exact .inl ⟨h, po_trans h' hp⟩
  · exact .inr ⟨h, po_trans h' hp, kb, ka, h1, h2, Nat.lt_trans h3 hp.2.2.2, h4⟩

/-! ### Consequences of the memory model -/

theorem rf_types (h : Allowed a X) {w r : Ev} (hrf : X.rf w r) : ∃ x v, IsW X w x v ∧ IsR X r x v := by
  obtain ⟨x, v, h1, h2⟩ := h.wf.rf_val w r hrf
  exact ⟨x, v, writes_iff.1 h1, reads_iff.1 h2⟩

theorem co_types (h : Allowed a X) {w w' : Ev} (hco : X.co w w') : ∃ x v v', IsW X w x v ∧ IsW X w' x v' := by
  obtain ⟨x, v, v', h1, h2⟩ := h.wf.co_loc w w' hco
  exact ⟨x, v, v', writes_iff.1 h1, writes_iff.1 h2⟩

/-- Communication in terms of C operations. -/
def Comm (X : Exec) (e1 e2 : Ev) : Prop := X.rf e1 e2 ∨ X.co e1 e2 ∨ Older X e1 e2

theorem com_iff {e1 e2 : Ev} : Com a X e1 e2 ↔ Comm X e1 e2 := by
  simp only [Com, Comm, fr_iff]

/-- Same location, program order. -/
def PoL (X : Exec) (e1 e2 : Ev) : Prop :=
  e1.t = e2.t ∧ e1.k < e2.k ∧ ∃ x, (∃ v, IsR X e1 x v ∨ IsW X e1 x v) ∧ ∃ v, IsR X e2 x v ∨ IsW X e2 x v

theorem poLoc_iff {e1 e2 : Ev} : PoLoc a X e1 e2 ↔ PoL X e1 e2 := by
  simp only [PoLoc, PoL, reads_iff, writes_iff]

theorem perLoc (h : Allowed a X) : Acyclic (fun e1 e2 => PoL X e1 e2 ∨ Comm X e1 e2) := by
  have := h.perLoc
  simpa only [poLoc_iff, com_iff] using this

/-- An effect against program order on one location is impossible. -/
theorem no_back (h : Allowed a X) {e1 e2 : Ev} (hp : PoL X e1 e2) (hc : Eff X e2 e1) : False := by
  refine perLoc h e1 (.head (.inl hp) ?_)
  exact tgMono hc (fun _ _ => .inr)

theorem comm_irrefl (h : Allowed a X) {e : Ev} (hc : Eff X e e) : False :=
  perLoc h e (tgMono hc (fun _ _ => .inr))

/-- Location of an access. -/
def At (X : Exec) (e : Ev) (x : Nat) : Prop := ∃ v, IsR X e x v ∨ IsW X e x v

theorem at_unique {e : Ev} {x y : Nat} (h : At X e x) (h' : At X e y) : x = y := by
  obtain ⟨v, h⟩ := h
  obtain ⟨u, h'⟩ := h'
  rcases h with h | h <;> rcases h' with h' | h'
  · exact (isR_unique h h').1
  · exact (not_r_w h h').elim
  · exact (not_r_w h' h).elim
  · exact (isW_unique h h').1

theorem comm_at (h : Allowed a X) {e1 e2 : Ev} (hc : Comm X e1 e2) : ∃ x, At X e1 x ∧ At X e2 x := by
  rcases hc with hc | hc | hc
  · obtain ⟨x, v, h1, h2⟩ := rf_types h hc
    exact ⟨x, ⟨v, .inr h1⟩, ⟨v, .inl h2⟩⟩
  · obtain ⟨x, v, v', h1, h2⟩ := co_types h hc
    exact ⟨x, ⟨v, .inr h1⟩, ⟨v', .inr h2⟩⟩
  · obtain ⟨x, v, v', h1, h2, -⟩ := hc
    exact ⟨x, ⟨v, .inl h1⟩, ⟨v', .inr h2⟩⟩

theorem eff_at (h : Allowed a X) {e1 e2 : Ev} (hc : Eff X e1 e2) : ∃ x, At X e1 x ∧ At X e2 x := by
  induction hc with
  | single hc => exact comm_at h hc
  | tail _ hc ih =>
    obtain ⟨x, h1, h2⟩ := ih
    obtain ⟨y, h3, h4⟩ := comm_at h hc
    rw [at_unique h3 h2] at h4
    exact ⟨x, h1, h4⟩

theorem poL_of {e1 e2 : Ev} {x : Nat} (hp : Po X e1 e2) (h1 : At X e1 x) (h2 : At X e2 x) : PoL X e1 e2 :=
  ⟨hp.2.2.1, hp.2.2.2, x, h1, h2⟩

theorem At.access {e : Ev} {x : Nat} (h : At X e x) : Access X e := by
  obtain ⟨v, h⟩ := h; exact ⟨x, v, h⟩

/-- In one thread, effects follow program order. -/
theorem eff_po (h : Allowed a X) {e1 e2 : Ev} (hc : Eff X e1 e2) (ht : e1.t = e2.t) : Po X e1 e2 := by
  obtain ⟨x, h1, h2⟩ := eff_at h hc
  rcases Nat.lt_trichotomy e1.k e2.k with hk | hk | hk
  · exact ⟨h1.access, h2.access, ht, hk⟩
  · have : e1 = e2 := by cases e1; cases e2; simp_all
    subst this
    exact (comm_irrefl h hc).elim
  · exact (no_back h ⟨ht.symm, hk, x, h2, h1⟩ hc).elim

/-- Stores that must reach other CPUs in order. -/
def P (a : Arch) (X : Exec) (w s : Ev) : Prop :=
  (Fenced a X w s ∨ multiCopy a = true ∧ Hb a X w s) ∨ ∃ r, Ext X.rf w r ∧ F a X r s

theorem F.p {w s : Ev} (h : F a X w s) : P a X w s := by
  rcases h with h | h
  · exact .inl (.inl h.fenced)
  · exact .inl (.inr h)

/-- In the global-order architectures such a pair is a path of the order. -/
theorem P.path {w s : Ev} (h : P a X w s) : TransGen (Hb a X) w s := by
  rcases h with (h | ⟨-, h⟩) | ⟨r, h1, h2⟩
  · exact .single h.hb
  · exact .single h
  · exact .head (.inr (.inr h1)) (.single h2.hb)

theorem P.base (hm : multiCopy a = false) {w s e : Ev} (h : P a X w s) (he : ReflTransGen (Hb a X) s e) :
    PropBase a X w e := by
  rcases h with (h | ⟨h, -⟩) | ⟨r, h1, h2⟩
  · exact .inl ⟨s, h, he⟩
  · simp [hm] at h
  · rcases h2 with h2 | ⟨h2, -⟩
    · exact .inr ⟨r, s, h1, h2, he⟩
    · simp [hm] at h2

theorem obs (h : Allowed a X) {r w s : Ev} (hfr : Older X r w) (ht : r.t ≠ w.t) (hp : P a X w s)
    {x : Nat} {v : Int} (hs : IsW X s x v) (hh : ReflTransGen (Hb a X) s r) : False := by
  have hfr' : Ext (Fr a X) r w := ⟨fr_iff.2 hfr, ht⟩
  rcases hm : multiCopy a
  · obtain ⟨y, v1, v2, -, hw, -⟩ := hfr
    exact h.observation hm r w s hfr' (.inl ⟨hp.base hm .refl, acc_w hw, acc_w hs⟩) hh
  · refine h.ghb hm r (.head (.inr ⟨.inr (.inr hfr'.1), ht⟩) ?_)
    exact tgMono (hp.path.trans_left hh) fun _ _ => .inl

theorem cox (h : Allowed a X) {w2 w1 s : Ev} (hco : X.co w2 w1) (ht : w2.t ≠ w1.t) (hp : P a X w1 s)
    (hh : ReflTransGen (Hb a X) s w2) : False := by
  obtain ⟨x, v, v', h2, h1⟩ := co_types h hco
  rcases hm : multiCopy a
  · exact h.propagation hm w2 (.head (.inl hco) (.single (.inr (.inl ⟨hp.base hm hh, acc_w h1, acc_w h2⟩))))
  · refine h.ghb hm w2 (.head (.inr ⟨.inr (.inl hco), ht⟩) ?_)
    exact tgMono (hp.path.trans_left hh) fun _ _ => .inl

/-- Shapes of effects. -/
theorem eff_cases (h : Allowed a X) {e1 e2 : Ev} (hc : Eff X e1 e2) :
    X.rf e1 e2 ∨ X.co e1 e2 ∨ Older X e1 e2 ∨ (∃ w, X.co e1 w ∧ X.rf w e2) ∨ ∃ w, Older X e1 w ∧ X.rf w e2 := by
  induction hc with
  | single hc =>
    rcases hc with hc | hc | hc
    · exact .inl hc
    · exact .inr (.inl hc)
    · exact .inr (.inr (.inl hc))
  | @tail b c hab hbc ih =>
    have hrf_co : ∀ {w r w'}, X.rf w r → Older X r w' → X.co w w' := fun h1 ⟨_, _, _, _, _, h2⟩ => h2 _ h1
    have holder_co : ∀ {r w w'}, Older X r w → X.co w w' → Older X r w' := by
      intro r w w' ⟨x, v, v', h1, h2, h3⟩ h4
      obtain ⟨y, u, u', h5, h6⟩ := co_types h h4
      obtain rfl := (isW_unique h2 h5).1
      exact ⟨x, v, u', h1, h6, fun w0 h0 => h.wf.co_trans _ _ _ (h3 w0 h0) h4⟩
    have nr : ∀ {r w}, X.rf w r → ∀ {x v}, IsW X r x v → False := by
      intro r w hrf x v hw
      obtain ⟨_, _, _, hr⟩ := rf_types h hrf
      exact not_r_w hr hw
    have nw : ∀ {w}, (∃ w', X.co w' w) ∨ (∃ r, Older X r w) → ∃ x v, IsW X w x v := by
      rintro w (⟨w', hh⟩ | ⟨r, x, v, v', -, hh, -⟩)
      · obtain ⟨x, v, v', -, hh⟩ := co_types h hh
        exact ⟨x, v', hh⟩
      · exact ⟨x, v', hh⟩
    have nold : ∀ {w x v}, IsW X w x v → ∀ {w'}, Older X w w' → False := by
      intro w x v hw w' ⟨_, _, _, hr, _⟩
      exact not_r_w hr hw
    have nrco : ∀ {w r w'}, X.rf w r → X.co r w' → False := by
      intro w r w' hrf hco
      obtain ⟨x, v, v', hh, -⟩ := co_types h hco
      exact nr hrf hh
    have nrrf : ∀ {w r w'}, X.rf w r → X.rf r w' → False := by
      intro w r w' hrf hco
      obtain ⟨x, v, hh, -⟩ := rf_types h hco
      exact nr hrf hh
    rcases ih with i | i | i | ⟨w, i1, i2⟩ | ⟨w, i1, i2⟩ <;> rcases hbc with hbc | hbc | hbc
    · exact (nrrf i hbc).elim
    · exact (nrco i hbc).elim
    · exact .inr (.inl (hrf_co i hbc))
    · exact .inr (.inr (.inr (.inl ⟨b, i, hbc⟩)))
    · exact .inr (.inl (h.wf.co_trans _ _ _ i hbc))
    · obtain ⟨x, v, hw⟩ := nw (.inl ⟨_, i⟩)
      exact (nold hw hbc).elim
    · exact .inr (.inr (.inr (.inr ⟨b, i, hbc⟩)))
    · exact .inr (.inr (.inl (holder_co i hbc)))
    · obtain ⟨x, v, hw⟩ := nw (.inr ⟨_, i⟩)
      exact (nold hw hbc).elim
    · exact (nrrf i2 hbc).elim
    · exact (nrco i2 hbc).elim
    · exact .inr (.inl (h.wf.co_trans _ _ _ i1 (hrf_co i2 hbc)))
    · exact (nrrf i2 hbc).elim
    · exact (nrco i2 hbc).elim
    · exact .inr (.inr (.inl (holder_co i1 (hrf_co i2 hbc))))

/-! ### Chains of hand-overs -/

/-- Release `s` reaches acquire load `l` through hand-overs between threads. -/
inductive Chain (X : Exec) : Ev → Ev → Prop
  | one {s l : Ev} : Release X s → X.rf s l → s.t ≠ l.t → Chain X s l
  | cons {s l s' l' : Ev} : Release X s → X.rf s l → s.t ≠ l.t → Acquired X l s' → Chain X s' l' → Chain X s l'

theorem Chain.release {s l : Ev} (h : Chain X s l) : Release X s := by
  cases h <;> assumption

theorem Chain.append {s l s' l' : Ev} (h : Chain X s l) (ha : Acquired X l s') (h' : Chain X s' l') :
    Chain X s l' := by
  induction h with
  | one h1 h2 h3 => exact .cons h1 h2 h3 ha h'
  | cons h1 h2 h3 h4 _ ih => exact .cons h1 h2 h3 h4 (ih ha)

theorem Chain.hb {s l : Ev} (h : Chain X s l) : TransGen (Hb a X) s l := by
  induction h with
  | one _ h2 h3 => exact .single (.inr (.inr ⟨h2, h3⟩))
  | cons _ h2 h3 h4 _ ih => exact .head (.inr (.inr ⟨h2, h3⟩)) (.head (acquired_hb h4) ih)

/-- A chain starts with one read, or with a cumulative pair. -/
theorem Chain.split {s l : Ev} (h : Chain X s l) : (X.rf s l ∧ s.t ≠ l.t) ∨
    ∃ s', P a X s s' ∧ (∃ x v, IsW X s' x v) ∧ ReflTransGen (Hb a X) s' l := by
  cases h with
  | one _ h2 h3 => exact .inl ⟨h2, h3⟩
  | cons h1 h2 h3 h4 h5 =>
    exact .inr ⟨_, .inr ⟨_, ⟨h2, h3⟩, release_F h4.po h5.release⟩, h5.release.isW, h5.hb.to_reflTransGen⟩

/-- `e1` is handed over to `e2`, through at least one other thread. -/
def Via (X : Exec) (e1 e2 : Ev) : Prop := ∃ s l, (e1 = s ∨ Po X e1 s) ∧ Chain X s l ∧ Acquired X l e2

theorem hb_cases (h : Allowed a X) {e1 e2 : Ev} (hb : HB X e1 e2) : Po X e1 e2 ∨ Via X e1 e2 := by
  have one : ∀ {e1 e2}, Po X e1 e2 ∨ Handover X e1 e2 → Po X e1 e2 ∨ Via X e1 e2 := by
    rintro e1 e2 (hp | ⟨s, l, h1, h2, h3, h4⟩)
    · exact .inl hp
    · by_cases ht : s.t = l.t
      · have hp : Po X s l := eff_po h (.single (.inl h3)) ht
        rcases h1 with rfl | h1
        · exact .inl (po_trans hp h4.po)
        · exact .inl (po_trans h1 (po_trans hp h4.po))
      · exact .inr ⟨s, l, h1, .one h2 h3 ht, h4⟩
  induction hb with
  | single hb => exact one hb
  | tail _ hb ih =>
    rcases ih with ih | ⟨s, l, h1, h2, h3⟩ <;> rcases one hb with hc | ⟨s', l', h4, h5, h6⟩
    · exact .inl (po_trans ih hc)
    · refine .inr ⟨s', l', .inr ?_, h5, h6⟩
      rcases h4 with rfl | h4
      · exact ih
      · exact po_trans ih h4
    · exact .inr ⟨s, l, h1, h2, h3.trans hc⟩
    · refine .inr ⟨s, l', h1, h2.append ?_ h5, h6⟩
      rcases h4 with rfl | h4
      · exact h3
      · exact h3.trans h4

/-- Main lemma: no effect against a hand-over. -/
theorem via_no_back (h : Allowed a X) {e1 e2 : Ev} (hv : Via X e1 e2) (hc : Eff X e2 e1) : False := by
  obtain ⟨s, l, h1, h2, h3⟩ := hv
  -- a path from the acquire load back to the release is impossible
  have cyc : ∀ {e}, Acquired X l e → (e = s ∨ TransGen (Hb a X) e s) → False := by
    intro e he hes
    have : TransGen (Hb a X) l s := by
      rcases hes with rfl | hes
      · exact .single (acquired_hb he)
      · exact .head (acquired_hb he) hes
    exact h.noThinAir s (h2.hb.trans this)
  -- in one thread
  have same : ∀ {e e'}, Acquired X l e → Po X e e' → (e' = s ∨ Po X e' s) → False := by
    intro e e' he hp hes
    rcases hes with rfl | hes
    · exact cyc (he.trans hp) (.inl rfl)
    · exact cyc ((he.trans hp).trans hes) (.inl rfl)
  have hle : ReflTransGen (Hb a X) s e2 := (h2.hb.tail (acquired_hb h3)).to_reflTransGen
  by_cases ht : e2.t = e1.t
  · exact same h3 (eff_po h hc ht) h1
  -- a store at or before the release
  have wr : ∀ {w x v}, IsW X w x v → (w = s ∨ Po X w s) → X.co e2 w → e2.t ≠ w.t → False := by
    intro w x v hw hws hco htw
    rcases hws with rfl | hws
    · rcases h2.split (a := a) with ⟨hr, -⟩ | ⟨s', hp, -, hh⟩
      · have hp := h3.po
        obtain ⟨y, u, h4, h5⟩ := rf_types h hr
        obtain ⟨z, u1, u2, h6, h7⟩ := co_types h hco
        obtain rfl := (isW_unique h7 h4).1
        exact no_back h (poL_of hp ⟨_, .inl h5⟩ ⟨_, .inr h6⟩) (.tail (.single (.inr (.inl hco))) (.inl hr))
      · exact cox h hco htw hp (hh.trans (.single (acquired_hb h3)))
    · exact cox h hco htw (release_F hws h2.release).p hle
  have rd : ∀ {w}, (w = s ∨ Po X w s) → Older X e2 w → e2.t ≠ w.t → False := by
    intro w hws hfr htw
    rcases hws with rfl | hws
    · rcases h2.split (a := a) with ⟨hr, -⟩ | ⟨s', hp, ⟨x, v, hs'⟩, hh⟩
      · obtain ⟨y, u, h4, h5⟩ := rf_types h hr
        obtain ⟨z, u1, u2, h6, h7, h8⟩ := id hfr
        obtain rfl := (isW_unique h7 h4).1
        exact no_back h (poL_of h3.po ⟨_, .inl h5⟩ ⟨_, .inl h6⟩) (.tail (.single (.inr (.inr hfr))) (.inl hr))
      · exact obs h hfr htw hp hs' (hh.trans (.single (acquired_hb h3)))
    · obtain ⟨x, v, hs⟩ := h2.release.isW
      exact obs h hfr htw (release_F hws h2.release).p hs hle
  have rel_po : ∀ {x v}, IsR X e1 x v → Po X e1 s := by
    intro x v hr
    rcases h1 with rfl | h1
    · obtain ⟨y, u, hs⟩ := h2.release.isW
      exact (not_r_w hr hs).elim
    · exact h1
  rcases eff_cases h hc with hc | hc | hc | ⟨w, hc, hr⟩ | ⟨w, hc, hr⟩
  · obtain ⟨x, v, -, hr⟩ := rf_types h hc
    exact cyc h3 (.inr (.head (.inr (.inr ⟨hc, ht⟩)) (.single (release_F (rel_po hr) h2.release).hb)))
  · obtain ⟨x, v, v', -, hw⟩ := co_types h hc
    exact wr hw h1 hc ht
  · exact rd h1 hc ht
  · obtain ⟨x, v, hw, hre⟩ := rf_types h hr
    have hp := rel_po hre
    by_cases htw : w.t = e1.t
    · have : Po X w e1 := eff_po h (.single (.inl hr)) htw
      exact wr hw (.inr (po_trans this hp)) hc (by rw [htw]; exact ht)
    · by_cases ht2 : e2.t = w.t
      · have hp2 := eff_po h (.single (.inr (.inl hc))) ht2
        exact cyc (h3.trans hp2) (.inr (.head (.inr (.inr ⟨hr, htw⟩)) (.single (release_F hp h2.release).hb)))
      · exact cox h hc ht2 (.inr ⟨e1, ⟨hr, htw⟩, release_F hp h2.release⟩) hle
  · obtain ⟨x, v, hw, hre⟩ := rf_types h hr
    have hp := rel_po hre
    by_cases htw : w.t = e1.t
    · have : Po X w e1 := eff_po h (.single (.inl hr)) htw
      exact rd (.inr (po_trans this hp)) hc (by rw [htw]; exact ht)
    · by_cases ht2 : e2.t = w.t
      · have hp2 := eff_po h (.single (.inr (.inr hc))) ht2
        exact cyc (h3.trans hp2) (.inr (.head (.inr (.inr ⟨hr, htw⟩)) (.single (release_F hp h2.release).hb)))
      · obtain ⟨y, u, hs⟩ := h2.release.isW
        exact obs h hc ht2 (.inr ⟨e1, ⟨hr, htw⟩, release_F hp h2.release⟩) hs hle

end Verif.Barrier
