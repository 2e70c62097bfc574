import Verif.RseqBuf
/-
The invariant of executions with per-CPU bounded buffers.
-/

namespace Verif.Rseq

variable {n : Nat} {T : Nat → Site n} {K : BufLayout n} {m0 : Mem n} {G0 : Bufs n}

theorem num_inj {j k : Nat} (hj : j < 2 ^ (8 * n)) (hk : k < 2 ^ (8 * n)) (h : (num j : W n) = num k) : j = k := by
  have := congrArg BitVec.toNat h
  simpa [num, Nat.mod_eq_of_lt hj, Nat.mod_eq_of_lt hk] using this

theorem BufLayout.OK.cap_lt (hK : K.OK) {c : BitVec 32} (hc : c ∈ K.cpus) : K.cap c < 2 ^ (8 * n) :=
  Nat.lt_of_le_of_lt (Nat.le_mul_of_pos_right _ hK.isz0) (hK.size c hc)

theorem BufLayout.OK.inRange (hK : K.OK) {a b : W n} : InRange a (num K.isz) b ↔ (b - a).toNat < K.isz := by
  unfold InRange num
  rw [BitVec.toNat_ofNat, Nat.mod_eq_of_lt hK.iszlt]

/-- Where the bytes of an array element are. -/
theorem BufLayout.OK.slot_iff (hK : K.OK) {c : BitVec 32} (hc : c ∈ K.cpus) {i : Nat} (hi : i < K.cap c) (a : W n) :
    (a - K.slot c i).toNat < K.isz ↔
      i * K.isz ≤ (a - K.array c).toNat ∧ (a - K.array c).toNat < i * K.isz + K.isz := by
  have h1 : a - K.slot c i = (a - K.array c) - num (i * K.isz) := by
    unfold BufLayout.slot
    rw [BitVec.sub_sub]
  have h2 : i * K.isz + K.isz ≤ K.cap c * K.isz := by
    have := Nat.mul_le_mul_right K.isz (show i + 1 ≤ K.cap c from hi)
    rwa [Nat.add_mul, Nat.one_mul] at this
  have h3 := hK.size c hc
  rw [h1, BitVec.toNat_sub]
  have h4 : (num (i * K.isz) : W n).toNat = i * K.isz := by
    rw [BitVec.toNat_ofNat, Nat.mod_eq_of_lt (by omega)]
  rw [h4]
  have h5 := (a - K.array c).isLt
  generalize (a - K.array c).toNat = b at *
  generalize i * K.isz = p at *
  have h0 := hK.isz0
  generalize K.isz = z at *
  generalize 2 ^ (8 * n) = N at *
  by_cases hb : p ≤ b
  · rw [show N - p + b = (b - p) + N by omega, Nat.add_mod_right, Nat.mod_eq_of_lt (by omega)]
    omega
  · rw [Nat.mod_eq_of_lt (by omega)]
    omega

theorem BufLayout.OK.slot_arr (hK : K.OK) {c : BitVec 32} (hc : c ∈ K.cpus) {i : Nat} (hi : i < K.cap c) {a : W n}
    (h : (a - K.slot c i).toNat < K.isz) : K.InArr c a := by
  have h1 := (hK.slot_iff hc hi a).1 h
  have := Nat.mul_le_mul_right K.isz (show i + 1 ≤ K.cap c from hi)
  rw [Nat.add_mul, Nat.one_mul] at this
  unfold BufLayout.InArr
  omega

theorem BufLayout.OK.slot_slot (hK : K.OK) {c : BitVec 32} (hc : c ∈ K.cpus) {i j : Nat} (hi : i < K.cap c)
    (hj : j < K.cap c) {a : W n} (h : (a - K.slot c i).toNat < K.isz) (h' : (a - K.slot c j).toNat < K.isz) :
    i = j := by
  have h1 := (hK.slot_iff hc hi a).1 h
  have h2 := (hK.slot_iff hc hj a).1 h'
  rcases Nat.lt_trichotomy i j with e | e | e
  · have := Nat.mul_le_mul_right K.isz (show i + 1 ≤ j from e)
    rw [Nat.add_mul, Nat.one_mul] at this; omega
  · exact e
  · have := Nat.mul_le_mul_right K.isz (show j + 1 ≤ i from e)
    rw [Nat.add_mul, Nat.one_mul] at this; omega

/-- The division of memory that the buffers amount to. -/
def BufLayout.areas (K : BufLayout n) (hK : K.OK) : Areas n where
  cpu := fun fl c a => fl = K.fld ∧ c ∈ K.cpus ∧ (InWord (K.offset c) a ∨ K.InArr c a)
  priv := fun t a => ∃ d, K.priv t d a
  ro := fun _ => False
  cpu_cpu := by
    rintro fl c fl' c' a ⟨rfl, hc, h⟩ ⟨rfl, hc', h'⟩
    refine ⟨rfl, ?_⟩
    rcases h with h | h <;> rcases h' with h' | h'
    · exact hK.off_off c hc c' hc' a h h'
    · exact absurd h' (hK.off_arr c hc c' hc' a h)
    · exact absurd h (hK.off_arr c' hc' c hc a h')
    · exact hK.arr_arr c hc c' hc' a h h'
  cpu_priv := by
    rintro fl c t a ⟨-, hc, h⟩ ⟨d, hp⟩
    rcases h with h | h
    · exact hK.off_priv c hc t d a h hp
    · exact hK.arr_priv c hc t d a h hp
  priv_priv := by
    rintro t u a ⟨d, h⟩ ⟨d', h'⟩
    exact (hK.priv_priv _ _ _ _ a h h').1
  ro_cpu := fun _ _ _ h => h.elim
  ro_priv := fun _ _ h => h.elim

/-- The four kinds of call; `k` is the index of the array element. -/
def PushP (K : BufLayout n) (f : Frame n) (k : Nat) (x : W n) : Prop :=
  K.isz = n ∧ f.op = .cbneStoreStore (K.offset f.cpu) (num k) (K.slot f.cpu k) x (num (k + 1))

def PushM (K : BufLayout n) (t d : Nat) (f : Frame n) (k : Nat) (src : W n) : Prop :=
  f.op = .cbneMemcpyStore (K.offset f.cpu) (num k) (K.slot f.cpu k) src (num K.isz) (num (k + 1)) ∧
  ∀ a, InRange src (num K.isz) a → K.priv t d a

def PopP (K : BufLayout n) (f : Frame n) (k : Nat) (x : W n) : Prop :=
  K.isz = n ∧ f.op = .cbneCbneStore (K.offset f.cpu) (num (k + 1)) (K.slot f.cpu k) x (num k)

def PopM (K : BufLayout n) (t d : Nat) (f : Frame n) (k : Nat) (dst : W n) : Prop :=
  f.op = .cbneMemcpyStore (K.offset f.cpu) (num (k + 1)) dst (K.slot f.cpu k) (num K.isz) (num k) ∧
  ∀ a, InRange dst (num K.isz) a → K.priv t d a

/-- A call in progress. -/
def BufFrame (K : BufLayout n) (G : Bufs n) (m : Mem n) (t d : Nat) (f : Frame n) : Prop :=
  f.fld = K.fld ∧ f.cpu ∈ K.cpus ∧ ∃ k, k < K.cap f.cpu ∧
  ((∃ x, PushP K f k x ∧ (f.commits = 0 → G.arg t d = wordItem K.be x)) ∨
   (∃ x, PopP K f k x ∧ (f.commits ≠ 0 → G.got t d = some (wordItem K.be x))) ∨
   (∃ src, PushM K t d f k src ∧ (f.commits = 0 → G.arg t d = bytes m src K.isz)) ∨
   (∃ dst, PopM K t d f k dst ∧ (f.commits ≠ 0 → G.got t d = some (bytes m dst K.isz))))

structure BInv (T : Nat → Site n) (K : BufLayout n) (hK : K.OK) (m0 : Mem n) (s : State n) (G : Bufs n) :
    Prop where
  reach : OReach T (K.areas hK) m0 s
  holds : ∀ c ∈ K.cpus, K.Holds s.mem c (G.buf c)
  rd : ∀ t d c w, G.rd t d = some (c, w) → c ∈ K.cpus ∧ ∃ k, k ≤ K.cap c ∧ w = num k
  frames : ∀ t d f, frameAt (s.th t) d = some f → BufFrame K G s.mem t d f

/-- Arguments computed from the offset read. -/
theorem call_shape (hK : K.OK) {s : State n} {G : Bufs n} (ih : BInv T K hK m0 s G) {t d : Nat} {f : Frame n}
    (h : BufCall K G t d f) : f.fld = K.fld ∧ f.cpu ∈ K.cpus ∧ ∃ k, k < K.cap f.cpu ∧
      ((∃ x, PushP K f k x) ∨ (∃ x, PopP K f k x) ∨ (∃ src, PushM K t d f k src) ∨
       (∃ dst, PopM K t d f k dst)) := by
  obtain ⟨h1, w, hw, h⟩ := h
  obtain ⟨hc, k, hk, rfl⟩ := ih.rd _ _ _ _ hw
  refine ⟨h1, hc, ?_⟩
  have e1 : (num k : W n) + 1#_ = num (k + 1) := by
    unfold num; rw [BitVec.ofNat_add]
  have e2 : ∀ j, K.array f.cpu + num j * num K.isz = K.slot f.cpu j := by
    intro j; unfold BufLayout.slot num; rw [BitVec.ofNat_mul]
  have up : (num k : W n) ≠ num (K.cap f.cpu) → k < K.cap f.cpu := by
    intro h
    rcases Nat.lt_or_ge k (K.cap f.cpu) with h' | h'
    · exact h'
    · exact absurd (by rw [show k = K.cap f.cpu by omega]) h
  have dn : (num k : W n) ≠ 0#_ → ∃ j, k = j + 1 ∧ (num k : W n) - 1#_ = num j := by
    intro h
    cases k with
    | zero => exact absurd rfl h
    | succ j => exact ⟨j, rfl, by unfold num; rw [BitVec.ofNat_add, BitVec.add_sub_cancel]⟩
  rcases h with ⟨q, h, x, hx⟩ | ⟨q, h, x, hx⟩ | ⟨h, x, hx, hp⟩ | ⟨h, x, hx, hp⟩
  · exact ⟨k, up h, .inl ⟨x, q, by rw [hx, e1, e2]⟩⟩
  · obtain ⟨j, rfl, e⟩ := dn h
    exact ⟨j, hk, .inr (.inl ⟨x, q, by rw [hx, e, e2]⟩)⟩
  · exact ⟨k, up h, .inr (.inr (.inl ⟨x, by rw [hx, e1, e2], hp⟩))⟩
  · obtain ⟨j, rfl, e⟩ := dn h
    exact ⟨j, hk, .inr (.inr (.inr ⟨x, by rw [hx, e, e2], hp⟩))⟩

/-- The calls keep to the division. -/
theorem call_fits (hK : K.OK) {t d : Nat} {f : Frame n} (be : Bool) (h1 : f.fld = K.fld) (h2 : f.cpu ∈ K.cpus)
    {k : Nat} (hk : k < K.cap f.cpu)
    (h : (∃ x, PushP K f k x) ∨ (∃ x, PopP K f k x) ∨ (∃ src, PushM K t d f k src) ∨
       (∃ dst, PopM K t d f k dst)) : Fits (K.areas hK) be t f := by
  refine ⟨fun m a ha => ?_, fun _ _ h => h, fun _ _ _ h => h⟩
  have off : InWord (K.offset f.cpu) a → (K.areas hK).cpu f.fld f.cpu a := fun h => ⟨h1, h2, .inl h⟩
  have slt : (a - K.slot f.cpu k).toNat < K.isz → (K.areas hK).cpu f.fld f.cpu a :=
    fun h => ⟨h1, h2, .inr (hK.slot_arr h2 hk h)⟩
  rcases h with ⟨x, q, hx⟩ | ⟨x, q, hx⟩ | ⟨x, hx, hp⟩ | ⟨x, hx, hp⟩ <;> rw [hx] at ha
  · rcases ha with ha | ha
    · exact .inl (off ha)
    · exact .inl (slt (by rw [q]; exact ha))
  · rcases ha with ha | ha
    · exact .inl (off ha)
    · exact .inl (slt (by rw [q]; exact ha))
  · rcases ha with ha | ha | ha
    · exact .inl (off ha)
    · exact .inr (.inl ⟨d, hp a ha⟩)
    · exact .inl (slt (hK.inRange.1 ha))
  · rcases ha with ha | ha | ha
    · exact .inl (off ha)
    · exact .inl (slt (hK.inRange.1 ha))
    · exact .inr (.inl ⟨d, hp a ha⟩)

theorem BufFrame.shape {G : Bufs n} {m : Mem n} {t d : Nat} {f : Frame n} (h : BufFrame K G m t d f) :
    f.fld = K.fld ∧ f.cpu ∈ K.cpus ∧ ∃ k, k < K.cap f.cpu ∧
      ((∃ x, PushP K f k x) ∨ (∃ x, PopP K f k x) ∨ (∃ src, PushM K t d f k src) ∨
       (∃ dst, PopM K t d f k dst)) := by
  obtain ⟨h1, h2, k, hk, h⟩ := h
  refine ⟨h1, h2, k, hk, ?_⟩
  rcases h with ⟨x, h, -⟩ | ⟨x, h, -⟩ | ⟨x, h, -⟩ | ⟨x, h, -⟩
  · exact .inl ⟨x, h⟩
  · exact .inr (.inl ⟨x, h⟩)
  · exact .inr (.inr (.inl ⟨x, h⟩))
  · exact .inr (.inr (.inr ⟨x, h⟩))

/-- The index of a call whose comparison succeeds is determined by the buffer. -/
theorem compared_index (hK : K.OK) {m : Mem n} {c : BitVec 32} (hc : c ∈ K.cpus) {l : List (List Byte)}
    (h : K.Holds m c l) {k : Nat} (hk : k ≤ K.cap c) (he : ldw K.be m (K.offset c) = num k) : l.length = k := by
  rw [h.1] at he
  have := hK.cap_lt hc
  exact num_inj (Nat.lt_of_le_of_lt h.2.1 this) (by omega) he

/-- What changes in memory: by a call, its CPU's offset (in the final store), the array element just above the
items in the buffer, or the local variable that it pops to. -/
theorem buf_changes (hn : 4 ≤ n) (hbe : ∀ p, (T p).prog.be = K.be) (hK : K.OK) {s s' : State n}
    {G : Bufs n} (ih : BInv T K hK m0 s G) {t : Nat} {lab : Lab n} (hs : Step T s t lab s') (a : W n)
    (ha : s'.mem a ≠ s.mem a) :
    lab = .user ∨ ∃ f, (s.th t).top = some f ∧ (s.th t).run = true ∧
      zone (T f.pid).prog f.l.pc = .body ∧
      ((InWord (K.offset f.cpu) a ∧ committing T s t lab = some f) ∨
       ((G.buf f.cpu).length < K.cap f.cpu ∧ (a - K.slot f.cpu (G.buf f.cpu).length).toNat < K.isz) ∨
       (K.priv t (s.th t).saved.length a ∧ ∃ k dst, PopM K t (s.th t).saved.length f k dst)) := by
  have hI := (ih.reach.reach hn).inv hn
  cases hs with
  | exec f i ins l' m' hr ht hp hc he =>
    right
    have hacc := body_access hn hI hr ht hp hc he
    have hne : m' ≠ s.mem := fun h => ha (congrFun h a)
    have hcmp := write_compared hn hI hr ht hp hc he hne
    refine ⟨f, ht, hr, ?_, ?_⟩
    · apply Classical.byContradiction
      intro hz
      exact hne (hacc.1 hz).1
    · have hfr := ih.frames t _ f (by rw [frameAt_top rfl]; exact ht)
      obtain ⟨f1, f2, k, hk, hop⟩ := hfr.shape
      have hh := ih.holds f.cpu f2
      rw [hbe] at hcmp
      -- inside the element
      have slt : ldw K.be s.mem (K.offset f.cpu) = num k → (a - K.slot f.cpu k).toNat < K.isz →
          (G.buf f.cpu).length < K.cap f.cpu ∧ (a - K.slot f.cpu (G.buf f.cpu).length).toNat < K.isz := by
        intro h1 h2
        rw [compared_index hK f2 hh (by omega) h1]
        exact ⟨hk, h2⟩
      have off : InWord (K.offset f.cpu) a → i + 1 = (T f.pid).prog.commit →
          InWord (K.offset f.cpu) a ∧ committing T s t .exec = some f :=
        fun h1 h2 => ⟨h1, committing_eq ht hp h2⟩
      rcases hop with ⟨x, q, hop⟩ | ⟨x, q, hop⟩ | ⟨x, hop, hx⟩ | ⟨x, hop, hx⟩
      · rw [hop] at hcmp hacc
        simp only [pseudo] at hcmp hacc
        have hcm : ldw K.be s.mem (K.offset f.cpu) = num k := by
          apply Classical.byContradiction; intro h; rw [if_pos h] at hcmp; simp at hcmp
        rcases hacc.2.2.2 with ⟨hcom, h⟩ | ⟨hcom, h⟩
        · rcases hacc.2.2.1 a ha with h' | h'
          · exact .inl (off h' hcom)
          · exact .inr (.inl (slt hcm (by rw [q]; exact h')))
        · exact .inr (.inl (slt hcm (by rw [q]; exact h a ha)))
      · rw [hop] at hacc
        rcases hacc.2.2.2 with ⟨hcom, h⟩ | ⟨hcom, h⟩
        · by_cases h' : InWord (K.offset f.cpu) a
          · exact .inl (off h' hcom)
          · exfalso
            simp only [pseudo] at h
            split at h
            · simp at h
            · split at h
              · simp at h
              · injection h with _ h
                exact ha (by dsimp only; rw [← h, stw_other _ _ _ _ _ h'])
        · exact (h a ha).elim
      · rw [hop] at hcmp hacc
        simp only [pseudo] at hcmp hacc
        have hcm : ldw K.be s.mem (K.offset f.cpu) = num k := by
          apply Classical.byContradiction; intro h; rw [if_pos h] at hcmp; simp at hcmp
        rcases hacc.2.2.2 with ⟨hcom, h⟩ | ⟨hcom, h⟩
        · by_cases h' : InWord (K.offset f.cpu) a
          · exact .inl (off h' hcom)
          · refine .inr (.inl (slt hcm ?_))
            rw [if_neg (by rw [hbe, hcm]; simp)] at h
            injection h with _ h
            apply Classical.byContradiction
            intro hns
            refine ha ?_
            dsimp only
            rw [← h, stw_other _ _ _ _ _ h']
            unfold memcpy
            rw [if_neg]
            exact fun h2 => hns (hK.inRange.1 h2)
        · exact .inr (.inl (slt hcm (hK.inRange.1 (h a ha))))
      · have hshape : PopM K t (s.th t).saved.length f k x := ⟨hop, hx⟩
        rw [hop] at hcmp hacc
        simp only [pseudo] at hcmp hacc
        have hcm : ldw K.be s.mem (K.offset f.cpu) = num (k + 1) := by
          apply Classical.byContradiction; intro h; rw [if_pos h] at hcmp; simp at hcmp
        rcases hacc.2.2.2 with ⟨hcom, h⟩ | ⟨hcom, h⟩
        · by_cases h' : InWord (K.offset f.cpu) a
          · exact .inl (off h' hcom)
          · refine .inr (.inr ⟨hx a ?_, k, x, hshape⟩)
            rw [if_neg (by rw [hbe, hcm]; simp)] at h
            injection h with _ h
            apply Classical.byContradiction
            intro hns
            refine ha ?_
            dsimp only
            rw [← h, stw_other _ _ _ _ _ h']
            unfold memcpy
            rw [if_neg]
            exact fun h2 => hns h2
        · exact .inr (.inr ⟨hx a (h a ha), k, x, hshape⟩)
  | user => exact .inl rfl
  | _ => exact absurd rfl ha

theorem num_ne_two (hn : 4 ≤ n) {k : Nat} (hk : k < 2 ^ (8 * n)) : (num k : W n) ≠ num (k + 1) + 1#_ := by
  intro h
  have h1 : (num (k + 1) : W n) + 1#_ = num (k + 2) := by unfold num; rw [← BitVec.ofNat_add]
  rw [h1] at h
  have h2 := congrArg BitVec.toNat h
  simp only [num, BitVec.toNat_ofNat] at h2
  have h3 : (4 : Nat) ≤ 2 ^ (8 * n) := by
    have := lt_word n; omega
  rw [Nat.mod_eq_of_lt hk] at h2
  by_cases h4 : k + 2 < 2 ^ (8 * n)
  · rw [Nat.mod_eq_of_lt h4] at h2; omega
  · rw [Nat.mod_eq_sub_mod (by omega), Nat.mod_eq_of_lt (by omega)] at h2
    omega

/-- A pop's variable is not an array element. -/
theorem popM_ne (hK : K.OK) {t d : Nat} {f : Frame n} {k k' : Nat} {src dst : W n} (hc : f.cpu ∈ K.cpus)
    (hk : k < K.cap f.cpu) (h : PushM K t d f k src) (h' : PopM K t d f k' dst) : False := by
  obtain ⟨h1, -⟩ := h
  obtain ⟨h2, h3⟩ := h'
  rw [h1] at h2
  injection h2 with _ _ hd
  have hin : (dst - K.slot f.cpu k).toNat < K.isz := by
    rw [hd, BitVec.sub_self]; exact hK.isz0
  refine hK.arr_priv _ hc t d dst (hK.slot_arr hc hk hin) (h3 dst (hK.inRange.2 ?_))
  rw [BitVec.sub_self]; exact hK.isz0

/-- What a step leaves alone. -/
structure BufKeeps (T : Nat → Site n) (K : BufLayout n) (s s' : State n) (G : Bufs n) (t : Nat) (lab : Lab n) :
    Prop where
  item : ∀ c ∈ K.cpus, ∀ i, i < (G.buf c).length →
    bytes s'.mem (K.slot c i) K.isz = bytes s.mem (K.slot c i) K.isz
  off : ∀ c ∈ K.cpus, (∀ f, committing T s t lab = some f → f.cpu ≠ c) →
    ldw K.be s'.mem (K.offset c) = ldw K.be s.mem (K.offset c)
  priv : ∀ t' d' a, K.priv t' d' a → s'.mem a ≠ s.mem a → t' = t ∧ d' = (s.th t).saved.length ∧
    (lab = .user ∨ ∃ f, (s.th t).top = some f ∧ zone (T f.pid).prog f.l.pc = .body ∧
      ∃ k dst, PopM K t (s.th t).saved.length f k dst)

theorem buf_keeps (hn : 4 ≤ n) (hbe : ∀ p, (T p).prog.be = K.be) (hK : K.OK) {s s' : State n}
    {G : Bufs n} (ih : BInv T K hK m0 s G) {t : Nat} {lab : Lab n} (hs : Step T s t lab s')
    (hu : lab = .user → ∀ a, s'.mem a ≠ s.mem a →
        (∀ c ∈ K.cpus, ¬ InWord (K.offset c) a ∧ ¬ K.InArr c a) ∧
        (∀ t' d', K.priv t' d' a → t' = t ∧ d' = (s.th t).saved.length)) : BufKeeps T K s s' G t lab := by
  refine ⟨?_, ?_, ?_⟩
  · intro c hc i hi
    have hcap : i < K.cap c := Nat.lt_of_lt_of_le hi (ih.holds c hc).2.1
    refine bytes_congr fun a ha => ?_
    apply Classical.byContradiction
    intro hne
    have harr := hK.slot_arr hc hcap ha
    rcases buf_changes hn hbe hK ih hs a hne with hl | ⟨f, hf, -, -, hw⟩
    · exact ((hu hl a hne).1 c hc).2 harr
    · obtain ⟨-, f2, -⟩ := ih.frames t _ f (by rw [frameAt_top rfl]; exact hf)
      rcases hw with ⟨hw, -⟩ | ⟨h1, h2⟩ | ⟨hw, -⟩
      · exact hK.off_arr _ f2 c hc a hw harr
      · have := hK.arr_arr _ hc _ f2 a harr (hK.slot_arr f2 h1 h2)
        subst this
        have := hK.slot_slot hc hcap h1 ha h2
        omega
      · exact hK.arr_priv c hc _ _ a harr hw
  · intro c hc hno
    refine ldw_agree fun a ha => ?_
    apply Classical.byContradiction
    intro hne
    rcases buf_changes hn hbe hK ih hs a hne with hl | ⟨f, hf, -, -, hw⟩
    · exact ((hu hl a hne).1 c hc).1 ha
    · obtain ⟨-, f2, -⟩ := ih.frames t _ f (by rw [frameAt_top rfl]; exact hf)
      rcases hw with ⟨hw, hcm⟩ | ⟨h1, h2⟩ | ⟨hw, -⟩
      · exact hno f hcm (hK.off_off _ f2 c hc a hw ha)
      · exact hK.off_arr c hc _ f2 a ha (hK.slot_arr f2 h1 h2)
      · exact hK.off_priv c hc _ _ a ha hw
  · intro t' d' a hp hne
    rcases buf_changes hn hbe hK ih hs a hne with hl | ⟨f, hf, -, hz, hw⟩
    · obtain ⟨e1, e2⟩ := (hu hl a hne).2 t' d' hp
      exact ⟨e1, e2, .inl hl⟩
    · obtain ⟨-, f2, -⟩ := ih.frames t _ f (by rw [frameAt_top rfl]; exact hf)
      rcases hw with ⟨hw, hcm⟩ | ⟨h1, h2⟩ | ⟨hw, hq⟩
      · exact absurd hp (hK.off_priv _ f2 _ _ a hw)
      · exact absurd hp (hK.arr_priv _ f2 _ _ a (hK.slot_arr f2 h1 h2))
      · obtain ⟨e1, e2⟩ := hK.priv_priv _ _ _ _ a hp hw
        exact ⟨e1, e2, .inr ⟨f, hf, hz, hq⟩⟩

/-- A call in progress that is not concerned by the step. -/
theorem frame_keep (hn : 4 ≤ n) (hK : K.OK) {s s' : State n}
    {G G' : Bufs n} (ih : BInv T K hK m0 s G) {t : Nat} {lab : Lab n} (hs : Step T s t lab s')
    (hk : BufKeeps T K s s' G t lab) {t' d' : Nat} {f g : Frame n} (hf : frameAt (s.th t') d' = some f)
    (g1 : g.fld = f.fld) (g2 : g.cpu = f.cpu) (g3 : g.op = f.op) (g4 : g.commits = f.commits)
    (ha : G'.arg t' d' = G.arg t' d') (hg : G'.got t' d' = G.got t' d') : BufFrame K G' s'.mem t' d' g := by
  have hI := (ih.reach.reach hn).inv hn
  obtain ⟨h1, h2, k, hkk, h⟩ := ih.frames t' d' f hf
  unfold BufFrame PushP PopP PushM PopM
  rw [g1, g2, g3, g4, ha, hg]
  refine ⟨h1, h2, k, hkk, ?_⟩
  have hnu : lab = .user → ¬ (t' = t ∧ d' = (s.th t).saved.length) := by
    rintro hl ⟨rfl, rfl⟩
    rw [frameAt_top rfl] at hf
    subst hl
    cases hs with
    | user _ _ ht => rw [ht] at hf; simp at hf
  rcases h with ⟨x, q, hx⟩ | ⟨x, q, hx⟩ | ⟨x, q, hx⟩ | ⟨x, q, hx⟩
  · exact .inl ⟨x, q, hx⟩
  · exact .inr (.inl ⟨x, q, hx⟩)
  · refine .inr (.inr (.inl ⟨x, q, fun hc => ?_⟩))
    rw [hx hc]
    refine bytes_congr fun a ha => ?_
    apply Classical.byContradiction
    intro hne
    obtain ⟨e1, e2, hor⟩ := hk.priv _ _ _ (q.2 a (hK.inRange.2 ha)) (fun h => hne h.symm)
    rcases hor with hl | ⟨f', hf', -, k', dst, hq⟩
    · exact hnu hl ⟨e1, e2⟩
    · subst e1 e2
      rw [frameAt_top rfl, hf'] at hf
      injection hf with hf
      subst hf
      exact popM_ne hK h2 hkk q hq
  · refine .inr (.inr (.inr ⟨x, q, fun hc => ?_⟩))
    rw [hx hc]
    congr 1
    refine bytes_congr fun a ha => ?_
    apply Classical.byContradiction
    intro hne
    obtain ⟨e1, e2, hor⟩ := hk.priv _ _ _ (q.2 a (hK.inRange.2 ha)) (fun h => hne h.symm)
    rcases hor with hl | ⟨f', hf', hz', -⟩
    · exact hnu hl ⟨e1, e2⟩
    · subst e1 e2
      rw [frameAt_top rfl, hf'] at hf
      injection hf with hf
      subst hf
      exact hc ((((hI.th t').top f' hf').rng (.inr hz')).commits)

theorem buf_oreach (hK : K.OK) {s s' : State n}
    {G : Bufs n} (ih : BInv T K hK m0 s G) {t : Nat} {lab : Lab n} (hs : Step T s t lab s')
    (hi : ∀ f, lab = .invoke f → BufCall K G t (s.th t).saved.length f)
    (hu : lab = .user → ∀ a, s'.mem a ≠ s.mem a →
        (∀ c ∈ K.cpus, ¬ InWord (K.offset c) a ∧ ¬ K.InArr c a) ∧
        (∀ t' d', K.priv t' d' a → t' = t ∧ d' = (s.th t).saved.length)) :
    OReach T (K.areas hK) m0 s' := by
  refine ih.reach.step hs (fun f hl => ?_) (fun hl a ha => ?_)
  · obtain ⟨h1, h2, k, hk, h⟩ := call_shape hK ih (hi f hl)
    exact call_fits hK _ h1 h2 hk h
  · obtain ⟨h1, h2⟩ := hu hl a ha
    refine ⟨?_, ?_, fun h => h⟩
    · rintro fl c ⟨-, hc, h⟩
      rcases h with h | h
      · exact (h1 c hc).1 h
      · exact (h1 c hc).2 h
    · rintro u hut ⟨d, h⟩
      exact hut (h2 u d h).1

/-- Steps other than final stores: the buffers stay. -/
theorem buf_quiet (hn : 4 ≤ n) (hK : K.OK) {s s' : State n}
    {G : Bufs n} (ih : BInv T K hK m0 s G) {t : Nat} {lab : Lab n} (hs : Step T s t lab s')
    (hk : BufKeeps T K s s' G t lab) (ho : OReach T (K.areas hK) m0 s')
    (hi : ∀ f, lab = .invoke f → BufCall K G t (s.th t).saved.length f)
    (hcom : committing T s t lab = none) : BInv T K hK m0 s' (bufStep K T s G t lab) := by
  have hb : (bufStep K T s G t lab).buf = G.buf ∧ (bufStep K T s G t lab).got = G.got ∧
      (bufStep K T s G t lab).rd = G.rd ∧
      (∀ t' d', (∀ f, lab = .invoke f → ¬ (t' = t ∧ d' = (s.th t).saved.length)) →
        (bufStep K T s G t lab).arg t' d' = G.arg t' d') := by
    unfold bufStep
    split
    · next f =>
      refine ⟨rfl, rfl, rfl, fun t' d' h => ?_⟩
      simp only [Bufs.start]
      rw [if_neg (h f rfl)]
    · rw [hcom]; exact ⟨rfl, rfl, rfl, fun _ _ _ => rfl⟩
  refine ⟨ho, ?_, ?_, ?_⟩
  · intro c hc
    rw [hb.1]
    obtain ⟨h1, h2, h3⟩ := ih.holds c hc
    refine ⟨?_, h2, fun i x hx => ?_⟩
    · rw [hk.off c hc (fun f hf => by rw [hcom] at hf; simp at hf), h1]
    · rw [hk.item c hc i (List.getElem?_eq_some_iff.1 hx).1, h3 i x hx]
  · rw [hb.2.2.1]; exact ih.rd
  · intro t' d' g hg
    have hfr : (lab = .invoke g ∧ t' = t ∧ d' = (s.th t).saved.length) ∨
        ∃ f, frameAt (s.th t') d' = some f ∧ g.fld = f.fld ∧ g.cpu = f.cpu ∧ g.op = f.op ∧
          g.commits = f.commits ∧ ∀ f', lab = .invoke f' → ¬ (t' = t ∧ d' = (s.th t).saved.length) := by
      by_cases e : t' = t
      · subst e
        rcases frameAt_step hs d' g hg with ⟨h1, h2⟩ | ⟨f, h1, h2, h3, h4, h5, h6, -⟩
        · exact .inl ⟨h1, rfl, h2⟩
        · have hno : ∀ f', lab = .invoke f' → ¬ (t' = t' ∧ d' = (s.th t').saved.length) := by
            rintro f' hl ⟨-, rfl⟩
            rw [frameAt_top rfl] at h1
            subst hl
            cases hs with
            | invoke _ _ ht => rw [ht] at h1; simp at h1
          rcases h6 with h6 | ⟨i, q1, q2, q3, q4, -, q6⟩
          · exact .inr ⟨f, h1, h3, h4, h5, h6, hno⟩
          · subst q6
            rw [committing_eq q1 q3 q4] at hcom; simp at hcom
      · right
        rw [hs.other (fun e' => e e'.symm)] at hg
        exact ⟨g, hg, rfl, rfl, rfl, rfl, fun _ _ h => e h.1⟩
    rcases hfr with ⟨hl, rfl, rfl⟩ | ⟨f, hf, g1, g2, g3, g4, hno⟩
    · subst hl
      obtain ⟨h1, h2, k, hkk, h⟩ := call_shape hK ih (hi g rfl)
      have hm : s'.mem = s.mem := by cases hs; rfl
      have hc0 : g.commits = 0 := by
        cases hs with
        | invoke _ _ _ hf _ => exact hf.commits
      have harg : (bufStep K T s G t' (.invoke g)).arg t' (s.th t').saved.length = itemOf K s.mem g := by
        simp [bufStep, Bufs.start]
      refine ⟨h1, h2, k, hkk, ?_⟩
      rw [harg, hm]
      rcases h with ⟨x, q⟩ | ⟨x, q⟩ | ⟨x, q⟩ | ⟨x, q⟩
      · refine .inl ⟨x, q, fun _ => ?_⟩
        unfold itemOf; rw [q.2]
      · exact .inr (.inl ⟨x, q, fun h => absurd hc0 h⟩)
      · refine .inr (.inr (.inl ⟨x, q, fun _ => ?_⟩))
        unfold itemOf; rw [q.1]
      · exact .inr (.inr (.inr ⟨x, q, fun h => absurd hc0 h⟩))
    · refine frame_keep hn hK ih hs hk hf g1 g2 g3 g4 (hb.2.2.2 t' d' hno) ?_
      rw [hb.2.1]

/-- Frames after a final store. -/
theorem commit_frames (hn : 4 ≤ n) {s s' : State n} (hI : Inv T s) {t : Nat} (hs : Step T s t .exec s')
    {f : Frame n} (hcom : committing T s t .exec = some f) (t' d' : Nat) (g : Frame n)
    (hg : frameAt (s'.th t') d' = some g) :
    (t' = t ∧ d' = (s.th t).saved.length ∧ g.fld = f.fld ∧ g.cpu = f.cpu ∧ g.op = f.op ∧ g.commits = 1) ∨
    (¬ (t' = t ∧ d' = (s.th t).saved.length) ∧ frameAt (s.th t') d' = some g) := by
  obtain ⟨-, ht, i, hp, hcm⟩ := committing_some hcom
  have Z := (T f.pid).facts
  have hz : zone (T f.pid).prog f.l.pc = .body := by
    rw [hp]
    have := Z.sc; have := Z.cc; have := Z.ca; have := Z.an; have := Z.nl
    rcases zone_at_cases Z (i := i) with h'|h'|h'|h'|h'|h'|h' <;>
      first | exact h'.1 | omega
  have hc0 : f.commits = 0 := (((hI.th t).top f ht).rng (.inr hz)).commits
  by_cases e : t' = t
  · subst e
    cases hs with
    | exec f' i' ins l' m' hr ht' hp' hc he =>
      rw [ht] at ht'; injection ht' with ht'; subst ht'
      rw [hp] at hp'; injection hp' with hp'; subst hp'
      dsimp only at hg
      rw [updT_same] at hg
      rcases frameAt_case (x := s.th t') hg rfl with ⟨h, hg⟩ | ⟨h, hg⟩
      · injection hg with hg
        refine .inl ⟨rfl, h, by rw [← hg], by rw [← hg], by rw [← hg], ?_⟩
        rw [← hg]; simp [hcm, hc0]
      · exact .inr ⟨fun h' => h h'.2, hg⟩
  · right
    rw [hs.other (fun e' => e e'.symm)] at hg
    exact ⟨fun h => e h.1, hg⟩

theorem commit_pseudo (hn : 4 ≤ n) {s s' : State n} (hI : Inv T s) {t : Nat} (hs : Step T s t .exec s')
    {f : Frame n} (hcom : committing T s t .exec = some f) :
    pseudo (T f.pid).prog.be f.op s.mem = (0, s'.mem) ∧ f.commits = 0 := by
  obtain ⟨-, ht, i, hp, hcm⟩ := committing_some hcom
  have Z := (T f.pid).facts
  have hz : zone (T f.pid).prog f.l.pc = .body := by
    rw [hp]
    have := Z.sc; have := Z.cc; have := Z.ca; have := Z.an; have := Z.nl
    rcases zone_at_cases Z (i := i) with h'|h'|h'|h'|h'|h'|h' <;>
      first | exact h'.1 | omega
  refine ⟨?_, (((hI.th t).top f ht).rng (.inr hz)).commits⟩
  cases hs with
  | exec f' i' ins l' m' hr ht' hp' hc he =>
    rw [ht] at ht'; injection ht' with ht'; subst ht'
    rw [hp] at hp'; injection hp' with hp'; subst hp'
    rcases (body_access hn hI hr ht hp hc he).2.2.2 with ⟨-, h⟩ | ⟨h, -⟩
    · exact h
    · exact absurd hcm h

/-- The effect of a final store on the buffer of its CPU. -/
inductive Effect (K : BufLayout n) (s' : State n) (G : Bufs n) (t d : Nat) (f : Frame n) : Bufs n → Prop
  | push (k : Nat) (hl : (G.buf f.cpu).length = k) (hk : k < K.cap f.cpu)
      (hop : (∃ x, PushP K f k x ∧ G.arg t d = wordItem K.be x) ∨ ∃ src, PushM K t d f k src)
      (ho : ldw K.be s'.mem (K.offset f.cpu) = num (k + 1))
      (hb : bytes s'.mem (K.slot f.cpu k) K.isz = G.arg t d) :
      Effect K s' G t d f (G.push f.cpu (G.arg t d))
  | pop (k : Nat) (l : List (List Byte)) (y : List Byte) (hl : G.buf f.cpu = l ++ [y]) (hk : l.length = k)
      (hop : (∃ x, PopP K f k x ∧ y = wordItem K.be x) ∨ ∃ dst, PopM K t d f k dst ∧ bytes s'.mem dst K.isz = y)
      (ho : ldw K.be s'.mem (K.offset f.cpu) = num k) :
      Effect K s' G t d f (G.pop f.cpu t d)

theorem list_last {α : Type} {l : List α} {k : Nat} (h : l.length = k + 1) : ∃ l' y, l = l' ++ [y] ∧ l'.length = k := by
  have hne : l ≠ [] := by intro e; subst e; simp at h
  refine ⟨l.dropLast, l.getLast hne, (List.dropLast_concat_getLast hne).symm, ?_⟩
  rw [List.length_dropLast]; omega

theorem buf_effect (hn : 4 ≤ n) (hbe : ∀ p, (T p).prog.be = K.be) (hK : K.OK) {s s' : State n}
    {G : Bufs n} (ih : BInv T K hK m0 s G) {t : Nat} (hs : Step T s t .exec s')
    {f : Frame n} (hcom : committing T s t .exec = some f) :
    Effect K s' G t (s.th t).saved.length f (bufStep K T s G t .exec) := by
  have hI := (ih.reach.reach hn).inv hn
  obtain ⟨hps, hc0⟩ := commit_pseudo hn hI hs hcom
  rw [hbe] at hps
  obtain ⟨-, ht, -⟩ := committing_some hcom
  obtain ⟨f1, f2, k, hk, hop⟩ := ih.frames t _ f (by rw [frameAt_top rfl]; exact ht)
  have hh := ih.holds f.cpu f2
  have hcap := hK.cap_lt f2
  have hN : k < 2 ^ (8 * n) := by omega
  have hstep : bufStep K T s G t .exec = bufOp G t (s.th t).saved.length f := by
    simp only [bufStep, hcom]
  unfold bufOp at hstep
  -- the offset word does not meet an array element
  have hdis : ∀ (m : Mem n) (v : W n), bytes (stw K.be m (K.offset f.cpu) v) (K.slot f.cpu k) K.isz =
      bytes m (K.slot f.cpu k) K.isz := by
    intro m v
    refine bytes_congr fun a ha => stw_other _ _ _ _ _ fun h => ?_
    exact hK.off_arr _ f2 _ f2 a h (hK.slot_arr f2 hk ha)
  rcases hop with ⟨x, q, hx⟩ | ⟨x, q, hx⟩ | ⟨x, q, hx⟩ | ⟨x, q, hx⟩
  · rw [hstep, q.2]
    rw [q.2] at hps
    simp only [pseudo] at hps
    have hcm : ldw K.be s.mem (K.offset f.cpu) = num k := by
      apply Classical.byContradiction; intro h; rw [if_pos h] at hps; simp at hps
    rw [if_neg (by simp [hcm])] at hps
    injection hps with _ hm
    refine .push k (compared_index hK f2 hh (by omega) hcm) hk (.inl ⟨x, q, hx hc0⟩) ?_ ?_
    · rw [← hm, ldw_stw_same]
    · rw [← hm, hdis, hx hc0]
      have := bytes_stw K.be s.mem (K.slot f.cpu k) x
      rw [q.1]; exact this
  · rw [hstep, q.2]
    rw [q.2] at hps
    simp only [pseudo] at hps
    have hcm : ldw K.be s.mem (K.offset f.cpu) = num (k + 1) := by
      apply Classical.byContradiction; intro h; rw [if_pos h] at hps; simp at hps
    rw [if_neg (by simp [hcm])] at hps
    have hcm2 : ldw K.be s.mem (K.slot f.cpu k) = x := by
      apply Classical.byContradiction; intro h; rw [if_pos h] at hps; simp at hps
    rw [if_neg (by simp [hcm2])] at hps
    injection hps with _ hm
    obtain ⟨l', y, hl, hlen⟩ := list_last (compared_index hK f2 hh (by omega) hcm)
    refine .pop k l' y hl hlen (.inl ⟨x, q, ?_⟩) ?_
    · have := hh.2.2 k y (by rw [hl, ← hlen]; simp)
      rw [← this, q.1, bytes_ldw K.be, hcm2]
    · rw [← hm, ldw_stw_same]
  · rw [hstep, q.1]
    rw [q.1] at hps
    simp only [pseudo] at hps
    have hcm : ldw K.be s.mem (K.offset f.cpu) = num k := by
      apply Classical.byContradiction; intro h; rw [if_pos h] at hps; simp at hps
    rw [if_neg (by simp [hcm])] at hps
    injection hps with _ hm
    dsimp only
    rw [if_pos (show (num (k + 1) : W n) = num k + 1#_ from BitVec.ofNat_add k 1)]
    refine .push k (compared_index hK f2 hh (by omega) hcm) hk (.inr ⟨x, q⟩) ?_ ?_
    · rw [← hm, ldw_stw_same]
    · rw [← hm, hdis, hx hc0]
      exact bytes_memcpy _ _ _ hK.iszlt
  · rw [hstep, q.1]
    rw [q.1] at hps
    simp only [pseudo] at hps
    have hcm : ldw K.be s.mem (K.offset f.cpu) = num (k + 1) := by
      apply Classical.byContradiction; intro h; rw [if_pos h] at hps; simp at hps
    rw [if_neg (by simp [hcm])] at hps
    injection hps with _ hm
    obtain ⟨l', y, hl, hlen⟩ := list_last (compared_index hK f2 hh (by omega) hcm)
    dsimp only
    rw [if_neg (num_ne_two hn hN)]
    refine .pop k l' y hl hlen (.inr ⟨x, q, ?_⟩) ?_
    · have := hh.2.2 k y (by rw [hl, ← hlen]; simp)
      rw [← this, ← hm, ← bytes_memcpy s.mem x _ hK.iszlt]
      refine bytes_congr fun a ha => stw_other _ _ _ _ _ fun h => ?_
      exact hK.off_priv _ f2 _ _ a h (q.2 a (hK.inRange.2 ha))
    · rw [← hm, ldw_stw_same]

theorem pop_eq {G : Bufs n} {c : BitVec 32} {l : List (List Byte)} {y : List Byte} (h : G.buf c = l ++ [y])
    (t d : Nat) : G.pop c t d = { G with
      buf := fun c' => if c' = c then l else G.buf c'
      got := fun t' d' => if t' = t ∧ d' = d then some y else G.got t' d'
      popped := fun x => if x = y then G.popped x + 1 else G.popped x } := by
  unfold Bufs.pop
  rw [h]
  simp

/-- The final store of a call: the abstract operation takes place. -/
theorem buf_commit (hn : 4 ≤ n) (hbe : ∀ p, (T p).prog.be = K.be) (hK : K.OK) {s s' : State n}
    {G : Bufs n} (ih : BInv T K hK m0 s G) {t : Nat} (hs : Step T s t .exec s')
    (hkp : BufKeeps T K s s' G t .exec) (ho : OReach T (K.areas hK) m0 s')
    {f : Frame n} (hcom : committing T s t .exec = some f) : BInv T K hK m0 s' (bufStep K T s G t .exec) := by
  have hI := (ih.reach.reach hn).inv hn
  obtain ⟨-, ht, -⟩ := committing_some hcom
  obtain ⟨f1, f2, kf, hkf, -⟩ := ih.frames t _ f (by rw [frameAt_top rfl]; exact ht)
  have hother : ∀ c ∈ K.cpus, c ≠ f.cpu → K.Holds s'.mem c (G.buf c) := by
    intro c hc hne
    obtain ⟨h1, h2, h3⟩ := ih.holds c hc
    refine ⟨?_, h2, fun i x hx => ?_⟩
    · rw [hkp.off c hc (fun f' hf' => ?_), h1]
      rw [hcom] at hf'; injection hf' with hf'; subst hf'; exact fun h => hne h.symm
    · rw [hkp.item c hc i (List.getElem?_eq_some_iff.1 hx).1, h3 i x hx]
  have hframes := commit_frames hn hI hs hcom
  have hh := ih.holds f.cpu f2
  have heff := buf_effect hn hbe hK ih hs hcom
  generalize bufStep K T s G t .exec = G' at heff ⊢
  cases heff with
  | push k hl hk hop hof hb =>
    refine ⟨ho, ?_, ih.rd, ?_⟩
    · intro c hc
      simp only [Bufs.push]
      by_cases e : c = f.cpu
      · subst e
        rw [if_pos rfl]
        refine ⟨by rw [hof, List.length_append, hl]; rfl, by rw [List.length_append, hl]; exact hk,
          fun i x hx => ?_⟩
        by_cases hi : i < k
        · rw [List.getElem?_append_left (by omega)] at hx
          rw [hkp.item _ hc i (by omega), hh.2.2 i x hx]
        · rw [List.getElem?_append_right (by omega)] at hx
          have : i - (G.buf f.cpu).length = 0 := by
            apply Classical.byContradiction
            intro h
            rw [List.getElem?_eq_none (by simp; omega)] at hx; simp at hx
          rw [this] at hx
          injection hx with hx
          rw [show i = k by omega, ← hx]; exact hb
      · rw [if_neg e]; exact hother c hc e
    · intro t' d' g hg
      rcases hframes t' d' g hg with ⟨rfl, rfl, g1, g2, g3, g4⟩ | ⟨hne, hg⟩
      · refine ⟨g1.trans f1, g2 ▸ f2, k, by rw [g2]; exact hk, ?_⟩
        unfold PushP PopP PushM PopM
        rw [g2, g3, g4]
        rcases hop with ⟨x, q, -⟩ | ⟨x, q⟩
        · exact .inl ⟨x, q, fun h => by simp at h⟩
        · exact .inr (.inr (.inl ⟨x, q, fun h => by simp at h⟩))
      · exact frame_keep hn hK ih hs hkp hg rfl rfl rfl rfl rfl rfl
  | pop k l y hl hk hop hof =>
    rw [pop_eq hl]
    refine ⟨ho, ?_, ih.rd, ?_⟩
    · intro c hc
      dsimp only
      by_cases e : c = f.cpu
      · subst e
        rw [if_pos rfl]
        have hlen : (G.buf f.cpu).length = l.length + 1 := by rw [hl]; simp
        refine ⟨by rw [hof, hk], by have := hh.2.1; omega, fun i x hx => ?_⟩
        have hi := (List.getElem?_eq_some_iff.1 hx).1
        rw [hkp.item _ hc i (by omega), hh.2.2 i x (by rw [hl, List.getElem?_append_left hi]; exact hx)]
      · rw [if_neg e]; exact hother c hc e
    · intro t' d' g hg
      have hlen : (G.buf f.cpu).length = l.length + 1 := by rw [hl]; simp
      rcases hframes t' d' g hg with ⟨rfl, rfl, g1, g2, g3, g4⟩ | ⟨hne, hg⟩
      · refine ⟨g1.trans f1, g2 ▸ f2, k, by rw [g2]; have := hh.2.1; omega, ?_⟩
        unfold PushP PopP PushM PopM
        rw [g2, g3, g4]
        rcases hop with ⟨x, q, hy⟩ | ⟨x, q, hy⟩
        · exact .inr (.inl ⟨x, q, fun _ => by simp [hy]⟩)
        · exact .inr (.inr (.inr ⟨x, q, fun _ => by simp [hy]⟩))
      · refine frame_keep hn hK ih hs hkp hg rfl rfl rfl rfl rfl ?_
        dsimp only
        rw [if_neg hne]

/-- The invariant holds in every state. -/
theorem BReach.inv (hn : 4 ≤ n) (hbe : ∀ p, (T p).prog.be = K.be) (hK : K.OK) (h0 : BufInit K m0 G0)
    {s : State n} {G : Bufs n} (h : BReach T K m0 G0 s G) : BInv T K hK m0 s G := by
  induction h with
  | init =>
    refine ⟨.init, h0.holds, fun t d c w h => ?_, ?_⟩
    · rw [h0.rd] at h; simp at h
    · intro t d f hf
      rcases frameAt_any hf with h | h <;> simp [thread0] at h
  | @step s s' G t lab h hs hi hu ih =>
    have hk := buf_keeps hn hbe hK ih hs hu
    have ho := buf_oreach hK ih hs hi hu
    cases hc : committing T s t lab with
    | none => exact buf_quiet hn hK ih hs hk ho hi hc
    | some f =>
      obtain ⟨hl, -⟩ := committing_some hc
      subst hl
      exact buf_commit hn hbe hK ih hs hk ho hc
  | @read s G t c h hr ht hc ih =>
    refine ⟨ih.reach, ih.holds, fun t' d' c' w hw => ?_, ih.frames⟩
    simp only [Bufs.read] at hw
    split at hw
    · injection hw with hw
      injection hw with e1 e2
      subst e1 e2
      exact ⟨hc, _, (ih.holds c hc).2.1, (ih.holds c hc).1⟩
    · exact ih.rd _ _ _ _ hw

end Verif.Rseq
