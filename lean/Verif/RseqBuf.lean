import Verif.RseqStack
/-
Per-CPU bounded buffers: `this_cpu_buffer_push`, `this_cpu_buffer_pop`, `this_cpu_memcpy_buffer_push` and
`this_cpu_memcpy_buffer_pop`, tests/param_test.c:887-958, 1121-1201.
-/

namespace Verif.Rseq

variable {n : Nat}

/-! ### An attempt store happens only after the comparison succeeded -/

/-- Past the last comparison a run can only reach the final store. -/
theorem cut_run {p : Prog n} (Z : ZoneFacts p) (h : cutOK p = true) (fv : BitVec 32) : ∀ (k : Nat)
    (s : LSt n × Mem n), ((∃ i, s.1.pc = .at i ∧ cut p ≤ i ∧ zone p (.at i) = .body) ∨
      zone p s.1.pc = .post ∨ zone p s.1.pc = .done 0) →
    ((∃ i, (run p fv k s).1.pc = .at i ∧ cut p ≤ i ∧ zone p (.at i) = .body) ∨
      zone p (run p fv k s).1.pc = .post ∨ zone p (run p fv k s).1.pc = .done 0) := by
  intro k
  induction k with
  | zero => intro s h; exact h
  | succ k ih =>
    intro s hs
    simp only [run]
    refine ih _ ?_
    rcases hs with ⟨i, hp, hci, hz⟩ | hs
    · cases hc : p.code[i]? with
      | none =>
        left
        obtain ⟨l, m⟩ := s
        exact ⟨i, by simp only [step]; rw [hp]; simp only [hc]; exact hp, hci, hz⟩
      | some ins =>
        obtain ⟨l, m⟩ := s
        have hst : step p fv (l, m) = exec p fv i ins l m := by
          simp only [step]; rw [hp]; simp only [hc]
        rw [hst]
        by_cases hcm : i + 1 = p.commit
        · exact .inr (.inl ((body_step Z hc hz (fv := fv) (l := l) (m := m)).2.2.1 hcm).2)
        · obtain ⟨j, h1, h2, h3⟩ := (cut_step Z h hc hz hcm).2 hci fv l m
          exact .inl ⟨j, h1, h2, h3⟩
    · have := (post_run Z fv 1 s hs).2
      simp only [run] at this
      exact .inr this

variable {T : Nat → Site n}

/-- An instruction that changes memory is executed only after the comparisons of the call have succeeded, and
they would succeed on current memory. -/
theorem write_compared (hn : 4 ≤ n) {s : State n} (hI : Inv T s) {t : Nat} {f : Frame n} {i : Nat}
    {ins : Instr} {l' : LSt n} {m' : Mem n} (hr : (s.th t).run = true) (ht : (s.th t).top = some f)
    (hp : f.l.pc = .at i) (hc : (T f.pid).prog.code[i]? = some ins)
    (he : Rseq.exec (T f.pid).prog ((s.th t).fv f.fld) i ins f.l s.mem = (l', m')) (hm : m' ≠ s.mem) :
    (pseudo (T f.pid).prog.be f.op s.mem).1 = 0 := by
  have hacc := body_access hn hI hr ht hp hc he
  rcases hacc.2.2.2 with ⟨-, h⟩ | ⟨hcm, -⟩
  · rw [h]
  have hz : zone (T f.pid).prog (.at i) = .body := by
    apply Classical.byContradiction
    intro hz
    exact hm (hacc.1 (by rw [hp]; exact hz)).1
  have hi := (hI.th t).top f ht
  have Z := (T f.pid).facts
  have hrng := hi.rng (.inr (by rw [hp]; exact hz))
  have hreg := (body_on hn hI hr ht (by rw [hp]; exact hz)).reg
  obtain ⟨-, r5, r6⟩ := (hrng.regd hreg).2.2 hr
  have hm' : m' = (Rseq.exec (T f.pid).prog ((s.th t).fv f.fld) i ins f.l s.mem).2 := by rw [he]
  rcases r6 with r6 | r6
  · have hcok := program_cutOK (T f.pid).al (T f.pid).be (T f.pid).csa (T f.pid).arch
        (T f.pid).kind (T f.pid).rel (T f.pid).prog (T f.pid).ok
    have hcut := cut_step Z hcok hc hz hcm
    have hle : cut (T f.pid).prog ≤ i := by
      apply Classical.byContradiction
      intro hlt
      exact hm (by rw [hm']; exact exec_wr (hcut.1 (by omega)) _ _ _ _ _)
    have hrep := r5.agree r6
    have hfv := Rep.cpu_eq Z (hi.base.impl hn) hi.base.setup hrep (.inl (by rw [hp]; exact hz))
    obtain ⟨k, hk⟩ := hrep.run
    obtain ⟨k', a, -, -⟩ := (hi.base.impl hn f.cpu ((s.th t).fv f.fld) f.l0 s.mem hi.base.setup).1 hfv
    obtain ⟨j, hj⟩ := returns_through hk a
    have := cut_run Z hcok ((s.th t).fv f.fld) j (f.l, s.mem) (.inl ⟨i, hp, hle, hz⟩)
    rw [hj, a] at this
    rcases this with ⟨i', h1, -⟩ | h1 | h1
    · simp at h1
    · simp [zone] at h1
    · simp [zone] at h1; exact h1
  · cases r6 with
    | done hd => rw [hp] at hd; simp at hd
    | @step l2 l3 j ins2 hp2 hc2 hm2 hf2 he2 hq2 =>
      rw [hp] at hp2
      injection hp2 with hp2
      subst hp2
      rw [hc] at hc2
      injection hc2 with hc2
      subst hc2
      exact absurd (by rw [hm']; exact (exec_memFree hm2 _ _ _ _ _ s.mem).1) hm

/-! ### Items in memory -/

/-- The `k` bytes at address `a`. -/
def bytes (m : Mem n) (a : W n) (k : Nat) : List Byte :=
  (List.range k).map fun i => m (a + BitVec.ofNat (8 * n) i)

/-- The bytes of a pointer. -/
def wordItem (be : Bool) (x : W n) : List Byte := bytes (stw be (fun _ => 0#8) 0#_ x) 0#_ n

theorem sub_add_lt (a : W n) {i k : Nat} (h : i < k) : (a + BitVec.ofNat (8 * n) i - a).toNat < k := by
  rw [BitVec.add_comm, BitVec.add_sub_cancel, BitVec.toNat_ofNat]
  exact Nat.lt_of_le_of_lt (Nat.mod_le _ _) h

theorem bytes_congr {m m' : Mem n} {a : W n} {k : Nat} (h : ∀ x : W n, (x - a).toNat < k → m x = m' x) :
    bytes m a k = bytes m' a k := by
  unfold bytes
  refine List.map_congr_left fun i hi => h _ (sub_add_lt a (List.mem_range.1 hi))

theorem bytes_memcpy (m : Mem n) (dst src : W n) {k : Nat} (hk : k < 2 ^ (8 * n)) :
    bytes (memcpy m dst src (BitVec.ofNat (8 * n) k)) dst k = bytes m src k := by
  unfold bytes
  refine List.map_congr_left fun i hi => ?_
  have hi := List.mem_range.1 hi
  unfold memcpy
  rw [BitVec.toNat_ofNat, Nat.mod_eq_of_lt hk, if_pos (sub_add_lt dst hi)]
  rw [BitVec.add_comm dst, BitVec.add_sub_cancel]

theorem bytes_stw (be : Bool) (m : Mem n) (a x : W n) : bytes (stw be m a x) a n = wordItem be x := by
  unfold wordItem bytes
  refine List.map_congr_left fun i hi => ?_
  have hi := List.mem_range.1 hi
  unfold stw
  rw [if_pos (sub_add_lt a hi), if_pos (sub_add_lt _ hi), off_toNat a hi, off_toNat _ hi]

theorem sumTo_lt {f : Nat → Nat} (hf : ∀ i, f i < 256) : ∀ k, sumTo (fun i => f i * 256 ^ i) k < 256 ^ k := by
  intro k
  induction k with
  | zero => simp [sumTo]
  | succ k ih =>
    simp only [sumTo]
    have h1 : f k * 256 ^ k ≤ 255 * 256 ^ k := Nat.mul_le_mul_right _ (by have := hf k; omega)
    rw [Nat.pow_succ]; omega

theorem sumTo_digit {f : Nat → Nat} (hf : ∀ i, f i < 256) : ∀ k j, j < k →
    sumTo (fun i => f i * 256 ^ i) k / 256 ^ j % 256 = f j := by
  intro k
  induction k with
  | zero => intro j hj; omega
  | succ k ih =>
    intro j hj
    simp only [sumTo]
    by_cases e : j = k
    · subst e
      rw [Nat.add_mul_div_right _ _ (Nat.pow_pos (by decide)), Nat.div_eq_of_lt (sumTo_lt hf j), Nat.zero_add,
        Nat.mod_eq_of_lt (hf j)]
    · have hk : (256 : Nat) ^ k = 256 ^ (k - j - 1) * 256 * 256 ^ j := by
        rw [← Nat.pow_succ, ← Nat.pow_add]; congr 1; omega
      rw [hk, ← Nat.mul_assoc, Nat.add_mul_div_right _ _ (Nat.pow_pos (by decide)), ← Nat.mul_assoc,
        Nat.add_mul_mod_self_right]
      exact ih j (by omega)

theorem sumTo_digit_pos (be : Bool) {f : Nat → Nat} (hf : ∀ i, f i < 256) {j : Nat} (hj : j < n) :
    sumTo (fun i => f i * 256 ^ pos be n i) n / 256 ^ pos be n j % 256 = f j ∧
    sumTo (fun i => f i * 256 ^ pos be n i) n < 256 ^ n := by
  cases be with
  | false =>
    simp only [pos, Bool.false_eq_true, if_false]
    exact ⟨sumTo_digit hf n j hj, sumTo_lt hf n⟩
  | true =>
    simp only [pos, if_true]
    have h1 : sumTo (fun i => f i * 256 ^ (n - 1 - i)) n =
        sumTo (fun i => (fun i' => f (n - 1 - i')) i * 256 ^ i) n := by
      rw [← sumTo_reverse (fun i => (fun i' => f (n - 1 - i')) i * 256 ^ i)]
      refine sumTo_congr n fun i hi => ?_
      dsimp only
      rw [show n - 1 - (n - 1 - i) = i by omega]
    rw [h1]
    refine ⟨?_, sumTo_lt (f := fun i' => f (n - 1 - i')) (fun i => hf _) n⟩
    rw [sumTo_digit (f := fun i' => f (n - 1 - i')) (fun i => hf _) n (n - 1 - j) (by omega)]
    rw [show n - 1 - (n - 1 - j) = j by omega]

/-- The bytes of the word at `a`. -/
theorem bytes_ldw (be : Bool) (m : Mem n) (a : W n) : bytes m a n = wordItem be (ldw be m a) := by
  unfold wordItem bytes
  refine List.map_congr_left fun i hi => ?_
  have hi := List.mem_range.1 hi
  unfold stw
  rw [if_pos (sub_add_lt _ hi), off_toNat _ hi]
  apply BitVec.eq_of_toNat_eq
  have h := sumTo_digit_pos be (f := fun i => (m (a + BitVec.ofNat (8 * n) i)).toNat)
    (fun i => (m (a + BitVec.ofNat (8 * n) i)).isLt) hi
  have h256 : (256 : Nat) ^ n = 2 ^ (8 * n) := by rw [Nat.pow_mul]
  rw [BitVec.toNat_ofNat]
  unfold ldw
  rw [BitVec.toNat_ofNat, ← h256, Nat.mod_eq_of_lt h.2]
  exact h.1.symm

/-! ### The buffers -/

/-- The memory used: per CPU a word `offset` and an array of `cap` items of `isz` bytes (param_test.c:407-428);
bytes private to a thread at a signal depth (the C locals that are copied from and to). -/
structure BufLayout (n : Nat) where
  be : Bool
  fld : Fld
  cpus : List (BitVec 32)
  offset : BitVec 32 → W n
  array : BitVec 32 → W n
  cap : BitVec 32 → Nat
  isz : Nat
  priv : Nat → Nat → W n → Prop

/-- A number as a machine word. -/
abbrev num (k : Nat) : W n := BitVec.ofNat (8 * n) k

/-- `&array[i]`. -/
def BufLayout.slot (K : BufLayout n) (c : BitVec 32) (i : Nat) : W n := K.array c + num (i * K.isz)

/-- The byte is one of the array of CPU `c`. -/
def BufLayout.InArr (K : BufLayout n) (c : BitVec 32) (a : W n) : Prop :=
  (a - K.array c).toNat < K.cap c * K.isz

/-- Nothing overlaps. -/
structure BufLayout.OK (K : BufLayout n) : Prop where
  isz0 : 0 < K.isz
  iszlt : K.isz < 2 ^ (8 * n)
  size : ∀ c ∈ K.cpus, K.cap c * K.isz < 2 ^ (8 * n)
  off_off : ∀ c ∈ K.cpus, ∀ c' ∈ K.cpus, ∀ a, InWord (K.offset c) a → InWord (K.offset c') a → c = c'
  arr_arr : ∀ c ∈ K.cpus, ∀ c' ∈ K.cpus, ∀ a, K.InArr c a → K.InArr c' a → c = c'
  off_arr : ∀ c ∈ K.cpus, ∀ c' ∈ K.cpus, ∀ a, InWord (K.offset c) a → ¬ K.InArr c' a
  off_priv : ∀ c ∈ K.cpus, ∀ t d a, InWord (K.offset c) a → ¬ K.priv t d a
  arr_priv : ∀ c ∈ K.cpus, ∀ t d a, K.InArr c a → ¬ K.priv t d a
  priv_priv : ∀ t d t' d' a, K.priv t d a → K.priv t' d' a → t = t' ∧ d = d'

/-- Memory contains the items `l` in the buffer of CPU `c`, the oldest first. -/
def BufLayout.Holds (K : BufLayout n) (m : Mem n) (c : BitVec 32) (l : List (List Byte)) : Prop :=
  ldw K.be m (K.offset c) = num l.length ∧ l.length ≤ K.cap c ∧
  ∀ i x, l[i]? = some x → bytes m (K.slot c i) K.isz = x

/-- The abstract state: the items in the buffer of each CPU, the oldest first; per thread and signal depth the
item passed to the call in progress, the item popped last, and the CPU and offset read last
(`RSEQ_READ_ONCE(buffer->c[cpu].offset)`); how often each item was pushed and popped. -/
structure Bufs (n : Nat) where
  buf : BitVec 32 → List (List Byte)
  arg : Nat → Nat → List Byte
  got : Nat → Nat → Option (List Byte)
  rd : Nat → Nat → Option (BitVec 32 × W n)
  pushed : List Byte → Nat
  popped : List Byte → Nat

def Bufs.push (G : Bufs n) (c : BitVec 32) (x : List Byte) : Bufs n :=
  { G with
    buf := fun c' => if c' = c then G.buf c ++ [x] else G.buf c'
    pushed := fun y => if y = x then G.pushed y + 1 else G.pushed y }

def Bufs.pop (G : Bufs n) (c : BitVec 32) (t d : Nat) : Bufs n :=
  match (G.buf c).getLast? with
  | none => G
  | some x =>
    { G with
      buf := fun c' => if c' = c then (G.buf c).dropLast else G.buf c'
      got := fun t' d' => if t' = t ∧ d' = d then some x else G.got t' d'
      popped := fun y => if y = x then G.popped y + 1 else G.popped y }

def Bufs.read (G : Bufs n) (t d : Nat) (c : BitVec 32) (w : W n) : Bufs n :=
  { G with rd := fun t' d' => if t' = t ∧ d' = d then some (c, w) else G.rd t' d' }

def Bufs.start (G : Bufs n) (t d : Nat) (x : List Byte) : Bufs n :=
  { G with arg := fun t' d' => if t' = t ∧ d' = d then x else G.arg t' d' }

/-- The item a push is asked to push: the pointer, or the bytes to copy as they are at the call. -/
def itemOf (K : BufLayout n) (m : Mem n) (f : Frame n) : List Byte :=
  match f.op with
  | .cbneStoreStore _ _ _ x _ => wordItem K.be x
  | .cbneMemcpyStore _ _ _ src _ _ => bytes m src K.isz
  | _ => []

/-- The abstract operation of a call: the copying functions differ in whether they increment the offset. -/
def bufOp (G : Bufs n) (t d : Nat) (f : Frame n) : Bufs n :=
  match f.op with
  | .cbneStoreStore .. => G.push f.cpu (G.arg t d)
  | .cbneCbneStore .. => G.pop f.cpu t d
  | .cbneMemcpyStore _ e _ _ _ w => if w = e + 1#_ then G.push f.cpu (G.arg t d) else G.pop f.cpu t d
  | _ => G

/-- The abstract effect of a step: the call records its item; the final store pushes that item or pops. -/
def bufStep (K : BufLayout n) (T : Nat → Site n) (s : State n) (G : Bufs n) (t : Nat) (lab : Lab n) : Bufs n :=
  match lab with
  | .invoke f => G.start t (s.th t).saved.length (itemOf K s.mem f)
  | lab =>
    match committing T s t lab with
    | none => G
    | some f => bufOp G t (s.th t).saved.length f

/-- The calls of the four functions, after reading offset `w` of the CPU they name:
push (lines 901-912) if `w ≠ buflen`; pop (lines 936-950) if `w ≠ 0`, with whatever was read from
`array[w - 1]`; push by copying (lines 1133-1152) from a local; pop by copying (lines 1176-1194) to a local. -/
def BufCall (K : BufLayout n) (G : Bufs n) (t d : Nat) (f : Frame n) : Prop :=
  f.fld = K.fld ∧ ∃ w, G.rd t d = some (f.cpu, w) ∧
  ((K.isz = n ∧ w ≠ num (K.cap f.cpu) ∧
      ∃ x, f.op = .cbneStoreStore (K.offset f.cpu) w (K.array f.cpu + w * num K.isz) x (w + 1#_)) ∨
   (K.isz = n ∧ w ≠ 0#_ ∧
      ∃ x, f.op = .cbneCbneStore (K.offset f.cpu) w (K.array f.cpu + (w - 1#_) * num K.isz) x (w - 1#_)) ∨
   (w ≠ num (K.cap f.cpu) ∧
      ∃ src, f.op = .cbneMemcpyStore (K.offset f.cpu) w (K.array f.cpu + w * num K.isz) src (num K.isz)
        (w + 1#_) ∧ ∀ a, InRange src (num K.isz) a → K.priv t d a) ∨
   (w ≠ 0#_ ∧
      ∃ dst, f.op = .cbneMemcpyStore (K.offset f.cpu) w dst (K.array f.cpu + (w - 1#_) * num K.isz) (num K.isz)
        (w - 1#_) ∧ ∀ a, InRange dst (num K.isz) a → K.priv t d a))

/-- Executions of any number of threads and signal handlers that use the buffers in this way.  Other code may
store anywhere but to the buffers and to local variables of others. -/
inductive BReach (T : Nat → Site n) (K : BufLayout n) (m0 : Mem n) (G0 : Bufs n) : State n → Bufs n → Prop
  | init : BReach T K m0 G0 { mem := m0, th := fun _ => thread0 } G0
  | step {s s' : State n} {G : Bufs n} {t : Nat} {lab : Lab n} (h : BReach T K m0 G0 s G)
      (hs : Step T s t lab s')
      (hi : ∀ f, lab = .invoke f → BufCall K G t (s.th t).saved.length f)
      (hu : lab = .user → ∀ a, s'.mem a ≠ s.mem a →
        (∀ c ∈ K.cpus, ¬ InWord (K.offset c) a ∧ ¬ K.InArr c a) ∧
        (∀ t' d', K.priv t' d' a → t' = t ∧ d' = (s.th t).saved.length)) :
      BReach T K m0 G0 s' (bufStep K T s G t lab)
  | read {s : State n} {G : Bufs n} {t : Nat} {c : BitVec 32} (h : BReach T K m0 G0 s G)
      (hr : (s.th t).run = true) (ht : (s.th t).top = none) (hc : c ∈ K.cpus) :
      BReach T K m0 G0 s (G.read t (s.th t).saved.length c (ldw K.be s.mem (K.offset c)))

/-- The initial memory and abstract state agree; nobody has read an offset, nothing is counted. -/
structure BufInit (K : BufLayout n) (m0 : Mem n) (G0 : Bufs n) : Prop where
  holds : ∀ c ∈ K.cpus, K.Holds m0 c (G0.buf c)
  rd : ∀ t d, G0.rd t d = none
  pushed : ∀ y, G0.pushed y = 0
  popped : ∀ y, G0.popped y = 0

end Verif.Rseq
