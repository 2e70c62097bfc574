import Verif.RseqBufInv
import Batteries.Data.List.Perm
/-
C63: per-CPU bounded buffers are bounded stacks.
-/

namespace Verif.Rseq

variable {n : Nat} {T : Nat → Site n} {K : BufLayout n} {m0 : Mem n} {G0 : Bufs n}

/-- **C63: the buffers contain the abstract stacks.**  In every state, also in the middle of pushes and pops and
after any number of interrupted ones, the offset of each CPU is the number of items of its stack, which is at
most the capacity, and the array elements below the offset contain the items, the oldest first. -/
theorem buffers_are_stacks (hn : 4 ≤ n) (hbe : ∀ p, (T p).prog.be = K.be) (hK : K.OK) (h0 : BufInit K m0 G0)
    {s : State n} {G : Bufs n} (h : BReach T K m0 G0 s G) {c : BitVec 32} (hc : c ∈ K.cpus) :
    (ldw K.be s.mem (K.offset c)).toNat = (G.buf c).length ∧ (G.buf c).length ≤ K.cap c ∧
    ∀ i x, (G.buf c)[i]? = some x → bytes s.mem (K.slot c i) K.isz = x := by
  obtain ⟨h1, h2, h3⟩ := (h.inv hn hbe hK h0).holds c hc
  refine ⟨?_, h2, h3⟩
  rw [h1, BitVec.toNat_ofNat, Nat.mod_eq_of_lt (Nat.lt_of_le_of_lt h2 (hK.cap_lt hc))]

/-- **C63: what the final store of a call does.**  A push finds room on the CPU it names, and puts on top the
pointer it was given, or the bytes that its source variable contained at the call.  A pop finds the stack of
the CPU not empty and removes the top: the pointer that the caller had read, or the bytes that its destination
variable contains after the store.  No other step changes the stacks (`bufStep`), and the offset may have
changed and changed back since the caller read it. -/
theorem buffer_final_store (hn : 4 ≤ n) (hbe : ∀ p, (T p).prog.be = K.be) (hK : K.OK) (h0 : BufInit K m0 G0)
    {s s' : State n} {G : Bufs n} (h : BReach T K m0 G0 s G) {t : Nat} (hs : Step T s t .exec s') {f : Frame n}
    (hc : committing T s t .exec = some f) :
    f.cpu ∈ K.cpus ∧ f.commits = 0 ∧
    (((G.buf f.cpu).length < K.cap f.cpu ∧
        (bufStep K T s G t .exec).buf f.cpu = G.buf f.cpu ++ [G.arg t (s.th t).saved.length] ∧
        ((∃ v e v2 x w, f.op = .cbneStoreStore v e v2 x w ∧ G.arg t (s.th t).saved.length = wordItem K.be x) ∨
         (∃ v e dst src len w, f.op = .cbneMemcpyStore v e dst src len w ∧ w = e + 1#_ ∧
            G.arg t (s.th t).saved.length = bytes s.mem src K.isz))) ∨
     (∃ y, G.buf f.cpu = (bufStep K T s G t .exec).buf f.cpu ++ [y] ∧
        ((∃ v e v2 x w, f.op = .cbneCbneStore v e v2 x w ∧ y = wordItem K.be x) ∨
         (∃ v e dst src len w, f.op = .cbneMemcpyStore v e dst src len w ∧ e = w + 1#_ ∧
            bytes s'.mem dst K.isz = y)))) ∧
    ∀ c, c ≠ f.cpu → (bufStep K T s G t .exec).buf c = G.buf c := by
  have hI := h.inv hn hbe hK h0
  obtain ⟨-, hc0⟩ := commit_pseudo hn ((hI.reach.reach hn).inv hn) hs hc
  obtain ⟨-, ht, -⟩ := committing_some hc
  obtain ⟨-, f2, k0, hk0, hfr⟩ := hI.frames t _ f (by rw [frameAt_top rfl]; exact ht)
  have heff := buf_effect hn hbe hK hI hs hc
  generalize bufStep K T s G t .exec = G' at heff ⊢
  have e1 : ∀ k, (num (k + 1) : W n) = num k + 1#_ := fun k => BitVec.ofNat_add k 1
  cases heff with
  | push k hl hk hop ho hb =>
    refine ⟨f2, hc0, .inl ⟨by omega, by simp [Bufs.push], ?_⟩, fun c hne => by simp [Bufs.push, hne]⟩
    rcases hop with ⟨x, q, hx⟩ | ⟨src, q⟩
    · exact .inl ⟨_, _, _, _, _, q.2, hx⟩
    · refine .inr ⟨_, _, _, _, _, _, q.1, e1 k, ?_⟩
      rcases hfr with ⟨x, q', -⟩ | ⟨x, q', -⟩ | ⟨x, q', hx⟩ | ⟨x, q', -⟩
      · have := q.1; rw [q'.2] at this; simp at this
      · have := q.1; rw [q'.2] at this; simp at this
      · have := q.1; rw [q'.1] at this
        injection this with _ _ _ hsrc
        rw [hx hc0, hsrc]
      · exact (popM_ne hK f2 hk q q').elim
  | pop k l y hl hk hop ho =>
    rw [pop_eq hl]
    refine ⟨f2, hc0, .inr ⟨y, by simp [hl], ?_⟩, fun c hne => by simp [hne]⟩
    rcases hop with ⟨x, q, hx⟩ | ⟨dst, q, hx⟩
    · exact .inl ⟨_, _, _, _, _, q.2, hx⟩
    · exact .inr ⟨_, _, _, _, _, _, q.1, e1 k, hx⟩

/-- **C63: what a call that returns has done.**  A call about to return 0 has executed exactly one final store,
any other none.  A pop about to return 0 hands out the item that its final store took: the pointer that
the caller read is that item; the destination variable contains it.  A call about to return 1 found a
different offset, or a different top pointer. -/
theorem buffer_returns (hn : 4 ≤ n) (hbe : ∀ p, (T p).prog.be = K.be) (hK : K.OK) (h0 : BufInit K m0 G0)
    {s : State n} {G : Bufs n} (h : BReach T K m0 G0 s G) {t d : Nat} {f : Frame n} {r : Int}
    (hf : frameAt (s.th t) d = some f) (hr : f.l.pc = .ret r) :
    f.commits = (if r = 0 then 1 else 0) ∧
    (∀ v e v2 x w, f.op = .cbneCbneStore v e v2 x w → r = 0 → G.got t d = some (wordItem K.be x)) ∧
    (∀ v e dst src len w, f.op = .cbneMemcpyStore v e dst src len w → e = w + 1#_ → r = 0 →
      G.got t d = some (bytes s.mem dst K.isz)) ∧
    (∀ v e v2 x w, f.op = .cbneStoreStore v e v2 x w → r = 1 → ldw K.be f.last v ≠ e) ∧
    (∀ v e v2 x w, f.op = .cbneCbneStore v e v2 x w → r = 1 → ldw K.be f.last v ≠ e ∨ ldw K.be f.last v2 ≠ x) ∧
    (∀ v e dst src len w, f.op = .cbneMemcpyStore v e dst src len w → r = 1 → ldw K.be f.last v ≠ e) := by
  have hI := h.inv hn hbe hK h0
  have hV := (hI.reach.reach hn).inv hn
  have hfi : ∃ b, FInv T s.mem (s.th t) b f := by
    rcases frameAt_any hf with h | h
    · exact ⟨_, (hV.th t).top f h⟩
    · exact ⟨_, (hV.th t).saved f h⟩
  obtain ⟨b, hfi⟩ := hfi
  have hz : zone (T f.pid).prog f.l.pc = .done r := by rw [hr]; rfl
  obtain ⟨-, f2, k, hk, hop⟩ := hI.frames t d f hf
  have hcm : f.commits = if r = 0 then 1 else 0 := by
    rcases hfi.done r hz with e | e | e
    · subst e; exact (hfi.post (.inr hz)).2
    · subst e; exact (hfi.neq (.inr hz)).2.1
    · subst e; exact hfi.abt (.inr hz)
  have hone : r = 1 → pseudo K.be f.op f.last = (1, f.last) := by
    rintro rfl
    have := (hfi.neq (.inr hz)).2.2
    rwa [hbe] at this
  have hcap := hK.cap_lt f2
  refine ⟨hcm, ?_, ?_, ?_, ?_, ?_⟩
  · intro v e v2 x w ho hr0
    rw [if_pos hr0] at hcm
    rcases hop with ⟨x', q, hx⟩ | ⟨x', q, hx⟩ | ⟨x', q, hx⟩ | ⟨x', q, hx⟩
    · have := q.2; rw [ho] at this; simp at this
    · have := q.2; rw [ho] at this
      injection this with _ _ _ e4 _
      rw [e4]; exact hx (by omega)
    · have := q.1; rw [ho] at this; simp at this
    · have := q.1; rw [ho] at this; simp at this
  · intro v e dst src len w ho hew hr0
    rw [if_pos hr0] at hcm
    rcases hop with ⟨x', q, hx⟩ | ⟨x', q, hx⟩ | ⟨x', q, hx⟩ | ⟨x', q, hx⟩
    · have := q.2; rw [ho] at this; simp at this
    · have := q.2; rw [ho] at this; simp at this
    · have := q.1; rw [ho] at this
      injection this with _ e2 _ _ _ e6
      rw [e2, e6] at hew
      exact absurd hew (num_ne_two hn (by omega))
    · have := q.1; rw [ho] at this
      injection this with _ _ e3 _ _ _
      rw [e3]; exact hx (by omega)
  · intro v e v2 x w ho hr1 heq
    have := hone hr1
    rw [ho] at this
    simp only [pseudo] at this
    rw [if_neg (by simp [heq])] at this
    simp at this
  · intro v e v2 x w ho hr1
    have := hone hr1
    rw [ho] at this
    simp only [pseudo] at this
    apply Classical.byContradiction
    intro hno
    have h1 : ldw K.be f.last v = e := Classical.byContradiction fun h => hno (.inl h)
    have h2 : ldw K.be f.last v2 = x := Classical.byContradiction fun h => hno (.inr h)
    rw [if_neg (by simp [h1]), if_neg (by simp [h2])] at this
    simp at this
  · intro v e dst src len w ho hr1 heq
    have := hone hr1
    rw [ho] at this
    simp only [pseudo] at this
    rw [if_neg (by simp [heq])] at this
    simp at this

/-- **C63: interrupted attempts are invisible.**  A helper changes no byte of any array except in the element just
above the items of the CPU it was called for, and no offset except by its final store. -/
theorem buffer_attempts_above (hn : 4 ≤ n) (hbe : ∀ p, (T p).prog.be = K.be) (hK : K.OK) (h0 : BufInit K m0 G0)
    {s s' : State n} {G : Bufs n} (h : BReach T K m0 G0 s G) {t : Nat} (hs : Step T s t .exec s') {a : W n}
    (ha : s'.mem a ≠ s.mem a) : ∃ f, (s.th t).top = some f ∧
      (∀ c ∈ K.cpus, K.InArr c a → c = f.cpu ∧ (G.buf c).length < K.cap c ∧
        (a - K.slot c (G.buf c).length).toNat < K.isz) ∧
      (∀ c ∈ K.cpus, InWord (K.offset c) a → c = f.cpu ∧ committing T s t .exec = some f) := by
  have hI := h.inv hn hbe hK h0
  rcases buf_changes hn hbe hK hI hs a ha with hl | ⟨f, hf, -, -, hw⟩
  · simp at hl
  obtain ⟨-, f2, -⟩ := hI.frames t _ f (by rw [frameAt_top rfl]; exact hf)
  refine ⟨f, hf, fun c hc hin => ?_, fun c hc hin => ?_⟩
  · rcases hw with ⟨hw, -⟩ | ⟨h1, h2⟩ | ⟨hw, -⟩
    · exact absurd hin (hK.off_arr _ f2 c hc a hw)
    · have := hK.arr_arr _ hc _ f2 a hin (hK.slot_arr f2 h1 h2)
      subst this
      exact ⟨rfl, h1, h2⟩
    · exact absurd hw (hK.arr_priv c hc _ _ a hin)
  · rcases hw with ⟨hw, hcm⟩ | ⟨h1, h2⟩ | ⟨hw, -⟩
    · exact ⟨hK.off_off _ hc _ f2 a hin hw, hcm⟩
    · exact absurd (hK.slot_arr f2 h1 h2) (hK.off_arr c hc _ f2 a hin)
    · exact absurd hw (hK.off_priv c hc _ _ a hin)

/-- Counting over all CPUs, when one list changes. -/
theorem count_upd {cpus : List (BitVec 32)} (hnd : cpus.Nodup) {c : BitVec 32} (hc : c ∈ cpus)
    (g g' : BitVec 32 → List (List Byte)) (hg : ∀ c', c' ≠ c → g' c' = g c') (y : List Byte) :
    (cpus.flatMap g').count y + (g c).count y = (cpus.flatMap g).count y + (g' c).count y := by
  have hout : ∀ l : List (BitVec 32), c ∉ l → l.flatMap g' = l.flatMap g := by
    intro l
    induction l with
    | nil => intro _; rfl
    | cons a r ih =>
      intro h
      rw [List.flatMap_cons, List.flatMap_cons, ih fun h' => h (List.mem_cons_of_mem _ h'),
        hg a fun e => h (e ▸ by simp)]
  induction cpus with
  | nil => simp at hc
  | cons a r ih =>
    rw [List.flatMap_cons, List.flatMap_cons, List.count_append, List.count_append]
    obtain ⟨h1, h2⟩ := List.nodup_cons.1 hnd
    by_cases e : a = c
    · subst e
      rw [hout r h1]; omega
    · have := ih h2 ((List.mem_cons.1 hc).resolve_left fun e' => e e'.symm)
      rw [hg a e]; omega

/-- **C63: nothing is lost or duplicated.**  For every item: how often it is in the buffers of all CPUs, plus
how often it was popped, is how often it was there at the start plus how often it was pushed. -/
theorem buffer_conservation (hn : 4 ≤ n) (hbe : ∀ p, (T p).prog.be = K.be) (hK : K.OK) (h0 : BufInit K m0 G0)
    (hnd : K.cpus.Nodup) {s : State n} {G : Bufs n} (h : BReach T K m0 G0 s G) (y : List Byte) :
    (K.cpus.flatMap G.buf).count y + G.popped y = (K.cpus.flatMap G0.buf).count y + G.pushed y := by
  induction h with
  | init => rw [h0.pushed, h0.popped]
  | @step s s' G t lab h hs hi hu ih =>
    cases hc : committing T s t lab with
    | none =>
      have : (bufStep K T s G t lab).buf = G.buf ∧ (bufStep K T s G t lab).popped = G.popped ∧
          (bufStep K T s G t lab).pushed = G.pushed := by
        unfold bufStep
        split
        · exact ⟨rfl, rfl, rfl⟩
        · rw [hc]; exact ⟨rfl, rfl, rfl⟩
      rw [this.1, this.2.1, this.2.2]; exact ih
    | some f =>
      obtain ⟨hl, ht, -⟩ := committing_some hc
      subst hl
      have hI := h.inv hn hbe hK h0
      obtain ⟨-, f2, -⟩ := hI.frames t _ f (by rw [frameAt_top rfl]; exact ht)
      have heff := buf_effect hn hbe hK hI hs hc
      generalize bufStep K T s G t .exec = G' at heff ⊢
      cases heff with
      | push k hl hk hop ho hb =>
        have := count_upd hnd f2 G.buf (G.push f.cpu (G.arg t (s.th t).saved.length)).buf
          (fun c' hne => by simp [Bufs.push, hne]) y
        have hnew : (G.push f.cpu (G.arg t (s.th t).saved.length)).buf f.cpu =
            G.buf f.cpu ++ [G.arg t (s.th t).saved.length] := by simp [Bufs.push]
        rw [hnew, List.count_append, List.count_singleton] at this
        have hp : (G.push f.cpu (G.arg t (s.th t).saved.length)).pushed y =
            if y = G.arg t (s.th t).saved.length then G.pushed y + 1 else G.pushed y := rfl
        have hq : (G.push f.cpu (G.arg t (s.th t).saved.length)).popped y = G.popped y := rfl
        rw [hp, hq]
        by_cases e : y = G.arg t (s.th t).saved.length
        · rw [if_pos e]
          rw [if_pos (by simp [e])] at this
          omega
        · rw [if_neg e]
          rw [if_neg (by simpa using fun h => e h.symm)] at this
          omega
      | pop k l x hl hk hop ho =>
        rw [pop_eq hl]
        have := count_upd hnd f2 G.buf (fun c' => if c' = f.cpu then l else G.buf c')
          (fun c' hne => by simp [hne]) y
        rw [hl, List.count_append, List.count_singleton] at this
        simp only [if_true] at this
        dsimp only
        by_cases e : y = x
        · rw [if_pos e]
          rw [if_pos (by simp [e])] at this
          omega
        · rw [if_neg e]
          rw [if_neg (by simpa using fun h => e h.symm)] at this
          omega
  | @read s G t c h hr ht hc ih => exact ih

/-- **C63, the check at the end of `test_percpu_buffer` and `test_percpu_memcpy_buffer`** (lines 1097-1112,
1338-1353): when everything popped was pushed back, the buffers of all CPUs together contain exactly the items
of the start, so their sums agree. -/
theorem buffer_final_check (hn : 4 ≤ n) (hbe : ∀ p, (T p).prog.be = K.be) (hK : K.OK) (h0 : BufInit K m0 G0)
    (hnd : K.cpus.Nodup) {s : State n} {G : Bufs n} (h : BReach T K m0 G0 s G) (hq : ∀ y, G.pushed y = G.popped y)
    (val : List Byte → Nat) :
    (K.cpus.flatMap G.buf).Perm (K.cpus.flatMap G0.buf) ∧
    ((K.cpus.flatMap G.buf).map val).sum = ((K.cpus.flatMap G0.buf).map val).sum := by
  have hp : (K.cpus.flatMap G.buf).Perm (K.cpus.flatMap G0.buf) := by
    rw [List.perm_iff_count]
    intro y
    have := buffer_conservation hn hbe hK h0 hnd h y
    have := hq y
    omega
  exact ⟨hp, (hp.map val).sum_nat⟩

/-- **C63, "should increase buffer size" is never printed** (lines 996-999, 1240-1243: a push that returns
false makes the test abort): if a buffer can take all items of the start, nothing was pushed more often than
popped, and somebody still has an item that was popped, then no buffer is full. -/
theorem buffer_push_finds_room (hn : 4 ≤ n) (hbe : ∀ p, (T p).prog.be = K.be) (hK : K.OK)
    (h0 : BufInit K m0 G0) (hnd : K.cpus.Nodup) {s : State n} {G : Bufs n} (h : BReach T K m0 G0 s G)
    (hq : ∀ y, G.pushed y ≤ G.popped y) {y : List Byte} (hy : G.pushed y < G.popped y) {c : BitVec 32}
    (hc : c ∈ K.cpus) (hcap : (K.cpus.flatMap G0.buf).length ≤ K.cap c) :
    (G.buf c).length < K.cap c ∧ ldw K.be s.mem (K.offset c) ≠ num (K.cap c) := by
  have hlt : (G.buf c).length < K.cap c := by
    have hsub : (K.cpus.flatMap G.buf).Subperm (K.cpus.flatMap G0.buf) := by
      rw [List.subperm_ext_iff]
      intro x _
      have := buffer_conservation hn hbe hK h0 hnd h x
      have := hq x
      omega
    have hne : (K.cpus.flatMap G.buf).length < (K.cpus.flatMap G0.buf).length := by
      apply Classical.byContradiction
      intro hle
      have hp := hsub.perm_of_length_le (by omega)
      have h1 := List.perm_iff_count.1 hp y
      have := buffer_conservation hn hbe hK h0 hnd h y
      omega
    have hle : ∀ l : List (BitVec 32), c ∈ l → (G.buf c).length ≤ (l.flatMap G.buf).length := by
      intro l
      induction l with
      | nil => intro h; simp at h
      | cons a r ih =>
        intro h
        rw [List.flatMap_cons, List.length_append]
        rcases List.mem_cons.1 h with rfl | h
        · omega
        · have := ih h; omega
    have := hle K.cpus hc
    omega
  refine ⟨hlt, fun he => ?_⟩
  have h1 := (h.inv hn hbe hK h0).holds c hc
  rw [h1.1] at he
  have hcl := hK.cap_lt hc
  have := num_inj (by omega) hcl he
  omega

end Verif.Rseq
