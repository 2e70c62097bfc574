import Verif.RseqInject
/-
Where the instructions of the old program and of the inserted loops are in the new program.
-/

namespace Verif.Rseq

variable {n : Nat}

/-! ### Positions -/

theorem newAt_succ (w : Nat → Nat) (i : Nat) : newAt w (i + 1) = newAt w i + w i + 1 := rfl

theorem newAt_mono (w : Nat → Nat) {i j : Nat} (h : i ≤ j) : newAt w i ≤ newAt w j := by
  induction h with
  | refl => exact Nat.le_refl _
  | step _ ih => rw [newAt_succ]; omega

theorem newAt_lt (w : Nat → Nat) {i j : Nat} (h : i < j) : newAt w i + w i < newAt w j := by
  have := newAt_mono w (show i + 1 ≤ j from h)
  rw [newAt_succ] at this
  omega

/-- Every position belongs to exactly one old instruction. -/
theorem newAt_decode (w : Nat → Nat) : ∀ (m j : Nat), j < newAt w m →
    ∃ i k, i < m ∧ k ≤ w i ∧ j = newAt w i + k := by
  intro m
  induction m with
  | zero => intro j h; simp [newAt] at h
  | succ m ih =>
    intro j h
    by_cases hj : j < newAt w m
    · obtain ⟨i, k, h1, h2, h3⟩ := ih j hj
      exact ⟨i, k, by omega, h2, h3⟩
    · rw [newAt_succ] at h
      exact ⟨m, j - newAt w m, by omega, by omega, by omega⟩

theorem newAt_inj (w : Nat → Nat) {i i' k k' : Nat} (h1 : k ≤ w i) (h2 : k' ≤ w i')
    (h : newAt w i + k = newAt w i' + k') : i = i' ∧ k = k' := by
  rcases Nat.lt_trichotomy i i' with hl | hl | hl
  · have := newAt_lt w hl; omega
  · subst hl; omega
  · have := newAt_lt w hl; omega

/-- A position of instruction `i` is before the label of `j` exactly if `i < j`. -/
theorem newAt_lt_iff (w : Nat → Nat) {i j k : Nat} (hk : k ≤ w i) : newAt w i + k < newAt w j ↔ i < j := by
  constructor
  · intro h
    rcases Nat.lt_or_ge i j with h1 | h1
    · exact h1
    · have := newAt_mono w h1; omega
  · intro h; have := newAt_lt w h; omega

/-! ### Code -/

theorem Inj.loop_length (J : Inj) (b num : Nat) : (J.loop b num).length = J.len := by
  unfold Inj.loop Inj.len; split <;> rfl

theorem Inj.len_pos (J : Inj) : 0 < J.len := by unfold Inj.len; split <;> omega

theorem Inj.loops_length (J : Inj) : ∀ (ns : List Nat) (b : Nat), (J.loops b ns).length = J.len * ns.length := by
  intro ns
  induction ns with
  | nil => intro b; rfl
  | cons a r ih =>
    intro b
    rw [Inj.loops, List.length_append, J.loop_length, ih, List.length_cons, Nat.mul_succ, Nat.add_comm]

/-- Position `k` of consecutive loops is position `o` of one loop. -/
theorem Inj.loops_get (J : Inj) : ∀ (ns : List Nat) (b k : Nat), k < J.len * ns.length →
    ∃ c o num, (J.loops b ns)[k]? = (J.loop (b + c) num)[o]? ∧ o < J.len ∧ k = c + o ∧
      c + J.len ≤ J.len * ns.length := by
  intro ns
  induction ns with
  | nil => intro b k h; simp at h
  | cons a r ih =>
    intro b k h
    rw [List.length_cons, Nat.mul_succ] at h ⊢
    rw [Inj.loops]
    by_cases hk : k < J.len
    · refine ⟨0, k, a, ?_, hk, by omega, by omega⟩
      rw [List.getElem?_append_left (by rw [J.loop_length]; exact hk)]; rfl
    · obtain ⟨c, o, num, h1, h2, h3, h4⟩ := ih (b + J.len) (k - J.len) (by omega)
      refine ⟨J.len + c, o, num, ?_, h2, by omega, by omega⟩
      rw [List.getElem?_append_right (by rw [J.loop_length]; omega), J.loop_length, h1, ← Nat.add_assoc]

theorem Inj.code_length (J : Inj) (ps : List (Nat × Nat)) : ∀ (c : List Instr) (s : Nat),
    newAt (J.w ps) s + (J.code ps s c).length = newAt (J.w ps) (s + c.length) := by
  intro c
  induction c with
  | nil => intro s; rfl
  | cons a r ih =>
    intro s
    have := ih (s + 1)
    rw [newAt_succ] at this
    rw [Inj.code, List.length_append, List.length_cons, J.loops_length, List.length_cons,
      show s + (r.length + 1) = s + 1 + r.length by omega, ← this]
    unfold Inj.w
    omega

/-- An instruction of the old program. -/
theorem Inj.code_old (J : Inj) (ps : List (Nat × Nat)) : ∀ (c : List Instr) (s i : Nat) (ins : Instr),
    c[i]? = some ins →
    (J.code ps s c)[newAt (J.w ps) (s + i) - newAt (J.w ps) s + J.w ps (s + i)]? =
      some (ins.move (newAt (J.w ps))) := by
  intro c
  induction c with
  | nil => intro s i ins h; simp at h
  | cons a r ih =>
    intro s i ins h
    rw [Inj.code]
    cases i with
    | zero =>
      simp only [List.getElem?_cons_zero, Option.some.injEq] at h
      subst h
      simp only [Nat.add_zero, Nat.sub_self, Nat.zero_add]
      rw [List.getElem?_append_right (by rw [J.loops_length]; exact Nat.le_refl _), J.loops_length]
      simp [Inj.w]
    | succ i =>
      have hn := newAt_succ (J.w ps) s
      have hm := newAt_mono (J.w ps) (show s + 1 ≤ s + 1 + i by omega)
      have := ih (s + 1) i ins (by simpa using h)
      rw [show s + (i + 1) = s + 1 + i by omega]
      have hl : (J.loops (newAt (J.w ps) s) (ptsAt ps s)).length = J.w ps s := J.loops_length _ _
      rw [List.getElem?_append_right (by omega), hl]
      rw [show newAt (J.w ps) (s + 1 + i) - newAt (J.w ps) s + J.w ps (s + 1 + i) - J.w ps s =
        newAt (J.w ps) (s + 1 + i) - newAt (J.w ps) (s + 1) + J.w ps (s + 1 + i) + 1 by omega]
      rw [List.getElem?_cons_succ]; exact this

/-- An instruction of a loop. -/
theorem Inj.code_loop (J : Inj) (ps : List (Nat × Nat)) : ∀ (c : List Instr) (s i k : Nat), i < c.length →
    k < J.w ps (s + i) →
    (J.code ps s c)[newAt (J.w ps) (s + i) - newAt (J.w ps) s + k]? =
      (J.loops (newAt (J.w ps) (s + i)) (ptsAt ps (s + i)))[k]? := by
  intro c
  induction c with
  | nil => intro s i k h; simp at h
  | cons a r ih =>
    intro s i k hi hk
    rw [Inj.code]
    have hl : (J.loops (newAt (J.w ps) s) (ptsAt ps s)).length = J.w ps s := J.loops_length _ _
    cases i with
    | zero =>
      simp only [Nat.add_zero, Nat.sub_self, Nat.zero_add] at hk ⊢
      rw [List.getElem?_append_left (by omega)]
    | succ i =>
      have hn := newAt_succ (J.w ps) s
      have hm := newAt_mono (J.w ps) (show s + 1 ≤ s + 1 + i by omega)
      rw [show s + (i + 1) = s + 1 + i by omega] at hk ⊢
      have := ih (s + 1) i k (by simpa using hi) hk
      rw [List.getElem?_append_right (by omega), hl]
      rw [show newAt (J.w ps) (s + 1 + i) - newAt (J.w ps) s + k - J.w ps s =
        newAt (J.w ps) (s + 1 + i) - newAt (J.w ps) (s + 1) + k + 1 by omega]
      rw [List.getElem?_cons_succ]; exact this

variable (J : Inj) (ps : List (Nat × Nat)) (P : Prog n)

theorem Inj.prog_length : (J.prog ps P).code.length = newAt (J.w ps) P.code.length := by
  have := J.code_length ps P.code 0
  simpa [newAt, Inj.prog] using this

theorem Inj.prog_old {i : Nat} {ins : Instr} (h : P.code[i]? = some ins) :
    (J.prog ps P).code[newAt (J.w ps) i + J.w ps i]? = some (ins.move (newAt (J.w ps))) := by
  have := J.code_old ps P.code 0 i ins h
  simpa [newAt, Inj.prog] using this

/-- What one instruction of a loop at positions `[a, a + J.w ps i]` does: it changes the scratch register
and the condition codes only, and stays there. -/
structure LoopIns (J : Inj) (lo hi : Nat) (ins : Instr) (j : Nat) : Prop where
  mem : memFree ins = true
  cpu : cpuFree ins = true
  cs : isCs ins = false
  exec : ∀ {n : Nat} (Q : Prog n) (fv : BitVec 32) (l : LSt n) (m : Mem n),
    (Rseq.exec Q fv j ins l m).2 = m ∧ (Rseq.exec Q fv j ins l m).1.slots = l.slots ∧
    (∀ x, x ≠ J.reg → (Rseq.exec Q fv j ins l m).1.regs x = l.regs x) ∧
    (J.flags = false → (Rseq.exec Q fv j ins l m).1.zf = l.zf) ∧
    ∃ j', lo ≤ j' ∧ j' ≤ hi ∧ (Rseq.exec Q fv j ins l m).1.pc = .at j'

theorem Inj.loop_ins (J : Inj) {b num o : Nat} {ins : Instr} (h : (J.loop b num)[o]? = some ins) :
    LoopIns J b (b + J.len) ins (b + o) := by
  unfold Inj.loop at h
  unfold Inj.len
  cases hf : J.flags <;> rw [hf] at h
  · rw [if_neg (by simp)] at h ⊢
    rcases o with _ | _ | _ | _ | o <;> simp only [List.getElem?_cons_zero, List.getElem?_cons_succ,
      List.getElem?_nil, Option.some.injEq, reduceCtorEq, Nat.zero_add] at h <;> subst h <;>
      refine ⟨rfl, rfl, rfl, fun Q fv l m => ⟨rfl, rfl, fun x hx => ?_, fun _ => rfl, ?_⟩⟩
    · simp [Rseq.exec, LSt.setR, upd, hx]
    · exact ⟨b + 1, by omega, by omega, rfl⟩
    · rfl
    · simp only [Rseq.exec, LSt.br]; split
      · exact ⟨b + 4, by omega, by omega, rfl⟩
      · exact ⟨b + 2, by omega, by omega, rfl⟩
    · simp [Rseq.exec, LSt.setR, upd, hx]
    · exact ⟨b + 3, by omega, by omega, rfl⟩
    · rfl
    · simp only [Rseq.exec, LSt.br]; split
      · exact ⟨b + 2, by omega, by omega, rfl⟩
      · exact ⟨b + 4, by omega, by omega, rfl⟩
  · rw [if_pos rfl] at h ⊢
    rcases o with _ | _ | _ | _ | _ | o <;> simp only [List.getElem?_cons_zero, List.getElem?_cons_succ,
      List.getElem?_nil, Option.some.injEq, reduceCtorEq, Nat.zero_add] at h <;> subst h <;>
      refine ⟨rfl, rfl, rfl, fun Q fv l m => ⟨rfl, rfl, fun x hx => ?_, fun hh => (by rw [hf] at hh; cases hh), ?_⟩⟩
    · simp [Rseq.exec, LSt.setR, upd, hx]
    · exact ⟨b + 1, by omega, by omega, rfl⟩
    · rfl
    · exact ⟨b + 2, by omega, by omega, rfl⟩
    · rfl
    · simp only [Rseq.exec, LSt.br]; split
      · exact ⟨b + 5, by omega, by omega, rfl⟩
      · exact ⟨b + 3, by omega, by omega, rfl⟩
    · simp [Rseq.exec, upd, hx]
    · exact ⟨b + 4, by omega, by omega, rfl⟩
    · rfl
    · simp only [Rseq.exec, LSt.br]; split
      · exact ⟨b + 3, by omega, by omega, rfl⟩
      · exact ⟨b + 5, by omega, by omega, rfl⟩

theorem LoopIns.mono {J : Inj} {lo hi lo' hi' : Nat} {ins : Instr} {j : Nat} (h : LoopIns J lo hi ins j)
    (h1 : lo' ≤ lo) (h2 : hi ≤ hi') : LoopIns J lo' hi' ins j := by
  refine ⟨h.mem, h.cpu, h.cs, fun Q fv l m => ?_⟩
  obtain ⟨a, b, c, z, j', d, e, f⟩ := h.exec Q fv l m
  exact ⟨a, b, c, z, j', by omega, by omega, f⟩

/-- An instruction of the loops in front of old instruction `i`. -/
theorem Inj.prog_loop {i k : Nat} (hi : i < P.code.length) (hk : k < J.w ps i) :
    ∃ ins, (J.prog ps P).code[newAt (J.w ps) i + k]? = some ins ∧
      LoopIns J (newAt (J.w ps) i) (newAt (J.w ps) i + J.w ps i) ins (newAt (J.w ps) i + k) := by
  have h0 := J.code_loop ps P.code 0 i k hi (by rw [Nat.zero_add]; exact hk)
  rw [Nat.zero_add, show newAt (J.w ps) 0 = 0 from rfl, Nat.sub_zero] at h0
  obtain ⟨c, o, num, h1, h2, h3, h4⟩ := J.loops_get (ptsAt ps i) (newAt (J.w ps) i) k hk
  have hlt : o < (J.loop (newAt (J.w ps) i + c) num).length := by rw [J.loop_length]; exact h2
  have hg := List.getElem?_eq_getElem hlt
  refine ⟨_, h0.trans (h1.trans hg), ?_⟩
  have := (J.loop_ins hg).mono (lo' := newAt (J.w ps) i) (hi' := newAt (J.w ps) i + J.w ps i)
    (by omega) (by show _ ≤ _ + J.len * _; omega)
  rw [h3, ← Nat.add_assoc]
  exact this

/-- Zones are where they were. -/
theorem Inj.zone_at {i k : Nat} (hk : k ≤ J.w ps i) :
    zone (J.prog ps P) (.at (newAt (J.w ps) i + k)) = zone P (.at i) := by
  have hl := J.prog_length ps P
  have h1 : ∀ j, (newAt (J.w ps) i + k < newAt (J.w ps) j) = (i < j) :=
    fun j => propext (newAt_lt_iff (J.w ps) hk)
  have hs : (J.prog ps P).start = newAt (J.w ps) P.start := rfl
  have hc : (J.prog ps P).chk = newAt (J.w ps) P.chk := rfl
  have hm : (J.prog ps P).commit = newAt (J.w ps) P.commit := rfl
  have ha : (J.prog ps P).abort = newAt (J.w ps) P.abort := rfl
  have he : (J.prog ps P).ne = newAt (J.w ps) P.ne := rfl
  simp only [zone, hl, hs, hc, hm, ha, he, h1]

end Verif.Rseq
