import Verif.RseqBufTest
/-
Invariant of the buffer tests, and the loops that empty the buffers.
-/

namespace Verif.Rseq

variable {n : Nat} {T : Nat → Site n} {K : BufLayout n} {m0 : Mem n} {G0 : Bufs n} {N : Nat}

theorem TestReach.breach {s : State n} {G : Bufs n} {H : Hold} (h : TestReach T K m0 G0 N s G H) :
    BReach T K m0 G0 s G := by
  induction h with
  | init => exact .init
  | step h hs hi hu ih => exact .step ih hs (fun f hf => (hi f hf).1) hu
  | read h hr ht hc ih => exact .read ih hr ht hc

/-! ### Counting the threads that have an item -/

/-- How many of the first `k` threads have item `y`. -/
def holders (H : Hold) (y : List Byte) : Nat → Nat
  | 0 => 0
  | k + 1 => holders H y k + if H k = some y then 1 else 0

theorem holders_out {H : Hold} {t : Nat} {o : Option (List Byte)} {y : List Byte} : ∀ {k : Nat}, k ≤ t →
    holders (upd H t o) y k = holders H y k
  | 0, _ => rfl
  | k + 1, h => by
    unfold holders
    rw [holders_out (by omega), updT_other _ _ (by omega)]

theorem holders_upd {H : Hold} {t : Nat} {o : Option (List Byte)} {y : List Byte} : ∀ {k : Nat}, t < k →
    holders (upd H t o) y k + (if H t = some y then 1 else 0) = holders H y k + (if o = some y then 1 else 0)
  | 0, h => by omega
  | k + 1, h => by
    unfold holders
    by_cases e : t = k
    · subst e
      rw [holders_out (Nat.le_refl _), updT_same]
      omega
    · have := holders_upd (H := H) (t := t) (o := o) (y := y) (k := k) (by omega)
      rw [updT_other _ _ (fun h => e h.symm)]
      omega

theorem holders_none {H : Hold} {y : List Byte} : ∀ {k : Nat}, (∀ t, t < k → H t = none) → holders H y k = 0
  | 0, _ => rfl
  | k + 1, h => by
    unfold holders
    rw [holders_none (fun t ht => h t (by omega)), h k (by omega)]
    simp

theorem holders_pos {H : Hold} {t : Nat} {y : List Byte} (h : H t = some y) : ∀ {k : Nat}, t < k → 0 < holders H y k
  | 0, ht => by omega
  | k + 1, ht => by
    unfold holders
    by_cases e : t = k
    · subst e; rw [if_pos h]; omega
    · have := holders_pos h (k := k) (by omega); omega

/-! ### The invariant -/

/-- A thread in a push that has not reached its final store has the item it pushes; in a pop it has none before and
the popped item after the final store. -/
structure TestInv (T : Nat → Site n) (K : BufLayout n) (N : Nat) (s : State n) (G : Bufs n) (H : Hold) : Prop where
  cnt : ∀ y, G.pushed y + holders H y N = G.popped y
  out : ∀ t, N ≤ t → H t = none
  frames : ∀ t d f, frameAt (s.th t) d = some f → d = 0 ∧ t < N ∧
    (f.commits = 0 → if isPush f then H t = some (G.arg t 0) else H t = none) ∧
    (f.commits ≠ 0 → if isPush f then H t = none else H t = G.got t 0)

/-- Frames after a step that is no final store. -/
theorem quiet_frames {s s' : State n} {t : Nat} {lab : Lab n} (hs : Step T s t lab s')
    (hcom : committing T s t lab = none) (t' d' : Nat) (g : Frame n) (hg : frameAt (s'.th t') d' = some g) :
    (lab = .invoke g ∧ t' = t ∧ d' = (s.th t).saved.length) ∨
    ∃ f, frameAt (s.th t') d' = some f ∧ g.op = f.op ∧ g.commits = f.commits ∧
      ∀ f', lab = .invoke f' → ¬ (t' = t ∧ d' = (s.th t).saved.length) := by
  by_cases e : t' = t
  · subst e
    rcases frameAt_step hs d' g hg with ⟨h1, h2⟩ | ⟨f, h1, h2, h3, h4, h5, h6, -⟩
    · exact .inl ⟨h1, rfl, h2⟩
    · have hno : ∀ f', lab = .invoke f' → ¬ (t' = t' ∧ d' = (s.th t').saved.length) := by
        rintro f' hl ⟨-, rfl⟩
        rw [frameAt_top rfl] at h1
        subst hl
        cases hs with
        | invoke _ _ ht => rw [ht] at h1; simp at h1
      rcases h6 with h6 | ⟨i, q1, q2, q3, q4, -, q6⟩
      · exact .inr ⟨f, h1, h5, h6, hno⟩
      · subst q6
        rw [committing_eq q1 q3 q4] at hcom; simp at hcom
  · right
    rw [hs.other (fun e' => e e'.symm)] at hg
    exact ⟨g, hg, rfl, rfl, fun _ _ h => e h.1⟩

theorem isPush_congr {f g : Frame n} (h : g.op = f.op) : isPush g = isPush f := by
  unfold isPush; rw [h]

theorem TestReach.inv (hn : 4 ≤ n) (hbe : ∀ p, (T p).prog.be = K.be) (hK : K.OK) (h0 : BufInit K m0 G0)
    {s : State n} {G : Bufs n} {H : Hold} (h : TestReach T K m0 G0 N s G H) : TestInv T K N s G H := by
  induction h with
  | init =>
    refine ⟨fun y => ?_, fun _ _ => rfl, fun t d f hf => ?_⟩
    · rw [h0.pushed, h0.popped, holders_none fun _ _ => rfl]
    · rcases frameAt_any hf with h | h <;> simp [thread0] at h
  | @step s s' G H t lab h hs hi hu ih =>
    have hB := h.breach.inv hn hbe hK h0
    cases hcom : committing T s t lab with
    | none =>
      have hH : holdStep T s (bufStep K T s G t lab) H t lab = H := by unfold holdStep; rw [hcom]
      have hb : (bufStep K T s G t lab).got = G.got ∧ (bufStep K T s G t lab).pushed = G.pushed ∧
          (bufStep K T s G t lab).popped = G.popped ∧
          (∀ t' d', (∀ f, lab = .invoke f → ¬ (t' = t ∧ d' = (s.th t).saved.length)) →
            (bufStep K T s G t lab).arg t' d' = G.arg t' d') := by
        unfold bufStep
        split
        · next f =>
          refine ⟨rfl, rfl, rfl, fun t' d' h => ?_⟩
          simp only [Bufs.start]
          rw [if_neg (h f rfl)]
        · rw [hcom]; exact ⟨rfl, rfl, rfl, fun _ _ _ => rfl⟩
      rw [hH]
      refine ⟨fun y => by rw [hb.2.1, hb.2.2.1]; exact ih.cnt y, ih.out, fun t' d' g hg => ?_⟩
      rcases quiet_frames hs hcom t' d' g hg with ⟨rfl, rfl, rfl⟩ | ⟨f, hf, e1, e2, hno⟩
      · obtain ⟨-, k1, k2, k3⟩ := hi g rfl
        have hc0 : g.commits = 0 := by
          cases hs with
          | invoke _ _ _ hf _ => exact hf.commits
        refine ⟨by rw [k2]; rfl, k1, fun _ => ?_, fun h => absurd hc0 h⟩
        have harg : (bufStep K T s G t' (.invoke g)).arg t' 0 = itemOf K s.mem g := by
          simp [bufStep, Bufs.start, k2]
        rw [harg]
        cases hh : H t' with
        | none => rw [hh] at k3; rw [if_neg (by rw [k3]; decide)]
        | some y => rw [hh] at k3; rw [if_pos k3.1, k3.2]
      · obtain ⟨rfl, k2, k3, k4⟩ := ih.frames t' d' f hf
        rw [e2, isPush_congr e1, hb.1, hb.2.2.2 t' 0 hno]
        exact ⟨rfl, k2, k3, k4⟩
    | some f =>
      obtain ⟨hl, ht, -⟩ := committing_some hcom
      subst hl
      obtain ⟨hd, htN, hc0, -⟩ := ih.frames t _ f (by rw [frameAt_top rfl]; exact ht)
      have hV := (hB.reach.reach hn).inv hn
      have hcm := (commit_pseudo hn hV hs hcom).2
      have hc0 := hc0 hcm
      have hH : holdStep T s (bufStep K T s G t .exec) H t .exec =
          upd H t (if isPush f then none else (bufStep K T s G t .exec).got t 0) := by
        unfold holdStep; rw [hcom]
      obtain ⟨-, hfc, -⟩ := hB.frames t _ f (by rw [frameAt_top rfl]; exact ht)
      have heff := buf_effect hn hbe hK hB hs hcom
      rw [hH]
      rw [hd] at heff
      generalize bufStep K T s G t .exec = G' at heff ⊢
      have harg : ∀ u, G'.arg u 0 = G.arg u 0 := by
        cases heff with
        | push => exact fun _ => rfl
        | pop k l y hl => rw [pop_eq hl]; exact fun _ => rfl
      have hgot : ∀ u, u ≠ t → G'.got u 0 = G.got u 0 := by
        cases heff with
        | push => exact fun _ _ => rfl
        | pop k l y hl =>
          rw [pop_eq hl]; intro u hu; dsimp only
          rw [if_neg fun h => hu h.1]
      refine ⟨fun y => ?_, fun u hu => by rw [updT_other _ _ (by omega)]; exact ih.out u hu,
        fun t' d' g hg => ?_⟩
      · have hcnt := ih.cnt y
        cases heff with
        | push k hl hk hop ho hb =>
          have hp : isPush f = true := by
            unfold isPush
            rcases hop with ⟨x, q, -⟩ | ⟨src, q⟩
            · rw [q.2]
            · rw [q.1]; simp; exact BitVec.ofNat_add k 1
          rw [if_pos hp] at hc0 ⊢
          have := holders_upd (H := H) (o := none) (y := y) htN
          rw [hc0] at this
          show (if y = G.arg t 0 then G.pushed y + 1 else G.pushed y) + _ = G.popped y
          by_cases e : y = G.arg t 0
          · rw [if_pos e]
            rw [if_pos (by rw [e]), if_neg (by simp)] at this
            omega
          · rw [if_neg e]
            rw [if_neg (fun h => e (by injection h with h; exact h.symm)), if_neg (by simp)] at this
            omega
        | pop k l x hl hk hop ho =>
          have hk' : k < 2 ^ (8 * n) := by
            have h1 := (hB.holds f.cpu hfc).2.1
            rw [hl] at h1
            have h2 := hK.cap_lt hfc
            simp at h1; omega
          have hp : isPush f = false := by
            unfold isPush
            rcases hop with ⟨x, q, -⟩ | ⟨dst, q, -⟩
            · rw [q.2]
            · rw [q.1]; exact decide_eq_false (num_ne_two hn hk')
          rw [hp] at hc0 ⊢
          simp only [Bool.false_eq_true, if_false] at hc0 ⊢
          rw [pop_eq hl]
          have hgx : (if t = t ∧ (0 : Nat) = 0 then some x else G.got t 0) = some x := if_pos ⟨rfl, rfl⟩
          dsimp only
          rw [hgx]
          have := holders_upd (H := H) (o := some x) (y := y) htN
          rw [hc0] at this
          by_cases e : y = x
          · rw [if_pos e]
            rw [if_neg (by simp), if_pos (by rw [e])] at this
            omega
          · rw [if_neg e]
            rw [if_neg (by simp), if_neg (fun h => e (by injection h with h; exact h.symm))] at this
            omega
      · rcases commit_frames hn hV hs hcom t' d' g hg with ⟨rfl, rfl, -, -, e1, e2⟩ | ⟨hne, hf⟩
        · rw [hd, e2, isPush_congr e1, updT_same]
          refine ⟨rfl, htN, fun h => by simp at h, fun _ => ?_⟩
          split
          · rfl
          · rfl
        · obtain ⟨rfl, k2, k3, k4⟩ := ih.frames t' d' g hf
          have hu : t' ≠ t := fun e => hne ⟨e, hd.symm⟩
          rw [updT_other _ _ hu, harg, hgot t' hu]
          exact ⟨rfl, k2, k3, k4⟩
  | @read s G H t c _ _ _ _ ih => exact ⟨ih.cnt, ih.out, ih.frames⟩

end Verif.Rseq
