import Verif.Numa
import Verif.BitsProps
/-
C26: NUMA initialisation submits every whole page exactly once.
-/
namespace Verif.Numa
open Verif

theorem fill_spec (addr pageLen : Nat) : ∀ k page,
    (fill addr pageLen k page).1 = (List.range' page k).map fun p => addr + p * pageLen := by
  intro k
  induction k with
  | zero => intro page; rfl
  | succ k ih =>
    intro page
    show (addr + page * pageLen) :: (fill addr pageLen k (page + 1)).1 = _
    rw [ih]
    rfl

theorem loop_step (addr pageLen nrPages : Nat) (nodes : List Int) (flags : Int) (rets : Nat → Int) (i page : Nat)
    (h : page < nrPages) : ∃ m, 0 < m ∧ m ≤ batch ∧ m ≤ nrPages - page ∧
      loop addr pageLen nrPages nodes flags rets i page =
        if rets i < 0 then (rets i, [⟨m, (List.range' page m).map (fun p => addr + p * pageLen), nodes, flags⟩])
        else ((loop addr pageLen nrPages nodes flags rets (i + 1) (page + m)).1,
          ⟨m, (List.range' page m).map (fun p => addr + p * pageLen), nodes, flags⟩ ::
            (loop addr pageLen nrPages nodes flags rets (i + 1) (page + m)).2) := by
  have hb : 0 < batch := by decide
  refine ⟨if nrPages - page < batch then nrPages - page else batch, ?_, ?_, ?_, ?_⟩
  · split <;> omega
  · split <;> omega
  · split <;> omega
  · rw [loop, dif_pos h]
    dsimp only
    rw [fill_spec, fill_page]

theorem loop_spec (addr pageLen nrPages : Nat) (nodes : List Int) (flags : Int) (rets : Nat → Int) : ∀ (n i page : Nat),
    nrPages - page ≤ n → page ≤ nrPages →
    let r := loop addr pageLen nrPages nodes flags rets i page
    (∀ c ∈ r.2, 0 < c.count ∧ c.count ≤ batch ∧ c.pages.length = c.count ∧ c.nodes = nodes ∧ c.flags = flags) ∧
    (∃ rest, r.2.flatMap Call.pages ++ rest = (List.range' page (nrPages - page)).map fun p => addr + p * pageLen) ∧
    (∀ j, j + 1 < r.2.length → 0 ≤ rets (i + j)) ∧
    ((r.1 = 0 ∧ r.2.flatMap Call.pages = ((List.range' page (nrPages - page)).map fun p => addr + p * pageLen) ∧
        (∀ j, j < r.2.length → 0 ≤ rets (i + j))) ∨
      (r.1 < 0 ∧ ∃ k, r.2.length = k + 1 ∧ rets (i + k) = r.1)) := by
  intro n
  induction n with
  | zero =>
    intro i page hn hp
    rw [loop, dif_neg (by omega)]
    have : nrPages - page = 0 := by omega
    dsimp only
    rw [this]
    exact ⟨fun c hc => (by cases hc), ⟨[], rfl⟩, fun j hj => by simp at hj, Or.inl ⟨rfl, rfl, fun j hj => by simp at hj⟩⟩
  | succ n ihn =>
    intro i page hn hp
    rcases Nat.lt_or_ge page nrPages with h | h
    · obtain ⟨m, m1, m2, m3, e⟩ := loop_step addr pageLen nrPages nodes flags rets i page h
      have hsplit : ((List.range' page (nrPages - page)).map fun p => addr + p * pageLen) =
          (List.range' page m).map (fun p => addr + p * pageLen) ++
            ((List.range' (page + m) (nrPages - (page + m))).map fun p => addr + p * pageLen) := by
        rw [← List.map_append]
        congr 1
        have : nrPages - page = m + (nrPages - (page + m)) := by omega
        rw [this, ← List.range'_append_1]
      rw [e]
      by_cases hneg : rets i < 0
      · rw [if_pos hneg]
        refine ⟨?_, ?_, ?_, Or.inr ⟨hneg, 0, rfl, rfl⟩⟩
        · intro c hc
          rw [List.mem_singleton] at hc
          subst hc
          exact ⟨m1, m2, by simp, rfl, rfl⟩
        · exact ⟨_, by rw [hsplit]; simp only [List.flatMap_cons, List.flatMap_nil, List.append_nil]; rfl⟩
        · intro j hj
          simp at hj
      · rw [if_neg hneg]
        have ih := ihn (i + 1) (page + m) (by omega) (by omega)
        generalize loop addr pageLen nrPages nodes flags rets (i + 1) (page + m) = x at ih
        obtain ⟨i1, ⟨rest, i2⟩, i3, i4⟩ := ih
        refine ⟨?_, ?_, ?_, ?_⟩
        · intro c hc
          rcases List.mem_cons.1 hc with rfl | hc
          · exact ⟨m1, m2, by simp, rfl, rfl⟩
          · exact i1 c hc
        · refine ⟨rest, ?_⟩
          rw [hsplit, List.flatMap_cons, List.append_assoc, i2]
        · intro j hj
          cases j with
          | zero => rw [Nat.add_zero]; omega
          | succ j =>
            have := i3 j (by simp at hj; omega)
            rw [show i + (j + 1) = i + 1 + j by omega]
            exact this
        · rcases i4 with ⟨a1, a2, a3⟩ | ⟨a1, k, a2, a3⟩
          · refine Or.inl ⟨a1, ?_, ?_⟩
            · rw [hsplit, List.flatMap_cons, a2]
            · intro j hj
              cases j with
              | zero => rw [Nat.add_zero]; omega
              | succ j =>
                have := a3 j (by simp at hj; omega)
                rw [show i + (j + 1) = i + 1 + j by omega]
                exact this
          · refine Or.inr ⟨a1, k + 1, by simp [a2], ?_⟩
            rw [show i + (k + 1) = i + 1 + k by omega]
            exact a3
    · rw [loop, dif_neg (by omega)]
      have : nrPages - page = 0 := by omega
      dsimp only
      rw [this]
      exact ⟨fun c hc => (by cases hc), ⟨[], rfl⟩, fun j hj => by simp at hj, Or.inl ⟨rfl, rfl, fun j hj => by simp at hj⟩⟩

theorem nrPages_eq (len pageLen : BitVec 64) (hp : Bits.IsPowTwo pageLen.toNat) :
    (len >>> (Bits.countOrder pageLen).toNat).toNat = len.toNat / pageLen.toNat := by
  obtain ⟨k, hk⟩ := hp
  have hne : pageLen ≠ 0#64 := by
    rintro rfl
    have := Nat.two_pow_pos k
    rw [← hk] at this
    exact absurd this (by decide)
  obtain ⟨o, ho, ⟨h1, h2⟩, _⟩ := Bits.countOrder_isLeast pageLen hne
  have : o = k := by
    have a1 := h2 k (by omega)
    rw [hk] at h1
    have a2 := (Nat.pow_le_pow_iff_right (by omega : 1 < 2)).1 h1
    omega
  subst this
  rw [ho]
  show (len >>> o).toNat = _
  rw [BitVec.toNat_ushiftRight, Nat.shiftRight_eq_div_pow, hk]

/-- C26: with non-zero flags and a valid node, the calls carry, in order and without repetition, the addresses of the whole
pages of [addr, addr+len), in batches of 1 to 4096 pages, every page with the node of the CPU and the given flags. The
result is 0 and all pages were submitted, or it is the first negative kernel answer and no further call was made. -/
theorem numa_covers_pages (addr : Nat) (len pageLen : BitVec 64) (hp : Bits.IsPowTwo pageLen.toNat) (node flags : Int)
    (hn : 0 ≤ node) (hf : flags ≠ 0) (rets : Nat → Int) :
    let r := rangeInitNuma addr len pageLen node flags rets
    let wanted := (List.range (len.toNat / pageLen.toNat)).map fun p => addr + p * pageLen.toNat
    (∀ c ∈ r.2.2, 1 ≤ c.count ∧ c.count ≤ 4096 ∧ c.pages.length = c.count ∧ c.flags = flags ∧
      c.count ≤ c.nodes.length ∧ ∀ x ∈ c.nodes, x = node) ∧
    r.2.2.flatMap Call.pages <+: wanted ∧
    ((r.1 = 0 ∧ r.2.2.flatMap Call.pages = wanted ∧ ∀ j, j < r.2.2.length → 0 ≤ rets j) ∨
     (r.1 < 0 ∧ ∃ k, r.2.2.length = k + 1 ∧ rets k = r.1 ∧ ∀ j, j < k → 0 ≤ rets j)) := by
  have hs := loop_spec addr pageLen.toNat (len.toNat / pageLen.toNat) (List.replicate batch node) flags rets _ 0 0 (Nat.le_refl _) (Nat.zero_le _)
  unfold rangeInitNuma
  rw [if_neg hf]
  dsimp only at hs ⊢
  rw [if_neg (by omega), nrPages_eq len pageLen hp]
  dsimp only
  generalize loop addr pageLen.toNat (len.toNat / pageLen.toNat) (List.replicate batch node) flags rets 0 0 = r at hs
  obtain ⟨h1, ⟨rest, h2⟩, h3, h4⟩ := hs
  rw [Nat.sub_zero, ← List.range_eq_range'] at h2 h4
  refine ⟨?_, ⟨rest, h2⟩, ?_⟩
  · intro c hc
    obtain ⟨a1, a2, a3, a4, a5⟩ := h1 c hc
    refine ⟨a1, a2, a3, a5, ?_, ?_⟩
    · rw [a4, List.length_replicate]; exact a2
    · rw [a4]; exact fun x hx => (List.mem_replicate.1 hx).2
  · rcases h4 with ⟨b1, b2, b3⟩ | ⟨b1, k, b2, b3⟩
    · exact Or.inl ⟨b1, b2, fun j hj => by have := b3 j hj; rwa [Nat.zero_add] at this⟩
    · refine Or.inr ⟨b1, k, b2, by rwa [Nat.zero_add] at b3, fun j hj => ?_⟩
      have := h3 j (by omega)
      rwa [Nat.zero_add] at this

/-- C26: the refusals: no call at all. -/
theorem numa_refused (addr : Nat) (len pageLen : BitVec 64) (node flags : Int) (rets : Nat → Int) :
    (flags = 0 → rangeInitNuma addr len pageLen node flags rets = (-1, true, [])) ∧
    (flags ≠ 0 → node < 0 → rangeInitNuma addr len pageLen node flags rets = (-1, false, [])) := by
  refine ⟨fun h => ?_, fun h1 h2 => ?_⟩
  · unfold rangeInitNuma; rw [if_pos h]
  · unfold rangeInitNuma; rw [if_neg h1]; dsimp only; rw [if_pos h2]

/-- The function reports success even if the kernel says that some pages were not migrated (DESIGN F23). -/
theorem numa_hides_unmigrated (addr : Nat) (len pageLen : BitVec 64) (hp : Bits.IsPowTwo pageLen.toNat) (node flags : Int)
    (hn : 0 ≤ node) (hf : flags ≠ 0) : (rangeInitNuma addr len pageLen node flags fun _ => 5).1 = 0 := by
  rcases (numa_covers_pages addr len pageLen hp node flags hn hf fun _ => 5).2.2 with h | ⟨h, k, _, h2, _⟩
  · exact h.1
  · omega

/-- C26 hypotheses: three pages of 4096 bytes and a tail. -/
example : Bits.IsPowTwo (4096#64 : BitVec 64).toNat ∧ (12300#64 : BitVec 64).toNat / (4096#64 : BitVec 64).toNat = 3 ∧
    (rangeInitNuma 8192 12300#64 4096#64 1 2 fun _ => 0).1 = 0 :=
  ⟨⟨12, by decide⟩, by decide, by
    rcases (numa_covers_pages 8192 12300#64 4096#64 ⟨12, by decide⟩ 1 2 (by decide) (by decide) fun _ => 0).2.2 with h | ⟨h, k, _, h2, _⟩
    · exact h.1
    · omega⟩

end Verif.Numa
