import Verif.PoolName
/-
C115: the name of a pool never makes the creation of a range fail, and the init memory of its later ranges carries it.
-/
namespace Verif.PoolName

/-- Line 705-709: the formatted name and its zero stay inside the buffer, which keeps its size. -/
theorem name_in_buffer (s buf : Bytes) (hb : buf.length = 249) :
    (nameArg (some s) buf).length = 249 ∧ 0 ∈ nameArg (some s) buf := by
  simp only [nameArg, snprintf]
  rw [if_neg (show ¬ (249 = 0) by decide)]
  constructor
  · simp only [List.length_append, List.length_drop, List.length_take, List.length_cons, List.length_nil, hb]
    omega
  · simp

example : (List.replicate 249 7).length = 249 := List.length_replicate

/-- No attempt to create a range of any pool is refused because of the name, nor is anything read past the name. -/
theorem name_never_refused (cow : Bool) (n : Option Bytes) (hn : ∀ s, n = some s → 0 ∉ s) (buf : Bytes)
    (reached made dup : Bool) :
    (∀ r ∈ (create cow n buf reached made dup).1, ∃ b, r = .ok b ∧ b.length ≤ 249) ∧
    ∀ p, (create cow n buf reached made dup).2 = some p → ∀ (c : Option Bytes) (ops : List Op),
      ∀ r ∈ (run ⟨c, p, []⟩ ops).log, ∃ b, r = .ok b ∧ b.length ≤ 249 := by
  have ha : ∃ b, NameRes.ok anonymous = .ok b ∧ b.length ≤ 249 := ⟨_, rfl, by decide⟩
  constructor
  · intro r hr
    have : r ∈ rangeCreate ⟨cow, none⟩ reached buf := by
      simp only [create] at hr
      (repeat' split at hr) <;> exact hr
    simp only [rangeCreate] at this
    split at this
    · rw [List.mem_singleton.1 this, kernel_anon]; exact ha
    · cases this
  · intro p hp c ops
    have hpn : ∀ s, p.name = some s → 0 ∉ s := by
      intro s hs
      simp only [create] at hp
      (repeat' split at hp) <;> first | (cases hp; first | cases hs; done | exact hn _ (hs ▸ rfl)) | cases hp
    refine run_log _ ops _ (fun r h => by cases h) ?_
    intro re b _ x hx
    simp only [rangeCreate] at hx
    split at hx
    · rw [List.mem_singleton.1 hx]
      cases hname : p.name with
      | none => rw [kernel_anon]; exact ha
      | some s =>
        rw [kernel_named s b (hpn s hname)]
        exact ⟨_, rfl, by rw [List.length_take]; omega⟩
    · cases hx

/-- The init memory of every range made after creation is named after the string given at creation, whatever the caller does
to that string later; the name is cut after 248 bytes. -/
theorem later_ranges_named (s : Bytes) (hs : 0 ∉ s) (buf : Bytes) (reached made dup : Bool) (p : Pool)
    (hp : (create true (some s) buf reached made dup).2 = some p) (c : Option Bytes) (ops : List Op) :
    (∀ r ∈ (run ⟨c, p, []⟩ ops).log, r = .ok ((s ++ suffix).take 248)) ∧ getPoolName (run ⟨c, p, []⟩ ops).pool = s := by
  have he : p = ⟨true, some s⟩ := by
    simp only [create] at hp
    (repeat' split at hp) <;> first | (cases hp; done) | exact (Option.some.inj hp).symm
  subst he
  refine ⟨run_log _ ops _ (fun r h => by cases h) ?_, by rw [run_pool]; rfl⟩
  intro re b _ x hx
  simp only [rangeCreate] at hx
  split at hx
  · rw [List.mem_singleton.1 hx, kernel_named s b hs]
  · cases hx

/-- A name of at most 235 bytes is kept whole, a longer one loses its end or part of the suffix. -/
theorem name_whole_iff (s : Bytes) : (s ++ suffix).take 248 = s ++ suffix ↔ s.length ≤ 235 := by
  constructor
  · intro h
    have := congrArg List.length h
    rw [List.length_take, List.length_append, suffix_len] at this
    omega
  · intro h
    exact List.take_of_length_le (by rw [List.length_append, suffix_len]; omega)

/-- F14: the first range never carries the name: it is created before the name is set. -/
theorem first_range_anonymous (n : Option Bytes) (buf : Bytes) (made dup : Bool) :
    (create true n buf true made dup).1 = [.ok anonymous] := by
  have : rangeCreate ⟨true, none⟩ true buf = [.ok anonymous] := by
    show [kernelName (nameArg none buf)] = _
    rw [kernel_anon]
  simp only [create, this]
  repeat' split
  all_goals rfl

/-- Pools that are not COW_INIT create no such memory. -/
theorem other_policies_unnamed (n : Option Bytes) (buf : Bytes) (reached made dup : Bool) :
    (create false n buf reached made dup).1 = [] ∧
    ∀ p, (create false n buf reached made dup).2 = some p → ∀ (c : Option Bytes) (ops : List Op),
      (run ⟨c, p, []⟩ ops).log = [] := by
  have h0 : ∀ (n : Option Bytes) re b, rangeCreate ⟨false, n⟩ re b = [] := by
    intro n re b; simp [rangeCreate]
  constructor
  · simp only [create, h0]
    repeat' split
    all_goals rfl
  · intro p hp c ops
    have hc : p.cow = false := by
      simp only [create] at hp
      (repeat' split at hp) <;> first | (cases hp; rfl) | cases hp
    refine List.eq_nil_iff_forall_not_mem.2 (run_log (fun _ => False) ops _ (fun r h => by cases h) ?_)
    intro re b _ x hx
    obtain ⟨pc, pn⟩ := p
    cases hc
    rw [h0] at hx
    cases hx

/-- A pool named "a" whose caller reuses its string: the first range is anonymous, the next two carry the name. -/
example : let r := create true (some [97]) (List.replicate 249 7) true true true
    r.1 = [.ok anonymous] ∧ ∃ p, r.2 = some p ∧
      (run ⟨some [97], p, []⟩ [.range true (List.replicate 249 1), .callerString (some [98]),
        .range true (List.replicate 249 2), .range false []]).log = [.ok (97 :: suffix), .ok (97 :: suffix)] := by
  refine ⟨first_range_anonymous .., _, rfl, ?_⟩
  show [kernelName (nameArg (some [97]) _), kernelName (nameArg (some [97]) _)] = _
  rw [kernel_named _ _ (by decide), kernel_named _ _ (by decide)]
  rfl

/-- Without the cut of line 705 a pool name of more than 236 bytes would make the system call fail. -/
theorem uncut_refused (s : Bytes) (hs : 0 ∉ s) (hl : 236 < s.length) : kernelName (s ++ suffix ++ [0]) = .einval := by
  have hlen : 250 ≤ (s ++ suffix).length := by rw [List.length_append, suffix_len]; omega
  simp only [kernelName]
  rw [if_neg, if_pos]
  · rw [List.length_append]; omega
  · rw [List.take_append_of_le_length hlen]
    intro hm
    rcases List.mem_append.1 (List.mem_of_mem_take hm) with h | h
    · exact hs h
    · exact suffix_nz h

example : 0 ∉ List.replicate 300 97 ∧ 236 < (List.replicate 300 97).length :=
  ⟨fun h => absurd (List.eq_of_mem_replicate h) (by decide), by rw [List.length_replicate]; omega⟩

end Verif.PoolName
