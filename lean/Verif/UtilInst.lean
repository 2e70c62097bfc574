import Verif.BitsProps
import Verif.MmapProps
import Verif.NumaProps
import Verif.LinkedListIter
import Verif.SmpProps
import Verif.SmpConc

/-!
# The theorems about bit utilities, aligned mappings, NUMA, lists and the CPU count, applied to concrete cases
-/

namespace Verif.Bits

/-- `flsU64_isNumBits`, `flsU32_isNumBits`: 0x1234 has 13 binary digits, 1 in the top bit 32. -/
example : IsNumBits 0x1234 13 := flsU64_isNumBits 0x1234#64
example : IsNumBits 0x80000001 32 := flsU32_isNumBits 0x80000001#32
/-- `countOrder_isLeast` and its variants: 24 bytes need order 5, 2^63 + 1 bytes order 64. -/
example : ∃ k : Nat, countOrder 24#64 = k ∧ IsLeastOrder 24 k ∧ k ≤ 64 := countOrder_isLeast 24#64 (by decide)
example : ∃ k : Nat, countOrder32 0x80000001#32 = k ∧ IsLeastOrder 0x80000001 k ∧ k ≤ 32 := countOrder32_isLeast _ (by decide)
example : ∃ k : Nat, countOrderUlong 24#32 = k ∧ IsLeastOrder 24 k ∧ k ≤ 32 := countOrderUlong_isLeast (Or.inl rfl) 24#32 (by decide)
/-- `countOrder_neg_iff` and its variants. -/
example : countOrder 24#64 ≠ -1 := fun h => absurd ((countOrder_neg_iff _).1 h) (by decide)
example : countOrder32 0#32 = -1 := (countOrder32_neg_iff _).2 rfl
example : countOrderUlong 1#64 ≠ -1 := fun h => absurd ((countOrderUlong_neg_iff (Or.inr rfl) _).1 h) (by decide)
/-- `isPow2_iff`: 65536 is a power of two, and the function also accepts 0. -/
example : isPow2 65536#64 = true ∧ isPow2 0#64 = true := ⟨(isPow2_iff _).2 (Or.inr ⟨16, by decide⟩), (isPow2_iff _).2 (Or.inl rfl)⟩
/-- `offsetAlign_least`: from 4097 it is 61439 bytes to the next 64 KiB. -/
example : 65536 ∣ 4097 + (offsetAlign 4097#64 65536#64).toNat ∧ (offsetAlign 4097#64 65536#64).toNat ≤ 61439 :=
  ⟨(offsetAlign_least 4097#64 65536#64 ⟨16, by decide⟩).1, (offsetAlign_least 4097#64 65536#64 ⟨16, by decide⟩).2 61439 (by decide)⟩
/-- `rseqAlign_least`: 33 rounded up to 32 is 64. -/
example : (rseqAlign 33#64 32#64).toNat = 64 := by
  obtain ⟨h1, h2, h3⟩ := rseqAlign_least 33#64 32#64 ⟨5, by decide⟩ (by decide)
  have h4 := h3 64 (by decide) (by decide)
  have h5 : (33#64).toNat = 33 := rfl
  rw [show (32#64).toNat = 32 from rfl] at h1
  omega
/-- `hweight_digitSum`: 0b1011 has three ones. -/
example : hweight 11#32 = digitSum 11 := hweight_digitSum 11#32
/-- `pageLen_spec`: 16 KiB pages, and a failing sysconf. -/
example : pageLen 16384 = 16384 ∧ pageLen (-1) = 4096 :=
  ⟨(pageLen_spec 16384).1 16384 rfl, (pageLen_spec (-1)).2.1 (by decide)⟩

end Verif.Bits

namespace Verif.Mmap

/-- `alignedMmap_exact` for a kernel that grants only the block asked for here. -/
example : ∃ base header mapped unmaps,
    alignedMmap (⟨fun l => if l = 0x41000#64 then some 0x7f1234561000#64 else none, fun _ _ => true⟩ : Kernel 64)
      4096#64 196608#64 65536#64 8192#64 = .ok base header mapped unmaps ∧ 65536 ∣ base.toNat ∧
    base.toNat = header.toNat + 8192 := by
  rcases alignedMmap_exact (Or.inr rfl) (⟨fun l => if l = 0x41000#64 then some 0x7f1234561000#64 else none, fun _ _ => true⟩ : Kernel 64)
    4096#64 196608#64 65536#64 8192#64
    ⟨⟨12, by decide⟩, ⟨16, by decide⟩, by decide, by decide, by decide, by decide, by decide⟩ (by
      intro l a h
      dsimp only at h
      split at h
      · rename_i hl
        cases h
        subst hl
        decide
      · cases h) with ⟨_, l, h1, h2⟩ | ⟨_, _, _, h⟩ | ⟨b, hd, m, u, e, h1, h2, _⟩
  · have : l = 0x41000#64 := BitVec.eq_of_toNat_eq (by rw [h1]; decide)
    simp [this] at h2
  · cases h
  · exact ⟨b, hd, m, u, e, h1, h2⟩

/-- `alignedMmap_einval_iff`: an alignment that is no power of two. -/
example : alignedMmap sampleKernel 4096#64 196608#64 0x18000#64 8192#64 = .einval :=
  (alignedMmap_einval_iff (Or.inr rfl) sampleKernel 4096#64 196608#64 0x18000#64 8192#64 ⟨12, by decide⟩).2
    (Or.inr (Or.inr (Or.inl (by
      rintro ⟨k, hk⟩
      have h1 : (98304 : Nat) = 2 ^ k := hk
      rcases Nat.lt_or_ge k 17 with h | h
      · have : ∀ k, k < 17 → (98304 : Nat) ≠ 2 ^ k := by decide
        exact this k h h1
      · have : 2 ^ 17 ≤ 2 ^ k := Nat.pow_le_pow_right (by decide) h
        omega))))

end Verif.Mmap

namespace Verif.Numa

/-- `numa_refused` and `numa_hides_unmigrated`: no flags; flags, but no node; three pages, none of which moves. -/
example : rangeInitNuma 8192 12300#64 4096#64 1 0 (fun _ => 0) = (-1, true, []) ∧
    rangeInitNuma 8192 12300#64 4096#64 (-1) 2 (fun _ => 0) = (-1, false, []) ∧
    (rangeInitNuma 8192 12300#64 4096#64 1 2 fun _ => 5).1 = 0 :=
  ⟨(numa_refused _ _ _ _ _ _).1 rfl, (numa_refused _ _ _ _ _ _).2 (by decide) (by decide),
   numa_hides_unmigrated 8192 12300#64 4096#64 ⟨12, by decide⟩ 1 2 (by decide) (by decide)⟩

end Verif.Numa

namespace Verif.LinkedList

/-- Two disjoint lists and an unused node. -/
theorem ex_two_lists : ∃ h, IsList h 100 [3, 1, 4, 15] ∧ IsList h 200 [7, 8] ∧ h.mapped 9 = true := by
  obtain ⟨h, hl, hm, hs⟩ := exists_list 100 [3, 1, 4, 15] (by decide)
  have h0 : IsList h 200 [] := ⟨hs 200 (by decide), by decide, fun x _ => hm x⟩
  obtain ⟨h1, _, l1, u1⟩ := addTail_spec h0 (newp := 7) (by decide) (hm 7)
  obtain ⟨h2, _, l2, u2⟩ := addTail_spec l1 (newp := 8) (by decide) (by rw [u1.1]; exact hm 8)
  exact ⟨h2, (hl.untouched u1 (by decide)).untouched u2 (by decide), l2, by rw [u2.1, u1.1]; exact hm 9⟩

/-- `init_spec`, `add_spec`, `add_after_spec`, `addTail_before_spec`, `isEmpty_spec`. -/
example : ∃ h, IsList h 100 [3, 1, 4, 15] ∧ (∃ h', initHead 9 h = some h' ∧ IsList h' 9 []) ∧
    (∃ h', add 9 100 h = some h' ∧ IsList h' 100 [9, 3, 1, 4, 15]) ∧
    (∃ h', add 9 1 h = some h' ∧ IsList h' 100 [3, 1, 9, 4, 15]) ∧
    (∃ h', addTail 9 1 h = some h' ∧ IsList h' 100 [3, 9, 1, 4, 15]) ∧ isEmpty 100 h = some false := by
  obtain ⟨h, hl, _, hm⟩ := ex_two_lists
  obtain ⟨h1, e1, l1, _⟩ := init_spec hm
  obtain ⟨h2, e2, l2, _⟩ := add_spec hl (by decide) hm
  obtain ⟨h3, e3, l3, _⟩ := add_after_spec (pre := [3]) (z := 1) (post := [4, 15]) hl (by decide) hm
  obtain ⟨h4, e4, l4, _⟩ := addTail_before_spec (pre := [3]) (z := 1) (post := [4, 15]) hl (by decide) hm
  exact ⟨h, hl, ⟨h1, e1, l1⟩, ⟨h2, e2, l2⟩, ⟨h3, e3, l3⟩, ⟨h4, e4, l4⟩, isEmpty_spec hl⟩

/-- `del_spec`, `delInit_spec`, `replace_spec`, `replace_head_spec`, `replaceInit_spec`. -/
example : ∃ h, IsList h 100 [3, 1, 4, 15] ∧ (∃ h', del 4 h = some h' ∧ IsList h' 100 [3, 1, 15]) ∧
    (∃ h', delInit 4 h = some h' ∧ IsList h' 100 [3, 1, 15] ∧ IsList h' 4 []) ∧
    (∃ h', replace 4 9 h = some h' ∧ IsList h' 100 [3, 1, 9, 15]) ∧
    (∃ h', replace 100 9 h = some h' ∧ IsList h' 9 [3, 1, 4, 15]) ∧
    (∃ h', replaceInit 4 9 h = some h' ∧ IsList h' 100 [3, 1, 9, 15] ∧ IsList h' 4 []) := by
  obtain ⟨h, hl, _, hm⟩ := ex_two_lists
  obtain ⟨h1, e1, l1, _⟩ := del_spec (pre := [3, 1]) (e := 4) (post := [15]) hl
  obtain ⟨h2, e2, l2, l2', _⟩ := delInit_spec (pre := [3, 1]) (e := 4) (post := [15]) hl
  obtain ⟨h3, e3, l3, _⟩ := replace_spec (pre := [3, 1]) (old := 4) (new := 9) (post := [15]) hl (by decide) hm
  obtain ⟨h4, e4, l4, _⟩ := replace_head_spec (old := 100) (new := 9) hl (by decide) hm
  obtain ⟨h5, e5, l5, l5', _⟩ := replaceInit_spec (pre := [3, 1]) (old := 4) (new := 9) (post := [15]) hl (by decide) hm
  exact ⟨h, hl, ⟨h1, e1, l1⟩, ⟨h2, e2, l2, l2'⟩, ⟨h3, e3, l3⟩, ⟨h4, e4, l4⟩, ⟨h5, e5, l5, l5'⟩⟩

/-- `move_spec`, `move_same_spec`, `splice_spec`. -/
example : ∃ h, IsList h 100 [3, 1, 4, 15] ∧ IsList h 200 [7, 8] ∧
    (∃ h', move 4 200 h = some h' ∧ IsList h' 100 [3, 1, 15] ∧ IsList h' 200 [4, 7, 8]) ∧
    (∃ h', move 4 100 h = some h' ∧ IsList h' 100 [4, 3, 1, 15]) ∧
    (∃ h', splice 100 200 h = some h' ∧ IsList h' 200 [3, 1, 4, 15, 7, 8]) := by
  obtain ⟨h, hl, hl2, _⟩ := ex_two_lists
  obtain ⟨h1, e1, l1, l1', _⟩ := move_spec (pre := [3, 1]) (e := 4) (post := [15]) hl hl2 (by decide)
  obtain ⟨h2, e2, l2, _⟩ := move_same_spec (pre := [3, 1]) (e := 4) (post := [15]) hl
  obtain ⟨h3, e3, l3, _⟩ := splice_spec hl hl2 (by decide)
  exact ⟨h, hl, hl2, ⟨h1, e1, l1, l1'⟩, ⟨h2, e2, l2⟩, ⟨h3, e3, l3⟩⟩

/-- `replaceInit_self_broken`: node 200 alone in its list. -/
example : ∃ h h', IsList h 200 [] ∧ replaceInit 200 9 h = some h' ∧ ¬ ∃ xs, IsList h' 9 xs := by
  obtain ⟨h, hl, hm, hs⟩ := exists_list 100 [3, 1, 4] (by decide)
  have h0 : IsList h 200 [] := ⟨hs 200 (by decide), by decide, fun x _ => hm x⟩
  obtain ⟨h', e, _, _, hn⟩ := replaceInit_self_broken h 200 9 (by decide) h0 (hm 9)
  exact ⟨h, h', h0, e, hn⟩

/-- `forEach_spec`, `forEachPrev_spec`, `safe_iteration_free_all`. -/
example : ∃ h, IsList h 100 [3, 1, 4, 15] ∧ (h.getN 100).bind (forEach 100 h 10) = some [3, 1, 4, 15] ∧
    (h.getP 100).bind (forEachPrev 100 h 10) = some [15, 4, 1, 3] ∧
    ∃ h', ((h.getN 100).bind fun pos => (h.getN pos).bind fun p => forEachSafe 100 (fun _ => .free) 10 pos p h) =
      some ([3, 1, 4, 15], h') ∧ h'.mapped 4 = false := by
  obtain ⟨h, hl, _⟩ := ex_two_lists
  obtain ⟨h', e, _, _, hm⟩ := safe_iteration_free_all hl 10 (by decide)
  exact ⟨h, hl, forEach_spec hl 10 (by decide), forEachPrev_spec hl 10 (by decide), h', e, by rw [hm]; simp⟩

/-- `safe_iteration_prev` and `forEachSafe_from`: 4 is removed and unmapped, 1 is removed. -/
example : ∃ h h' h'', IsList h 100 [3, 1, 4, 15] ∧
    ((h.getP 100).bind fun pos => (h.getP pos).bind fun p =>
      forEachPrevSafe 100 (fun e => if e = 4 then .removeFree else if e = 1 then .remove else .keep) 10 pos p h) =
        some ([15, 4, 1, 3], h') ∧ IsList h' 100 [3, 15] ∧
    forEachSafe 100 (fun e => if e = 4 then .removeFree else if e = 1 then .remove else .keep) 10 1 (h.next 1) h =
        some ([1, 4, 15], h'') ∧ IsList h'' 100 [3, 15] := by
  obtain ⟨h, hl, _⟩ := ex_two_lists
  obtain ⟨h', e, l, _⟩ := safe_iteration_prev hl (fun e => if e = 4 then .removeFree else if e = 1 then .remove else .keep)
    (by intro e; grind) 10 (by decide)
  obtain ⟨h'', e', l', _⟩ := forEachSafe_from (head := 100)
    (body := fun e => if e = 4 then .removeFree else if e = 1 then .remove else .keep) (by intro e; grind) [4, 15] [3] 1 h hl 10 (by decide)
  exact ⟨h, h', h'', hl, e, l, e', l'⟩

/-- `destroy_list_coherent`: the third range cannot be unmapped. -/
example : ∃ h h', IsList h 100 [3, 1, 4, 15] ∧
    ((h.getN 100).bind fun pos => (h.getN pos).bind fun p => destroyWalk 100 (fun e => e != 4) 10 pos p h) =
      some ([3, 1, 4], false, h') ∧ IsList h' 100 [4, 15] := by
  obtain ⟨h, hl, _⟩ := ex_two_lists
  obtain ⟨h', e, l, _⟩ := destroy_list_coherent hl (fun e => e != 4) 10 (by decide)
  exact ⟨h, h', hl, e, l⟩

end Verif.LinkedList

namespace Verif.Smp

theorem exServes : Serves [48, 45, 51, 44, 56, 45, 49, 49, 10] maskSize 0 exSys.reads := by
  simp only [Serves, exSys, maskSize]
  decide

/-- `read_safe` and `read_exact`: the file "0-3,8-11" read in three pieces with interruptions. -/
example : getMask true exSys.reads exSys.garbage = .running ∨
    ∃ ret buf, getMask true exSys.reads exSys.garbage = .ok (ret, buf) ∧ buf.length = 4096 := by
  rcases read_safe 4096 (by decide) (by decide) exSys.reads exSys.garbage List.length_replicate
    (by simp only [Bounded, exSys]; decide) with h | ⟨r, b, h, hb, _⟩
  · exact Or.inl h
  · exact Or.inr ⟨r, b, h, hb⟩
example : ∃ rest, getMask true exSys.reads exSys.garbage = .ok (9, [48, 45, 51, 44, 56, 45, 49, 49, 10] ++ 0 :: rest) :=
  read_exact [48, 45, 51, 44, 56, 45, 49, 49, 10] 4096 (by decide) (by decide) exSys.reads exSys.garbage List.length_replicate
    exServes (by decide)

/-- `cpu_count_exact`: 12 CPUs, the highest possible being 11. -/
example : ∃ n : Nat, getArrayLen 0 exSys = .ok n ∧ 11 < n := by
  obtain ⟨n, e, h, _⟩ := cpu_count_exact [(0, 3), (8, 11)] ⟨by simp, by decide, by simp⟩ (by decide) (by rw [exFile]; decide)
    exSys rfl List.length_replicate (by rw [exFile]; exact exServes) (by rw [exFile]; decide)
  exact ⟨n, e, h 11 ⟨(8, 11), by simp, by decide, by decide⟩⟩

/-- `fallback_is_max_partial`: directories cpu0 and cpu12, and a file. -/
example : ∃ r, fallback 4 4 (some [⟨true, [99, 112, 117, 48]⟩, ⟨true, [99, 112, 117, 49, 50]⟩, ⟨false, [99, 112, 117, 57, 57]⟩])
    (some [⟨true, [99, 112, 117, 48]⟩, ⟨true, [99, 112, 117, 49, 50]⟩, ⟨false, [99, 112, 117, 57, 57]⟩]) = .ok r ∧ 13 ≤ r := by
  obtain ⟨r, e, _, _, h, _⟩ := fallback_is_max_partial 4 (by decide)
    [⟨true, [99, 112, 117, 48]⟩, ⟨true, [99, 112, 117, 49, 50]⟩, ⟨false, [99, 112, 117, 57, 57]⟩]
    (by
      intro e he b rest hn
      simp only [List.mem_cons, List.not_mem_nil, or_false] at he
      rcases he with rfl | rfl | rfl <;> (simp only [List.cons_append, List.nil_append, List.cons.injEq] at hn
                                          obtain ⟨_, _, _, rfl, _⟩ := hn; decide))
    (by
      intro e he n hn
      simp only [List.mem_cons, List.not_mem_nil, or_false] at he
      obtain ⟨hd, ds, hn, _, _, rfl⟩ := hn
      rcases he with rfl | rfl | rfl
      · simp only [List.cons_append, List.nil_append, List.cons.injEq] at hn
        obtain ⟨_, _, _, rfl⟩ := hn
        decide
      · simp only [List.cons_append, List.nil_append, List.cons.injEq] at hn
        obtain ⟨_, _, _, rfl⟩ := hn
        decide
      · cases hd)
  exact ⟨r, e, h ⟨true, [99, 112, 117, 49, 50]⟩ (by simp) 12 ⟨rfl, [49, 50], rfl, by simp, by decide, by decide⟩⟩

/-- `fallback_if_no_file`, `fallback_if_read_error`, `fallback_if_no_digits`. -/
example : detect ⟨false, [], [], 4, 4, none, none⟩ = fallback 4 4 none none := fallback_if_no_file _ rfl
example : detect ⟨true, [.bytes [48, 45], .eintr, .err], List.replicate 4096 55, 4, 4, none, none⟩ = fallback 4 4 none none :=
  fallback_if_read_error _ rfl [.bytes [48, 45], .eintr] [] rfl (by simp) (by simp)
    (by rw [List.length_replicate]; decide)
example : detect ⟨true, [.bytes [10], .bytes []], List.replicate 4096 55, 4, 4, none, none⟩ = fallback 4 4 none none :=
  fallback_if_no_digits _ rfl [10] (by decide) (by decide) List.length_replicate (by simp only [Serves, maskSize]; decide) (by decide)

/-- `count_stable`: detection fails once, then gives 4. -/
example : ∃ k, ∀ i, k ≤ i → i < 3 → ([0, 4, 4] : List Int)[i]? = ([0, 4, 4] : List Int)[k]? := by
  have hr : results 0 [⟨false, [], [], -1, -1, none, none⟩, ⟨false, [], [], 4, 4, none, none⟩, ⟨false, [], [], 9, 9, none, none⟩] =
    .ok [0, 4, 4] := by decide
  obtain ⟨_, k, _, _, h3⟩ := count_stable _ _ hr
  exact ⟨k, fun i hi hl => (h3 i hi hl).1⟩

/-- `count_stable_threads`: three calls return 0, 4 and 4. -/
example : ∃ s, CReach (fun r => r < 1 ∨ r = 4) s ∧ s.log = [4, 4, 0] ∧
    s.log.Pairwise fun later earlier => earlier = 4 → later = 4 := by
  have h0 : CReach (fun r => r < 1 ∨ r = 4) _ := .init
  have h1 := CReach.step _ _ h0 (.load _ 0 rfl)
  have h2 := CReach.step _ _ h1 (.load _ 1 rfl)
  have h3 := CReach.step _ _ h2 (.store _ 0 0 rfl (Or.inl (by decide)))
  have h4 := CReach.step _ _ h3 (.ret _ 0 rfl)
  have h5 := CReach.step _ _ h4 (.store _ 1 4 rfl (Or.inr rfl))
  have h6 := CReach.step _ _ h5 (.ret _ 1 rfl)
  have h7 := CReach.step _ _ h6 (.load _ 0 rfl)
  have h8 := CReach.step _ _ h7 (.ret _ 0 rfl)
  exact ⟨_, h8, rfl, (count_stable_threads 4 (by decide) _ h8).2⟩

end Verif.Smp
