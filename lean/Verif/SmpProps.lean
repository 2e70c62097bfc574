import Verif.SmpLemmas
/-
C50-C53: the number of possible CPUs.
-/
namespace Verif.Smp

/-- The kernel never delivers more than was asked for (the only assumption on read answers in C51's safety half). -/
def Bounded (max : Nat) : Nat → List ReadAns → Prop
  | _, [] => True
  | pos, .bytes l :: rest => l.length ≤ max - pos ∧ Bounded max (pos + l.length) rest
  | pos, _ :: rest => Bounded max pos rest

/-- C51: reading never overruns the buffer nor trips the assertion, whatever the sequence of short reads, interruptions
and errors, and the buffer is NUL-terminated whenever a length is returned. -/
theorem read_safe (max : Nat) (hmax : 0 < max) (hint : (max : Int) ≤ intMax) (reads : List ReadAns) (garbage : Str)
    (hg : garbage.length = max) (hb : Bounded max 0 reads) :
    getMask true reads garbage = .running ∨
    ∃ ret buf, getMask true reads garbage = .ok (ret, buf) ∧ buf.length = max ∧
      (ret = -1 ∨ (0 ≤ ret ∧ ret ≤ max ∧ 0 ∈ buf.drop (min ret.toNat (max - 1)))) := by
  have key : ∀ (reads : List ReadAns) (buf : Str) (total : Nat), buf.length = max → total < max → Bounded max total reads →
      readLoop max reads buf total = .running ∨
      ∃ ret buf', readLoop max reads buf total = .ok (ret, buf') ∧ buf'.length = max ∧
        (ret = -1 ∨ (0 ≤ ret ∧ ret ≤ max ∧ 0 ∈ buf'.drop (min ret.toNat (max - 1)))) := by
    intro reads
    induction reads with
    | nil => intro buf total _ _ _; exact Or.inl rfl
    | cons a reads ih =>
      intro buf total hl ht hb
      cases a with
      | err => exact Or.inr ⟨_, _, rfl, hl, Or.inl rfl⟩
      | eintr => rw [readLoop, if_pos ht]; exact ih buf total hl ht hb
      | bytes l =>
        obtain ⟨h1, h2⟩ := hb
        rw [readLoop, if_neg (by omega), if_neg (by omega)]
        have hlen := put_length buf total l (by omega)
        split
        · rename_i hc
          exact ih _ _ (by omega) hc.1 h2
        · obtain ⟨rest, e1, e2⟩ := finish_spec max hmax hint (put buf total l) (by omega) (total + l.length) (by omega)
          refine Or.inr ⟨_, _, congrArg Res.ok e1, e2, Or.inr ⟨by omega, by omega, ?_⟩⟩
          have hmin : min ((total + l.length : Nat) : Int).toNat (max - 1) = ((put buf total l).take (min (total + l.length) (max - 1))).length := by
            rw [List.length_take]
            omega
          rw [hmin, List.drop_left]
          exact List.mem_cons_self
  unfold getMask
  rw [if_pos rfl, hg]
  exact key reads garbage 0 hg hmax hb

/-- C51: however the kernel splits and interrupts the reading of a file, after enough data answers the buffer holds the
first bytes of the file (at most `max - 1`), a NUL, and the number of bytes read is returned. -/
theorem read_exact (content : Str) (max : Nat) (hmax : 0 < max) (hint : (max : Int) ≤ intMax) (reads : List ReadAns)
    (garbage : Str) (hg : garbage.length = max) (hs : Serves content max 0 reads) (hd : content.length < dataAnswers reads) :
    ∃ rest, getMask true reads garbage = .ok ((min content.length max : Nat), content.take (max - 1) ++ 0 :: rest) := by
  unfold getMask
  rw [if_pos rfl, hg]
  rcases readLoop_serves content max hmax hint reads garbage 0 hg hmax (by omega) (by simp) hs with ⟨_, h⟩ | ⟨rest, h, _⟩
  · omega
  · exact ⟨rest, h⟩

theorem detect_of_mask (s : SysAns) (ret : Int) (buf : Str) (n : Nat) (h1 : getMask s.opened s.reads s.garbage = .ok (ret, buf))
    (hr : 0 < ret) (h2 : maxCpuidFromMask buf ret.toNat = .ok n) : detect s = .ok ((n : Int) + 1) := by
  unfold detect
  rw [h1]
  dsimp only
  rw [if_neg (by omega), h2]
  dsimp only
  rw [if_pos (by omega)]

/-- C50: for every CPU list the kernel can print, however it is delivered, the detected count is exactly one more than the
highest possible CPU id. -/
theorem cpu_count_exact (rs : List (Nat × Nat)) (ha : Ascending rs) (hsmall : ∀ r ∈ rs, (r.2 : Int) < intMax)
    (hfit : (cpuFile rs).length < maskSize) (s : SysAns) (ho : s.opened = true) (hg : s.garbage.length = maskSize)
    (hs : Serves (cpuFile rs) maskSize 0 s.reads) (hd : (cpuFile rs).length < dataAnswers s.reads) :
    ∃ n : Nat, getArrayLen 0 s = .ok n ∧ (∀ c, Possible rs c → c < n) ∧ ∃ c, Possible rs c ∧ n = c + 1 := by
  obtain ⟨hne, hle, hasc⟩ := ha
  have hint : (maskSize : Int) ≤ intMax := by decide
  obtain ⟨rest, hread⟩ := read_exact (cpuFile rs) maskSize (by decide) hint s.reads s.garbage hg hs hd
  obtain ⟨pre, hp1, hp2⟩ := printList_split rs hne
  have hlast := List.getLast_mem hne
  have hmin : min (cpuFile rs).length maskSize = (cpuFile rs).length := by omega
  have htake : (cpuFile rs).take (maskSize - 1) = cpuFile rs := List.take_of_length_le (by omega)
  rw [hmin, htake] at hread
  have hfile : cpuFile rs = pre ++ (decimal (rs.getLast hne).2 ++ [10]) := by
    unfold cpuFile; rw [hp1, List.append_assoc]
  have hpos : 0 < (cpuFile rs).length := by simp [cpuFile]
  have hparse := parse_split pre (decimal (rs.getLast hne).2) rest (rs.getLast hne).2 (decimal_digits _) (decimal_ne_nil _)
    (digitsVal_decimal _) (hsmall _ hlast) hp2
  rw [← hfile] at hparse
  have hdet := detect_of_mask s _ _ _ (by rw [ho]; exact hread) (by omega) hparse
  refine ⟨(rs.getLast hne).2 + 1, ?_, ?_, (rs.getLast hne).2, ⟨_, hlast, hle _ hlast, Nat.le_refl _⟩, rfl⟩
  · unfold getArrayLen updateCache
    rw [if_pos rfl, hdet]
    dsimp only
    rw [if_neg (by omega)]
    rfl
  · rintro c ⟨r, hr, h1, h2⟩
    have hrs : rs.dropLast ++ [rs.getLast hne] = rs := List.dropLast_concat_getLast hne
    rw [← hrs] at hr hasc
    rcases List.mem_append.1 hr with hr | hr
    · have := (List.pairwise_append.1 hasc).2.2 r hr _ (List.mem_singleton.2 rfl)
      have := hle _ hlast
      omega
    · rw [List.mem_singleton] at hr
      subst hr
      omega

/-! ### C53: fallback -/

theorem strtol_digits (ds : Str) (hne : ds ≠ []) (hd : ∀ d ∈ ds, isDigit d = true) :
    strtol ds = (if longMax < digitsVal ds then longMax else digitsVal ds, ds.length) := by
  unfold strtol
  have := scan_digits ds hne hd [] (fun _ _ h => by cases h)
  rw [List.append_nil] at this
  rw [this]
  dsimp only
  rw [if_neg hne]
  simp only [Bool.false_eq_true, if_false, Nat.zero_add, Prod.mk.injEq, and_true]
  split
  · rfl
  · rw [if_neg (by unfold longMax; omega)]

theorem takeWhile_eq_all (s : Str) (h : (s.takeWhile isDigit).length = s.length) : ∀ d ∈ s, isDigit d = true := by
  induction s with
  | nil => intro d hd; cases hd
  | cons a s ih =>
    rw [List.takeWhile_cons] at h
    split at h
    · rename_i ha
      intro d hd
      rcases List.mem_cons.1 hd with rfl | hd
      · exact ha
      · exact ih (by simpa using h) d hd
    · simp at h

/-- For plain names the test on a directory entry accepts exactly the `cpuN` directories. -/
theorem dirStep_spec (e : DirEnt) (hp : PlainName e) (m : Int) :
    ((∀ n, IsCpuDir e n → longMax ≤ n) ∧ dirStep m e = m) ∨
    ∃ n : Nat, IsCpuDir e n ∧ (n : Int) < longMax ∧ dirStep m e = if (n : Int) > m then (n : Int) else m := by
  unfold dirStep
  by_cases h1 : e.isDir && e.name.take 3 == [99, 112, 117]
  · rw [if_pos h1]
    simp only [Bool.and_eq_true, beq_iff_eq] at h1
    have hname : e.name = [99, 112, 117] ++ e.name.drop 3 := by
      conv => lhs; rw [← List.take_append_drop 3 e.name, h1.2]
    generalize e.name.drop 3 = ds at hname
    by_cases hds : ds ≠ [] ∧ ∀ d ∈ ds, isDigit d = true
    · rw [strtol_digits ds hds.1 hds.2]
      have hpos := List.length_pos_iff.2 hds.1
      have hcpu : IsCpuDir e (digitsVal ds) := ⟨h1.1, ds, hname, hds.1, hds.2, rfl⟩
      dsimp only
      by_cases hbig : longMax < (digitsVal ds : Int)
      · rw [if_pos hbig, if_neg (by intro h; exact absurd h.1 (Int.lt_irrefl _))]
        refine Or.inl ⟨?_, rfl⟩
        rintro n ⟨_, ds', h3, _, _, rfl⟩
        rw [hname] at h3
        have : ds = ds' := List.append_cancel_left h3
        subst this
        omega
      · rw [if_neg hbig]
        by_cases heq : (digitsVal ds : Int) = longMax
        · rw [if_neg (by intro h; omega)]
          refine Or.inl ⟨?_, rfl⟩
          rintro n ⟨_, ds', h3, _, _, rfl⟩
          rw [hname] at h3
          have : ds = ds' := List.append_cancel_left h3
          subst this
          omega
        · rw [if_pos ⟨by omega, by omega, rfl⟩]
          exact Or.inr ⟨_, hcpu, by omega, rfl⟩
    · have hno : ∀ n, ¬ IsCpuDir e n := by
        rintro n ⟨_, ds', h3, h4, h5, _⟩
        rw [hname] at h3
        have : ds = ds' := List.append_cancel_left h3
        subst this
        exact hds ⟨h4, h5⟩
      refine Or.inl ⟨fun n hn => absurd hn (hno n), ?_⟩
      rw [if_neg]
      rintro ⟨_, h4, h5⟩
      apply hds
      cases ds with
      | nil => exact absurd (by decide : (strtol []).2 = 0) h4
      | cons b rest =>
        obtain ⟨p1, p2, p3⟩ := hp b rest hname
        have hscan : scan (b :: rest) = (false, (b :: rest).takeWhile isDigit, 0) := by
          unfold scan
          rw [List.takeWhile_cons, List.dropWhile_cons, p1]
          simp only [Bool.false_eq_true, if_false]
          split
          · rename_i h; cases h; exact absurd rfl p3
          · rename_i h; cases h; exact absurd rfl p2
          · rfl
        refine ⟨by simp, takeWhile_eq_all _ ?_⟩
        unfold strtol at h4 h5
        rw [hscan] at h4 h5
        dsimp only at h4 h5
        by_cases hnil : (b :: rest).takeWhile isDigit = []
        · rw [if_pos hnil] at h4; exact absurd rfl h4
        · rw [if_neg hnil] at h5
          simpa using h5
  · rw [if_neg h1]
    refine Or.inl ⟨?_, rfl⟩
    rintro n ⟨a1, ds, a2, _⟩
    exact absurd (by rw [a1, a2]; rfl) h1

theorem foldl_dir (l : List DirEnt) : ∀ (m : Int), -1 ≤ m → (∀ e ∈ l, PlainName e) →
    (∀ e ∈ l, ∀ n, IsCpuDir e n → (n : Int) < longMax) →
    m ≤ l.foldl dirStep m ∧ (∀ e ∈ l, ∀ n, IsCpuDir e n → (n : Int) ≤ l.foldl dirStep m) ∧
    (l.foldl dirStep m = m ∨ ∃ e ∈ l, ∃ n, IsCpuDir e n ∧ l.foldl dirStep m = n) := by
  induction l with
  | nil => intro m _ _ _; exact ⟨Int.le_refl _, fun e he => (by cases he), Or.inl rfl⟩
  | cons e l ih =>
    intro m hm hp hb
    have huniq : ∀ n n', IsCpuDir e n → IsCpuDir e n' → n = n' := by
      rintro n n' ⟨_, d, h1, _, _, rfl⟩ ⟨_, d', h2, _, _, rfl⟩
      rw [h1] at h2
      rw [List.append_cancel_left h2]
    rw [List.foldl_cons]
    rcases dirStep_spec e (hp e (by simp)) m with ⟨h1, h2⟩ | ⟨n, h1, h2, h3⟩
    · rw [h2]
      obtain ⟨a1, a2, a3⟩ := ih m hm (fun x hx => hp x (by simp [hx])) (fun x hx => hb x (by simp [hx]))
      refine ⟨a1, ?_, ?_⟩
      · intro x hx n hn
        rcases List.mem_cons.1 hx with rfl | hx
        · have := h1 n hn
          have := hb x (by simp) n hn
          omega
        · exact a2 x hx n hn
      · rcases a3 with a3 | ⟨x, hx, n, a3⟩
        · exact Or.inl a3
        · exact Or.inr ⟨x, by simp [hx], n, a3⟩
    · obtain ⟨a1, a2, a3⟩ := ih (dirStep m e) (by rw [h3]; split <;> omega) (fun x hx => hp x (by simp [hx]))
        (fun x hx => hb x (by simp [hx]))
      have hge : m ≤ dirStep m e ∧ (n : Int) ≤ dirStep m e := by rw [h3]; split <;> omega
      refine ⟨by omega, ?_, ?_⟩
      · intro x hx k hk
        rcases List.mem_cons.1 hx with rfl | hx
        · rw [huniq k n hk h1]; omega
        · exact a2 x hx k hk
      · rcases a3 with a3 | ⟨x, hx, k, a3⟩
        · rw [a3, h3]
          split
          · exact Or.inr ⟨e, by simp, n, h1, rfl⟩
          · exact Or.inl rfl
        · exact Or.inr ⟨x, by simp [hx], k, a3⟩

/-- C53, partial (full statement: for every directory content and all answers; missing: names with a sign or white space
after "cpu", numbers of INT_MAX or more, answers that change between the two evaluations - see the negative theorems below):
with answers that do not change between the two evaluations, the fallback is the maximum of `sysconf` and the
highest `cpuN` directory number plus one, all other directory entries being ignored. -/
theorem fallback_is_max_partial (sc : Int) (hsc : -1 ≤ sc ∧ sc ≤ intMax) (l : List DirEnt) (hp : ∀ e ∈ l, PlainName e)
    (hb : ∀ e ∈ l, ∀ n, IsCpuDir e n → (n : Int) < intMax) :
    ∃ r, fallback sc sc (some l) (some l) = .ok r ∧ sc ≤ r ∧ 0 ≤ r ∧ (∀ e ∈ l, ∀ n, IsCpuDir e n → (n : Int) + 1 ≤ r) ∧
      (r = sc ∨ (∃ e ∈ l, ∃ n : Nat, IsCpuDir e n ∧ r = (n : Int) + 1) ∨ (r = 0 ∧ ∀ e ∈ l, ∀ n, ¬ IsCpuDir e n)) := by
  obtain ⟨h1, h2, h3⟩ := foldl_dir l (-1) (by omega) hp (fun e he n hn => by
    have := hb e he n hn
    unfold intMax at this
    unfold longMax
    omega)
  have hlt : l.foldl dirStep (-1) < intMax := by
    rcases h3 with h3 | ⟨e, he, n, hn, h3⟩
    · rw [h3]; decide
    · rw [h3]; exact hb e he n hn
  have hmax : maxCpuidFromSysfs (some l) = l.foldl dirStep (-1) := by
    unfold maxCpuidFromSysfs
    dsimp only
    split
    · omega
    · rfl
  unfold fallback
  simp only [hmax]
  rw [if_neg (by omega)]
  by_cases hc : sc > l.foldl dirStep (-1) + 1
  · rw [if_pos hc]
    have ht : toInt32 sc = sc := by
      unfold toInt32
      unfold intMax at hsc
      apply Int.bmod_eq_of_le <;> omega
    rw [ht]
    refine ⟨_, rfl, Int.le_refl _, by omega, fun e he n hn => ?_, Or.inl rfl⟩
    have := h2 e he n hn
    omega
  · rw [if_neg hc, if_neg (by omega)]
    refine ⟨_, rfl, by omega, by omega, fun e he n hn => ?_, Or.inr ?_⟩
    · have := h2 e he n hn
      omega
    · rcases h3 with h3 | ⟨e, he, n, hn, h3⟩
      · refine Or.inr ⟨by omega, fun e he n hn => ?_⟩
        have := h2 e he n hn
        omega
      · exact Or.inl ⟨e, he, n, hn, by omega⟩

/-- C53: the fallback decides when the file cannot be opened. -/
theorem fallback_if_no_file (s : SysAns) (h : s.opened = false) :
    detect s = fallback s.sysconf1 s.sysconf2 s.dir1 s.dir2 := by
  unfold detect getMask
  rw [h]
  rfl

/-- Bytes delivered by a sequence of answers. -/
def delivered : List ReadAns → Nat
  | [] => 0
  | .bytes l :: rest => l.length + delivered rest
  | _ :: rest => delivered rest

/-- C51, C53: a read error in the middle of the file selects the fallback. -/
theorem fallback_if_read_error (s : SysAns) (ho : s.opened = true) (pre post : List ReadAns)
    (hr : s.reads = pre ++ .err :: post) (hnoerr : .err ∉ pre) (hne : .bytes [] ∉ pre) (hlt : delivered pre < s.garbage.length) :
    detect s = fallback s.sysconf1 s.sysconf2 s.dir1 s.dir2 := by
  have key : ∀ (pre : List ReadAns) (buf : Str) (total : Nat), .err ∉ pre → .bytes [] ∉ pre →
      total + delivered pre < s.garbage.length →
      ∃ buf', readLoop s.garbage.length (pre ++ .err :: post) buf total = .ok (-1, buf') := by
    intro pre
    induction pre with
    | nil => intro buf total _ _ _; exact ⟨_, rfl⟩
    | cons a pre ih =>
      intro buf total h1 h2 h3
      cases a with
      | err => exact absurd List.mem_cons_self h1
      | eintr =>
        have h3 : total + delivered pre < s.garbage.length := h3
        rw [List.cons_append, readLoop, if_pos (by omega)]
        exact ih buf total (fun h => h1 (List.mem_cons_of_mem _ h)) (fun h => h2 (List.mem_cons_of_mem _ h)) h3
      | bytes l =>
        have h3 : total + (l.length + delivered pre) < s.garbage.length := h3
        have hl : l ≠ [] := by rintro rfl; exact h2 List.mem_cons_self
        rw [List.cons_append, readLoop, if_neg (by omega), if_neg (by omega), if_pos ⟨by omega, hl⟩]
        exact ih _ _ (fun h => h1 (List.mem_cons_of_mem _ h)) (fun h => h2 (List.mem_cons_of_mem _ h)) (by omega)
  obtain ⟨buf', hk⟩ := key pre s.garbage 0 hnoerr hne (by omega)
  unfold detect getMask
  rw [ho, if_pos rfl, hr, hk]
  rfl

theorem takeWhile_nodigit (s : Str) (h : ∀ b ∈ s, isDigit b = false) : s.takeWhile isDigit = [] := by
  cases s with
  | nil => rfl
  | cons a s => rw [List.takeWhile_cons, h a (by simp)]; rfl

theorem strtoul_nodigit (s : Str) (h : ∀ b ∈ s, isDigit b = false) : (strtoul s).2 = 0 := by
  have hs : (scan s).2.1 = [] := by
    unfold scan
    have hsub : ∀ b ∈ s.dropWhile isSpace, isDigit b = false := fun b hb => h b ((List.dropWhile_sublist _).mem hb)
    dsimp only
    split
    · rename_i r hr
      exact takeWhile_nodigit r fun b hb => hsub b (by rw [hr]; simp [hb])
    · rename_i r hr
      exact takeWhile_nodigit r fun b hb => hsub b (by rw [hr]; simp [hb])
    · exact takeWhile_nodigit _ hsub
  unfold strtoul
  rw [show scan s = ((scan s).1, (scan s).2.1, (scan s).2.2) from rfl, hs]
  rfl

theorem findStart_le (buf : Str) (i : Nat) : findStart buf i ≤ i + 1 := by
  induction i with
  | zero => simp [findStart]
  | succ i ih => rw [findStart]; split <;> omega

/-- C53: an empty file, or one without any digit, selects the fallback. -/
theorem fallback_if_no_digits (s : SysAns) (ho : s.opened = true) (content : Str) (hn : ∀ b ∈ content, isDigit b = false)
    (hfit : content.length < maskSize) (hg : s.garbage.length = maskSize)
    (hs : Serves content maskSize 0 s.reads) (hd : content.length < dataAnswers s.reads) :
    detect s = fallback s.sysconf1 s.sysconf2 s.dir1 s.dir2 := by
  obtain ⟨rest, hread⟩ := read_exact content maskSize (by decide) (by decide) s.reads s.garbage hg hs hd
  have hmin : min content.length maskSize = content.length := by omega
  have htake : content.take (maskSize - 1) = content := List.take_of_length_le (by omega)
  rw [hmin, htake] at hread
  unfold detect
  rw [ho, hread]
  dsimp only
  by_cases h0 : content.length = 0
  · rw [if_pos (by omega)]
  · rw [if_neg (by omega)]
    have hparse : maxCpuidFromMask (content ++ 0 :: rest) ((content.length : Nat) : Int).toNat = .ok (-1) := by
      unfold maxCpuidFromMask
      rw [if_neg (by omega)]
      have hle := findStart_le (content ++ 0 :: rest) (((content.length : Nat) : Int).toNat - 1)
      generalize findStart (content ++ 0 :: rest) (((content.length : Nat) : Int).toNat - 1) = a at hle
      have hal : a ≤ content.length := by omega
      have hdrop : (content ++ 0 :: rest).drop a = content.drop a ++ 0 :: rest := List.drop_append_of_le_length hal
      unfold cstr
      rw [hdrop, if_pos (by simp)]
      dsimp only
      rw [if_neg]
      rintro ⟨h1, _⟩
      apply h1
      apply strtoul_nodigit
      intro b hb
      have hb' := (List.takeWhile_sublist _).mem hb
      have hnz : b ≠ 0 := by
        have hall : ∀ (l : Str), b ∈ l.takeWhile (· != 0) → b ≠ 0 := by
          intro l
          induction l with
          | nil => intro h; cases h
          | cons x l ih =>
            intro h
            rw [List.takeWhile_cons] at h
            split at h
            · rename_i hx
              rcases List.mem_cons.1 h with rfl | h
              · simpa using hx
              · exact ih h
            · cases h
        exact hall _ hb
      clear hb'
      have hmem : b ∈ content.drop a := by
        have hall : ∀ (l : Str), b ∈ (l ++ 0 :: rest).takeWhile (· != 0) → b ∈ l := by
          intro l
          induction l with
          | nil => intro h; simp at h
          | cons x l ih =>
            intro h
            rw [List.cons_append, List.takeWhile_cons] at h
            split at h
            · rcases List.mem_cons.1 h with rfl | h
              · exact List.mem_cons_self
              · exact List.mem_cons_of_mem _ (ih h)
            · cases h
        exact hall _ hb
      exact hn b ((List.drop_sublist _ _).mem hmem)
    rw [hparse]
    rfl

/-! ### C52: the cache -/

/-- Results of successive calls, starting with the given cache content. -/
def results (cache : Int) : List SysAns → Res (List Int)
  | [] => .ok []
  | s :: rest =>
    match getArrayLen cache s with
    | .ok r =>
      match results r rest with
      | .ok l => .ok (r :: l)
      | x => x
    | .assertFail => .assertFail
    | .ub => .ub
    | .running => .running

theorem results_cons {cache : Int} {s : SysAns} {rest : List SysAns} {out : List Int} (h : results cache (s :: rest) = .ok out) :
    ∃ r l, out = r :: l ∧ getArrayLen cache s = .ok r ∧ results r rest = .ok l := by
  rw [results] at h
  split at h
  · rename_i r hr
    split at h
    · rename_i l hl
      cases h
      exact ⟨r, l, rfl, hr, hl⟩
    · rename_i x hx
      exact absurd h (hx out)
  all_goals cases h

theorem results_pos {cache : Int} (hc : 0 < cache) : ∀ (ss : List SysAns) (out : List Int), results cache ss = .ok out →
    ∀ r ∈ out, r = cache := by
  intro ss
  induction ss with
  | nil => intro out h; cases h; intro r hr; cases hr
  | cons s ss ih =>
    intro out h
    obtain ⟨r, l, rfl, h1, h2⟩ := results_cons h
    unfold getArrayLen at h1
    rw [if_neg (by omega)] at h1
    cases h1
    intro x hx
    rcases List.mem_cons.1 hx with rfl | hx
    · rfl
    · exact ih l h2 x hx

/-- C52: in a process whose calls get arbitrary system answers, no call returns a negative number; each call following only
zero results runs the detection again and returns its value (0 if it fails); and from the first positive result on, every
call returns that same value. -/
theorem count_stable : ∀ (ss : List SysAns) (out : List Int), results 0 ss = .ok out →
    out.length = ss.length ∧ ∃ k, (∀ i, i < k → out[i]? = some 0 ∨ out.length ≤ i) ∧
      (∀ i s, i ≤ k → ss[i]? = some s → ∃ r, detect s = .ok r ∧ out[i]? = some (if r < 1 then 0 else r)) ∧
      (∀ i, k ≤ i → i < out.length → out[i]? = out[k]? ∧ ∃ r, out[k]? = some r ∧ 0 < r) := by
  intro ss
  induction ss with
  | nil =>
    intro out h
    cases h
    exact ⟨rfl, 0, fun i hi => absurd hi (by omega), fun i s _ h => by simp at h, fun i _ h => by simp at h⟩
  | cons s ss ih =>
    intro out h
    obtain ⟨r, l, rfl, h1, h2⟩ := results_cons h
    have hdet : ∃ d, detect s = .ok d ∧ r = if d < 1 then 0 else d := by
      unfold getArrayLen updateCache at h1
      rw [if_pos rfl] at h1
      split at h1
      · rename_i d hd
        cases h1
        exact ⟨d, hd, rfl⟩
      all_goals cases h1
    obtain ⟨d, hd, hr⟩ := hdet
    by_cases hr0 : r = 0
    · rw [hr0] at h2
      obtain ⟨hlen, k, k1, k2, k3⟩ := ih l h2
      refine ⟨by simp [hlen], k + 1, ?_, ?_, ?_⟩
      · intro i hi
        cases i with
        | zero => left; simp [hr0]
        | succ i =>
          rcases k1 i (by omega) with h | h
          · left; simpa using h
          · right; simp; omega
      · intro i s' hi hs'
        cases i with
        | zero =>
          simp only [List.getElem?_cons_zero, Option.some.injEq] at hs'
          subst hs'
          exact ⟨d, hd, by simp [hr]⟩
        | succ i =>
          obtain ⟨x, hx, hx2⟩ := k2 i s' (by omega) (by simpa using hs')
          exact ⟨x, hx, by simpa using hx2⟩
      · intro i hi hil
        cases i with
        | zero => omega
        | succ i =>
          have := k3 i (by omega) (by simpa using hil)
          simpa using this
    · have hpos : 0 < r := by
        rw [hr] at hr0 ⊢
        split at hr0
        · exact absurd rfl hr0
        · split <;> omega
      have hall := results_pos hpos ss l h2
      have hlen : ∀ (ss : List SysAns) (c : Int) (out : List Int), results c ss = .ok out → out.length = ss.length := by
        intro ss
        induction ss with
        | nil => intro c out h; cases h; rfl
        | cons s ss ih2 =>
          intro c out h
          obtain ⟨r, l, rfl, _, h2⟩ := results_cons h
          simp [ih2 r l h2]
      refine ⟨by simp [hlen ss r l h2], 0, fun i hi => absurd hi (by omega), ?_, ?_⟩
      · intro i s' hi hs'
        have : i = 0 := by omega
        subst this
        simp only [List.getElem?_cons_zero, Option.some.injEq] at hs'
        subst hs'
        exact ⟨d, hd, by simp [hr]⟩
      · intro i _ hil
        refine ⟨?_, r, by simp, hpos⟩
        cases i with
        | zero => rfl
        | succ i =>
          have hil' : i < l.length := by simpa using hil
          simp only [List.getElem?_cons_succ, List.getElem?_cons_zero]
          rw [List.getElem?_eq_getElem hil', hall _ (List.getElem_mem hil')]

/-! ### Where the statements stop being true (DESIGN F9, F21) -/

theorem printList_append (a b : List (Nat × Nat)) (ha : a ≠ []) (hb : b ≠ []) :
    printList (a ++ b) = printList a ++ 44 :: printList b := by
  induction a with
  | nil => exact absurd rfl ha
  | cons r a ih =>
    cases a with
    | nil =>
      cases b with
      | nil => exact absurd rfl hb
      | cons r2 b => show printRange r ++ [44] ++ printList (r2 :: b) = _; simp [printList]
    | cons r2 a =>
      show printRange r ++ [44] ++ printList (r2 :: a ++ b) = (printRange r ++ [44] ++ printList (r2 :: a)) ++ _
      rw [ih (by simp)]
      simp only [List.append_assoc, List.cons_append, List.nil_append]

theorem decimal_len4 {n : Nat} (h1 : 1000 ≤ n) (h2 : n < 10000) : (decimal n).length = 4 := by
  rw [decimal, if_neg (by omega), decimal, if_neg (by omega), decimal, if_neg (by omega), decimal, if_pos (by omega)]
  rfl

/-- CPUs 1000, 1002, ..., one range each. -/
def evens (k : Nat) : List (Nat × Nat) := (List.range k).map fun j => (1000 + 2 * j, 1000 + 2 * j)

theorem evens_succ (k : Nat) : evens (k + 1) = evens k ++ [(1000 + 2 * k, 1000 + 2 * k)] := by
  unfold evens
  rw [List.range_succ, List.map_append]
  rfl

theorem evens_len (k : Nat) (hk : k < 4000) : (printList ((0, 0) :: evens k)).length = 5 * k + 1 := by
  induction k with
  | zero =>
    show (printRange (0, 0)).length = 1
    unfold printRange
    rw [if_pos rfl, decimal, if_pos (by omega)]
    rfl
  | succ k ih =>
    rw [evens_succ, ← List.cons_append, printList_append _ _ (by simp) (by simp), List.length_append, ih (by omega)]
    show 5 * k + 1 + (printRange _ ).length.succ = _
    unfold printRange
    rw [if_pos rfl, decimal_len4 (by dsimp only; omega) (by dsimp only; omega)]
    omega

theorem evens_ascending (k : Nat) : Ascending ((0, 0) :: evens k) := by
  refine ⟨by simp, ?_, ?_⟩
  · intro r hr
    rcases List.mem_cons.1 hr with rfl | hr
    · exact Nat.le_refl _
    · unfold evens at hr
      rw [List.mem_map] at hr
      obtain ⟨j, _, rfl⟩ := hr
      exact Nat.le_refl _
  · rw [List.pairwise_cons]
    refine ⟨?_, ?_⟩
    · intro r hr
      unfold evens at hr
      rw [List.mem_map] at hr
      obtain ⟨j, _, rfl⟩ := hr
      show 0 + 1 < 1000 + 2 * j
      omega
    · unfold evens
      rw [List.pairwise_map]
      refine List.Pairwise.imp ?_ List.pairwise_lt_range
      intro a b hab
      show 1000 + 2 * a + 1 < 1000 + 2 * b
      omega

/-- The C50 statement needs the list to fit the 4096-byte buffer: for this list of 820 CPUs (the highest one is 2636) the
last number is cut in the middle and the detected count is 264, so arrays of that length cannot be indexed by every
possible CPU id. -/
theorem long_mask_undercounts : ∃ rs s, Ascending rs ∧ (∀ r ∈ rs, (r.2 : Int) < intMax) ∧ s.opened = true ∧
    s.garbage.length = maskSize ∧ Serves (cpuFile rs) maskSize 0 s.reads ∧
    getArrayLen 0 s = .ok 264 ∧ ∃ c, Possible rs c ∧ 264 ≤ c := by
  let rs := (0, 0) :: evens 819
  have hasc := evens_ascending 819
  have hlen : (printList rs).length = 4096 := evens_len 819 (by omega)
  have hfile : (cpuFile rs).length = 4097 := by unfold cpuFile; rw [List.length_append, hlen]; rfl
  let s : SysAns := ⟨true, [.bytes ((cpuFile rs).take 4096)], List.replicate 4096 0, 0, 0, none, none⟩
  have hpre : (cpuFile rs).take 4095 = (printList ((0, 0) :: evens 818) ++ [44]) ++ [50, 54, 51] := by
    have h2636 : printList [(1000 + 2 * 818, 1000 + 2 * 818)] = [50, 54, 51, 54] := by
      show printRange _ = _
      unfold printRange
      rw [if_pos rfl, decimal, if_neg (by omega), decimal, if_neg (by omega), decimal, if_neg (by omega), decimal, if_pos (by omega)]
      rfl
    have h : cpuFile rs = ((printList ((0, 0) :: evens 818) ++ [44]) ++ [50, 54, 51]) ++ [54, 10] := by
      show printList ((0, 0) :: evens 819) ++ [10] = _
      rw [evens_succ 818, ← List.cons_append, printList_append _ _ (by simp) (by simp), h2636]
      simp only [List.append_assoc, List.cons_append, List.nil_append]
    rw [h, List.take_left']
    simp only [List.length_append, evens_len 818 (by omega)]
    rfl
  refine ⟨rs, s, hasc, ?_, rfl, List.length_replicate, ?_, ?_, 2636, ?_, by omega⟩
  · intro r hr
    rcases List.mem_cons.1 hr with rfl | hr
    · decide
    · unfold evens at hr
      rw [List.mem_map] at hr
      obtain ⟨j, hj, rfl⟩ := hr
      rw [List.mem_range] at hj
      unfold intMax
      dsimp only
      omega
  · refine ⟨by rw [List.drop_zero]; exact List.take_prefix _ _, ?_, fun h => ?_, trivial⟩
    · rw [List.length_take]; unfold maskSize; omega
    · have := congrArg List.length h
      rw [List.length_take, hfile] at this
      cases this
  · have hread : getMask true s.reads s.garbage = .ok (4096, (cpuFile rs).take 4095 ++ 0 :: []) := by
      have hs : Serves (cpuFile rs) 4096 0 s.reads := by
        refine ⟨by rw [List.drop_zero]; exact List.take_prefix _ _, ?_, fun h => ?_, trivial⟩
        · rw [List.length_take]; omega
        · have := congrArg List.length h
          rw [List.length_take, hfile] at this
          cases this
      unfold getMask
      rw [if_pos rfl, show s.garbage.length = 4096 from List.length_replicate]
      rcases readLoop_serves (cpuFile rs) 4096 (by decide) (by decide) s.reads s.garbage 0 List.length_replicate (by decide)
        (by omega) (by simp) hs with ⟨h, _⟩ | ⟨rest, h, hl⟩
      · exfalso
        rw [readLoop, if_neg (by rw [List.length_take]; omega), if_neg (by rw [List.length_take]; omega),
          if_neg (by rintro ⟨h, _⟩; rw [List.length_take, hfile] at h; omega)] at h
        cases h
      · rw [h, hfile]
        have : rest = [] := by
          rw [List.length_append, List.length_take, hfile, List.length_cons] at hl
          exact List.eq_nil_of_length_eq_zero (by omega)
        rw [this]
        rfl
    have hpl : (printList ((0, 0) :: evens 818) ++ [44]).length = 4092 := by
      rw [List.length_append, evens_len 818 (by omega)]; rfl
    have hparse : maxCpuidFromMask ((cpuFile rs).take 4095 ++ 0 :: []) 4096 = .ok 263 := by
      rw [hpre]
      generalize hq : printList ((0, 0) :: evens 818) = q at hpl
      have hql : q.length = 4091 := by simpa using hpl
      have hstart : findStart (q ++ [44] ++ [50, 54, 51] ++ [0]) (4096 - 1) = 4092 := by
        apply findStart_spec
        · omega
        · intro j h1 h2
          rw [List.append_assoc, getD_mid _ _ _ (by omega), hpl]
          obtain rfl | rfl | rfl | rfl : j = 4092 ∨ j = 4093 ∨ j = 4094 ∨ j = 4095 := by omega
          all_goals decide
        · refine Or.inr ⟨by omega, ?_⟩
          rw [List.append_assoc, List.append_assoc, getD_mid _ _ _ (by omega), hql]
          decide
      unfold maxCpuidFromMask
      rw [if_neg (by omega), hstart, ← hpl, cstr_of_split _ _ _ (by decide)]
      decide
    unfold getArrayLen updateCache
    rw [if_pos rfl, detect_of_mask s 4096 _ 263 hread (by omega) hparse]
    rfl
  · refine ⟨(2636, 2636), ?_, Nat.le_refl _, Nat.le_refl _⟩
    show (2636, 2636) ∈ (0, 0) :: evens 819
    rw [evens_succ 818]
    simp

/-- `__max` evaluates the chosen side twice: if `sysconf` answers 8 and then 2, the result is 2 although the directory
shows CPU 6 (DESIGN F21). -/
theorem fallback_double_evaluation :
    fallback 8 2 (some [⟨true, [99, 112, 117, 54]⟩]) (some [⟨true, [99, 112, 117, 54]⟩]) = .ok 2 := by decide

/-- A directory `cpu2147483647` overflows the addition in the fallback (DESIGN F9). -/
theorem fallback_overflow :
    fallback 1 1 (some [⟨true, [99, 112, 117, 50, 49, 52, 55, 52, 56, 51, 54, 52, 55]⟩])
      (some [⟨true, [99, 112, 117, 50, 49, 52, 55, 52, 56, 51, 54, 52, 55]⟩]) = .ub := by decide

/-- One directory with a number above `INT_MAX` hides all others. -/
theorem fallback_large_hides_all :
    fallback 1 1 (some [⟨true, [99, 112, 117, 55]⟩, ⟨true, [99, 112, 117, 50, 49, 52, 55, 52, 56, 51, 54, 52, 56]⟩])
      (some [⟨true, [99, 112, 117, 55]⟩, ⟨true, [99, 112, 117, 50, 49, 52, 55, 52, 56, 51, 54, 52, 56]⟩]) = .ok 1 := by decide

/-- The `PlainName` condition is needed: `cpu+9` and `cpu 9` count as CPU 9. -/
theorem fallback_accepts_sign_and_space :
    maxCpuidFromSysfs (some [⟨true, [99, 112, 117, 43, 57]⟩]) = 9 ∧ maxCpuidFromSysfs (some [⟨true, [99, 112, 117, 32, 57]⟩]) = 9 := by
  decide

/-! ### Examples -/

/-- "0-3,8-11\n" in three pieces with interruptions. -/
def exSys : SysAns :=
  { opened := true
    reads := [.eintr, .bytes [48, 45], .bytes [51, 44], .eintr, .bytes [56, 45, 49, 49, 10], .bytes [], .bytes [], .bytes [],
      .bytes [], .bytes [], .bytes [], .bytes [], .bytes []]
    garbage := List.replicate 4096 55, sysconf1 := 3, sysconf2 := 3, dir1 := none, dir2 := none }

theorem exFile : cpuFile [(0, 3), (8, 11)] = [48, 45, 51, 44, 56, 45, 49, 49, 10] := by
  have d : ∀ n, n < 10 → decimal n = [UInt8.ofNat (48 + n)] := fun n h => by rw [decimal, if_pos h]
  unfold cpuFile printList printList printRange
  rw [if_neg (by decide), if_neg (by decide), d 0 (by omega), d 3 (by omega), d 8 (by omega), decimal, if_neg (by omega), d _ (by omega)]
  rfl

/-- C50, C51: the hypotheses hold for "0-3,8-11". -/
example : Ascending [(0, 3), (8, 11)] ∧ (∀ r ∈ [(0, 3), (8, 11)], ((r : Nat × Nat).2 : Int) < intMax) ∧
    (cpuFile [(0, 3), (8, 11)]).length < maskSize ∧ exSys.garbage.length = maskSize ∧
    Serves (cpuFile [(0, 3), (8, 11)]) maskSize 0 exSys.reads ∧
    (cpuFile [(0, 3), (8, 11)]).length < dataAnswers exSys.reads := by
  rw [exFile]
  refine ⟨⟨by simp, by decide, by simp⟩, by decide, by decide, List.length_replicate, ?_, by decide⟩
  simp only [Serves, exSys, maskSize]
  decide

/-- C53: entries cpu0, cpu12, cpufreq, cpu7 (a file), sysconf 4: the answer is 13. -/
example : fallback 4 4
    (some [⟨true, [99, 112, 117, 48]⟩, ⟨true, [99, 112, 117, 49, 50]⟩, ⟨true, [99, 112, 117, 102, 114]⟩, ⟨false, [99, 112, 117, 57, 57]⟩])
    (some [⟨true, [99, 112, 117, 48]⟩, ⟨true, [99, 112, 117, 49, 50]⟩, ⟨true, [99, 112, 117, 102, 114]⟩, ⟨false, [99, 112, 117, 57, 57]⟩])
    = .ok 13 := by decide

/-- C52: detection fails twice (no file, no directory, sysconf -1), then gives 4, then the system would say 9. -/
example : results 0 [⟨false, [], [], -1, -1, none, none⟩, ⟨false, [], [], -1, -1, none, none⟩, ⟨false, [], [], 4, 4, none, none⟩,
    ⟨false, [], [], 9, 9, none, none⟩] = .ok [0, 0, 4, 4] := by decide

end Verif.Smp
