import Verif.RangeSysSpec
import Verif.MempoolInv
import Verif.MempoolCreateProps
/-
Steps of `Verif.RangeSys.rangeCreateSys`.
-/
namespace Verif.RangeSys
open Verif Verif.Mempool

variable [Abi]

omit [Abi] in
theorem page_dvd {pg x p : Nat} (hd : pg ∣ x) (hp : 0 < pg) : p * pg < x + pg ↔ p * pg ≤ x := by
  obtain ⟨q, rfl⟩ := hd
  rw [show pg * q + pg = (q + 1) * pg by rw [Nat.add_mul, Nat.mul_comm]; omega, Nat.mul_lt_mul_right hp,
    Nat.mul_comm pg q, Nat.mul_le_mul_right_iff hp]
  omega

theorem ofNat_toNat {a : Nat} (h : a < 2 ^ (8 * wb)) : (BitVec.ofNat (8 * wb) a).toNat = a := by
  rw [BitVec.toNat_ofNat, Nat.mod_eq_of_lt h]

theorem mulW {a b : Nat} (h : a * b < 2 ^ (8 * wb)) :
    (BitVec.ofNat (8 * wb) a * BitVec.ofNat (8 * wb) b).toNat = a * b := by
  rw [BitVec.toNat_mul, BitVec.toNat_ofNat, BitVec.toNat_ofNat, ← Nat.mul_mod, Nat.mod_eq_of_lt h]

theorem stride_mul_le (c : Config) : c.stride * c.ncpu ≤ rangeLen c := by
  unfold rangeLen
  simp only []
  split <;> split <;> omega

theorem rangeLenW_toNat {c : Config} (h : rangeLen c < 2 ^ (8 * wb)) : (rangeLenW c).toNat = rangeLen c := by
  have h1 := stride_mul_le c
  have e : (BitVec.ofNat (8 * wb) c.stride * BitVec.ofNat (8 * wb) c.ncpu).toNat = c.stride * c.ncpu := mulW (by omega)
  unfold rangeLenW
  unfold rangeLen at h ⊢
  simp only [] at h ⊢
  cases hc : c.cow <;> cases hr : c.robust <;> simp only [hc, hr, if_true, if_false, Bool.false_eq_true, e] at h ⊢
  · rw [Mmap.add_toNat (by rw [e, ofNat_toNat (by omega)]; exact h), e, ofNat_toNat (by omega)]
  · rw [Mmap.add_toNat (by rw [e, ofNat_toNat (by omega)]; exact h), e, ofNat_toNat (by omega)]
  · have e2 : (BitVec.ofNat (8 * wb) c.stride * BitVec.ofNat (8 * wb) c.ncpu + BitVec.ofNat (8 * wb) c.stride).toNat
        = c.stride * c.ncpu + c.stride := by
      rw [Mmap.add_toNat (by rw [e, ofNat_toNat (by omega)]; omega), e, ofNat_toNat (by omega)]
    rw [Mmap.add_toNat (by rw [e2, ofNat_toNat (by omega)]; exact h), e2, ofNat_toNat (by omega)]

/-- Everything but the pages is the same. -/
structure Same (s s' : Sys) : Prop where
  fds : s'.fds = s.fds
  objs : s'.objs = s.objs
  objLen : s'.objLen = s.objLen
  heap : s'.heap = s.heap

omit [Abi] in
theorem Same.refl (s : Sys) : Same s s := ⟨rfl, rfl, rfl, rfl⟩
omit [Abi] in
theorem Same.trans {a b c : Sys} (h : Same a b) (h' : Same b c) : Same a c :=
  ⟨h'.fds.trans h.fds, h'.objs.trans h.objs, h'.objLen.trans h.objLen, h'.heap.trans h.heap⟩

omit [Abi] in
theorem setPages_same (s : Sys) (pg a l : Nat) (f) : Same s (s.setPages pg a l f) := ⟨rfl, rfl, rfl, rfl⟩

/-- Outside the block of `l` bytes at `a` the pages are the same. -/
def Frame (pg a l : Nat) (s s' : Sys) : Prop := ∀ p, ¬ InPages pg a l p → s'.page p = s.page p

omit [Abi] in
theorem Frame.trans {pg a l : Nat} {s1 s2 s3 : Sys} (h : Frame pg a l s1 s2) (h' : Frame pg a l s2 s3) :
    Frame pg a l s1 s3 := fun p hp => (h' p hp).trans (h p hp)

omit [Abi] in
theorem setPages_frame {s : Sys} {pg a l a' l' : Nat} {f} (h1 : a' ≤ a) (h2 : a + l ≤ a' + l') :
    Frame pg a' l' s (s.setPages pg a l f) := by
  intro p hp
  unfold Sys.setPages
  simp only []
  rw [if_neg]
  intro h
  exact hp ⟨by have := h.1; omega, by have := h.2; omega⟩

instance {n : Nat} (x : Nat) (b : BitVec n × BitVec n) : Decidable (Mmap.InBlock x b) := inferInstanceAs (Decidable (_ ∧ _))

omit [Abi] in
theorem foldl_munmap {n : Nat} (pg : Nat) (us : List (BitVec n × BitVec n)) (s : Sys) :
    Same s (us.foldl (fun s u => s.munmap pg u.1.toNat u.2.toNat) s) ∧
    ∀ p, (us.foldl (fun s u => s.munmap pg u.1.toNat u.2.toNat) s).page p =
      if (∀ u ∈ us, ¬ Mmap.InBlock (p * pg) u) then s.page p else none := by
  induction us generalizing s with
  | nil => exact ⟨Same.refl s, fun p => by simp⟩
  | cons u us ih =>
    obtain ⟨h1, h2⟩ := ih (s.munmap pg u.1.toNat u.2.toNat)
    refine ⟨(setPages_same s _ _ _ _).trans h1, fun p => ?_⟩
    rw [List.foldl_cons, h2 p]
    have e : (s.munmap pg u.1.toNat u.2.toNat).page p = if Mmap.InBlock (p * pg) u then none else s.page p := by
      unfold Sys.munmap Sys.setPages InPages Mmap.InBlock
      rfl
    rw [e]
    by_cases ha : Mmap.InBlock (p * pg) u
    · rw [if_pos ha, if_neg (c := ∀ v ∈ u :: us, ¬ Mmap.InBlock (p * pg) v) (fun h => h u (List.mem_cons_self ..) ha)]
      split <;> rfl
    · rw [if_neg ha]
      by_cases hb : ∀ u ∈ us, ¬ Mmap.InBlock (p * pg) u
      · rw [if_pos hb, if_pos]
        intro v hv
        rcases List.mem_cons.1 hv with rfl | hv
        · exact ha
        · exact hb v hv
      · rw [if_neg hb, if_neg]
        exact fun h => hb fun v hv => h v (List.mem_cons_of_mem _ hv)

theorem mmapFixed_spec {s s' : Sys} {pg : Nat} {a l : Word} {fd obj : Nat} {shared : Bool} {ans : Fixed} {ok : Bool}
    (hfd : s.fds.lookup fd = some obj) (h : mmapFixed s pg a l fd shared ans = (ok, s')) :
    Same s s' ∧ Frame pg a.toNat l.toNat s s' ∧
    (ok = true → ∀ p, InPages pg a.toNat l.toNat p → s'.page p = some { back := .file obj (p * pg - a.toNat) shared }) := by
  unfold mmapFixed at h
  rw [hfd] at h
  cases ans with
  | ok =>
    simp only [Prod.mk.injEq] at h
    obtain ⟨rfl, rfl⟩ := h
    refine ⟨setPages_same .., setPages_frame (Nat.le_refl _) (Nat.le_refl _), fun _ p hp => ?_⟩
    unfold Sys.mmapFile Sys.setPages
    simp only []
    rw [if_pos hp]
  | failKeep =>
    simp only [Prod.mk.injEq] at h
    obtain ⟨rfl, rfl⟩ := h
    exact ⟨Same.refl s, fun _ _ => rfl, fun h => (by cases h)⟩
  | failHole =>
    simp only [Prod.mk.injEq] at h
    obtain ⟨rfl, rfl⟩ := h
    exact ⟨setPages_same .., setPages_frame (Nat.le_refl _) (Nat.le_refl _), fun h => (by cases h)⟩

theorem mapCpus_spec {c : Config} {env : SysEnv} {base : Word} {fd obj : Nat} {s : Sys}
    (hfd : s.fds.lookup fd = some obj) (hst : 0 < c.stride) (n : Nat)
    (hfit : base.toNat + c.stride * n < 2 ^ (8 * wb)) {ok : Bool} {s' : Sys}
    (h : mapCpus c env base fd n s = (ok, s')) :
    Same s s' ∧ Frame c.pg base.toNat (c.stride * n) s s' ∧
    (ok = true → ∀ p, InPages c.pg base.toNat (c.stride * n) p →
      s'.page p = some { back := .file obj ((p * c.pg - base.toNat) % c.stride) false }) := by
  induction n generalizing ok s' with
  | zero =>
    simp only [mapCpus, Prod.mk.injEq] at h
    obtain ⟨rfl, rfl⟩ := h
    exact ⟨Same.refl s, fun _ _ => rfl, fun _ p hp => by unfold InPages at hp; omega⟩
  | succ n ih =>
    rw [Nat.mul_succ] at hfit ⊢
    unfold mapCpus at h
    cases hm : mapCpus c env base fd n s with
    | mk ok1 s1 =>
      rw [hm] at h
      obtain ⟨i1, i2, i3⟩ := ih (by omega) hm
      cases ok1 with
      | false =>
        simp only [Prod.mk.injEq] at h
        obtain ⟨rfl, rfl⟩ := h
        refine ⟨i1, fun p hp => i2 p fun hq => hp ⟨hq.1, by have := hq.2; omega⟩, fun h => (by cases h)⟩
      | true =>
        simp only [] at h
        have e1 : (BitVec.ofNat (8 * wb) c.stride * BitVec.ofNat (8 * wb) n).toNat = c.stride * n := mulW (by omega)
        have e2 : (base + BitVec.ofNat (8 * wb) c.stride * BitVec.ofNat (8 * wb) n).toNat = base.toNat + c.stride * n := by
          rw [Mmap.add_toNat (by omega), e1]
        obtain ⟨j1, j2, j3⟩ := mmapFixed_spec (by rw [i1.fds]; exact hfd) h
        rw [e2, ofNat_toNat (by omega)] at j2 j3
        refine ⟨i1.trans j1, fun p hp => ?_, fun hok p hp => ?_⟩
        · rw [j2 p fun hq => hp ⟨by have := hq.1; omega, by have := hq.2; omega⟩,
            i2 p fun hq => hp ⟨hq.1, by have := hq.2; omega⟩]
        · by_cases hq : InPages c.pg (base.toNat + c.stride * n) c.stride p
          · rw [j3 hok p hq]
            have : (p * c.pg - base.toNat) % c.stride = p * c.pg - (base.toNat + c.stride * n) := by
              have h1 := hq.1
              have h2 := hq.2
              rw [show p * c.pg - base.toNat = p * c.pg - (base.toNat + c.stride * n) + c.stride * n by omega,
                Nat.add_mul_mod_self_left, Nat.mod_eq_of_lt (by omega)]
            rw [this]
          · rw [j2 p hq]
            refine i3 rfl p ⟨hp.1, ?_⟩
            have h1 := hp.1
            have h2 := hp.2
            rcases Nat.lt_or_ge (p * c.pg) (base.toNat + c.stride * n) with h | h
            · exact h
            · exact absurd ⟨h, by omega⟩ hq

omit [Abi] in
theorem close_new {s : Sys} {fd obj : Nat} (hnew : s.fds.lookup fd = none) :
    ((fd, obj) :: s.fds).filter (fun x => x.1 != fd) = s.fds := by
  rw [List.filter_cons]
  simp only [bne_self_eq_false, Bool.false_eq_true, if_false]
  rw [List.filter_eq_self]
  intro a ha
  rw [List.lookup_eq_none_iff] at hnew
  have := hnew a ha
  rw [bne_iff_ne]
  rintro rfl
  simp at this

/-- What the calls after the mapping of the block may change: pages of the block and one new object. -/
structure Within (c : Config) (header : Nat) (s s' : Sys) : Prop where
  frame : Frame c.pg header (2 * c.pg + rangeLen c) s s'
  heap : s'.heap = s.heap
  objs : s.objs ≤ s'.objs
  objLen : ∀ o, o < s.objs → s'.objLen o = s.objLen o

theorem setupCow_spec {c : Config} {env : SysEnv} {base header : Word} {s : Sys}
    (hv : Valid c) (hcow : c.cow = true) (hnew : ∀ fd, env.memfd = some fd → s.fds.lookup fd = none)
    (hb : base.toNat = header.toNat + 2 * c.pg) (hpb : c.pg ∣ header.toNat)
    (hfit : base.toNat + rangeLen c < 2 ^ (8 * wb))
    (hanon : ∀ p, InPages c.pg header.toNat (2 * c.pg + rangeLen c) p → s.page p = some { back := .anon }) :
    (∃ fd s', setupCow c env base header s = .fail fd s' ∧ Within c header.toNat s s' ∧ (memfdClose fd s').fds = s.fds) ∨
    (∃ s', setupCow c env base header s = .done s' ∧ Within c header.toNat s s' ∧ s'.fds = s.fds ∧
      s'.objs = s.objs + 1 ∧ s'.objLen s.objs = c.stride ∧
      ∀ p, InPages c.pg header.toNat (2 * c.pg + rangeLen c) p → s'.page p = some (wantedPage c header.toNat s.objs p)) := by
  have hpg : 0 < c.pg := by obtain ⟨k, hk⟩ := hv.pg_pow; rw [hk]; exact Nat.two_pow_pos k
  have hst : 0 < c.stride := Nat.lt_of_lt_of_le hpg hv.pg_le
  have hlen : c.stride * c.ncpu + c.stride ≤ rangeLen c := by
    unfold rangeLen
    simp only [hcow, if_true]
    split <;> omega
  have eW : (rangeLenW c).toNat = rangeLen c := rangeLenW_toNat (by omega)
  have eS : (BitVec.ofNat (8 * wb) c.stride).toNat = c.stride := ofNat_toNat (by omega)
  have eM : (BitVec.ofNat (8 * wb) c.stride * BitVec.ofNat (8 * wb) c.ncpu).toNat = c.stride * c.ncpu := mulW (by omega)
  have eI : (base + BitVec.ofNat (8 * wb) c.stride * BitVec.ofNat (8 * wb) c.ncpu).toNat = base.toNat + c.stride * c.ncpu := by
    rw [Mmap.add_toNat (by omega), eM]
  unfold setupCow memfdCreateInit
  simp only []
  cases hm : env.memfd with
  | none =>
    simp only []
    exact Or.inl ⟨none, s, rfl, ⟨fun _ _ => rfl, rfl, Nat.le_refl _, fun _ _ => rfl⟩, rfl⟩
  | some fd =>
    simp only []
    cases ht : env.ftruncateOk with
    | false =>
      simp only [Bool.false_eq_true, if_false]
      refine Or.inl ⟨none, _, rfl, ⟨fun _ _ => rfl, rfl, Nat.le_succ _, fun o ho => ?_⟩, ?_⟩
      · unfold Sys.close
        simp only []
        rw [if_neg (by omega)]
      · unfold memfdClose Sys.close
        simp only []
        exact close_new (hnew fd hm)
    | true =>
      simp only [if_true]
      generalize hs1 : ({ page := s.page, fds := (fd, s.objs) :: s.fds, objs := s.objs + 1, objLen := fun o =>
        if o = s.objs then (BitVec.ofNat (8 * wb) c.stride).toNat else if o = s.objs then 0 else s.objLen o, heap := s.heap } : Sys) = s1
      have f1 : s1.fds = (fd, s.objs) :: s.fds := by rw [← hs1]
      have look : s1.fds.lookup fd = some s.objs := by rw [f1, List.lookup_cons]; simp
      have p1 : s1.page = s.page := by rw [← hs1]
      have w1 : ∀ s2, Same s1 s2 → Frame c.pg header.toNat (2 * c.pg + rangeLen c) s1 s2 → Within c header.toNat s s2 := by
        intro s2 hsame hfr
        refine ⟨fun p hp => by rw [hfr p hp, p1], by rw [hsame.heap, ← hs1], by rw [hsame.objs, ← hs1]; exact Nat.le_succ _, fun o ho => ?_⟩
        rw [hsame.objLen, ← hs1]
        simp only []
        rw [if_neg (by omega), if_neg (by omega)]
      have cl : ∀ s2, Same s1 s2 → (memfdClose (some fd) s2).fds = s.fds := by
        intro s2 hsame
        unfold memfdClose Sys.close
        simp only []
        rw [hsame.fds, f1]
        exact close_new (hnew fd hm)
      cases hf : mmapFixed s1 c.pg (base + BitVec.ofNat (8 * wb) c.stride * BitVec.ofNat (8 * wb) c.ncpu)
          (BitVec.ofNat (8 * wb) c.stride) fd true (env.fixed 0) with
      | mk ok2 s2 =>
        obtain ⟨a1, a2, a3⟩ := mmapFixed_spec look hf
        rw [eI, eS] at a2 a3
        have fr2 : Frame c.pg header.toNat (2 * c.pg + rangeLen c) s1 s2 := fun p hp =>
          a2 p fun hq => hp ⟨by have := hq.1; omega, by have := hq.2; omega⟩
        cases ok2 with
        | false =>
          simp only []
          exact Or.inl ⟨some fd, s2, rfl, w1 s2 a1 fr2, cl s2 a1⟩
        | true =>
          simp only []
          have hg : c.global = false := by
            cases h : c.global with
            | false => rfl
            | true => rw [(hv.global_zero h).1] at hcow; cases hcow
          rw [hg, if_neg (by decide)]
          cases hc3 : mapCpus c env base fd c.ncpu s2 with
          | mk ok3 s3 =>
            obtain ⟨b1, b2, b3⟩ := mapCpus_spec (by rw [a1.fds]; exact look) hst c.ncpu (by omega) hc3
            have fr3 : Frame c.pg header.toNat (2 * c.pg + rangeLen c) s1 s3 := fr2.trans fun p hp =>
              b2 p fun hq => hp ⟨by have := hq.1; omega, by have := hq.2; omega⟩
            have sm3 := a1.trans b1
            cases ok3 with
            | false =>
              simp only []
              exact Or.inl ⟨some fd, s3, rfl, w1 s3 sm3 fr3, cl s3 sm3⟩
            | true =>
              simp only []
              cases hd : env.dontforkOk with
              | false =>
                simp only [Bool.not_false, if_true]
                exact Or.inl ⟨some fd, s3, rfl, w1 s3 sm3 fr3, cl s3 sm3⟩
              | true =>
                simp only [Bool.not_true, Bool.false_eq_true, if_false]
                rw [eW]
                have sm4 : Same s1 (s3.setDontfork c.pg base.toNat (rangeLen c)) := sm3.trans (setPages_same ..)
                have fr4 : Frame c.pg header.toNat (2 * c.pg + rangeLen c) s1 (s3.setDontfork c.pg base.toNat (rangeLen c)) :=
                  fr3.trans (setPages_frame (by omega) (by omega))
                cases hw : env.wipeOk with
                | false =>
                  simp only [Bool.not_false, if_true]
                  exact Or.inl ⟨some fd, _, rfl, w1 _ sm4 fr4, cl _ sm4⟩
                | true =>
                  simp only [Bool.not_true, Bool.false_eq_true, if_false]
                  right
                  have sm5 : Same s1 ((s3.setDontfork c.pg base.toNat (rangeLen c)).setWipe c.pg header.toNat c.pg) :=
                    sm4.trans (setPages_same ..)
                  have fr5 : Frame c.pg header.toNat (2 * c.pg + rangeLen c) s1
                      ((s3.setDontfork c.pg base.toNat (rangeLen c)).setWipe c.pg header.toNat c.pg) :=
                    fr4.trans (setPages_frame (by omega) (by omega))
                  have w5 := w1 _ sm5 fr5
                  refine ⟨_, rfl, ⟨w5.frame, w5.heap, w5.objs, w5.objLen⟩, cl _ sm5, ?_, ?_, ?_⟩
                  · exact sm5.objs.trans (by rw [← hs1])
                  · refine (congrFun sm5.objLen s.objs).trans ?_
                    rw [← hs1]
                    simp only [if_true]
                    exact eS
                  · intro p hp
                    show ((s3.setDontfork c.pg base.toNat (rangeLen c)).setWipe c.pg header.toNat c.pg).page p = _
                    have hp1 := hp.1
                    have hp2 := hp.2
                    -- the page before the flags
                    have q3 : s3.page p = some
                        (if p * c.pg < base.toNat then { back := .anon }
                         else if p * c.pg < base.toNat + c.stride * c.ncpu then
                          { back := .file s.objs ((p * c.pg - base.toNat) % c.stride) false }
                         else if p * c.pg < base.toNat + c.stride * c.ncpu + c.stride then
                          { back := .file s.objs (p * c.pg - (base.toNat + c.stride * c.ncpu)) true }
                         else { back := .anon }) := by
                      by_cases h1 : p * c.pg < base.toNat
                      · rw [if_pos h1, b2 p (fun h => by have := h.1; omega), a2 p (fun h => by have := h.1; omega), p1]
                        exact hanon p hp
                      · rw [if_neg h1]
                        by_cases h2 : p * c.pg < base.toNat + c.stride * c.ncpu
                        · rw [if_pos h2]
                          exact b3 rfl p ⟨by omega, h2⟩
                        · rw [if_neg h2, b2 p (fun h => by have := h.2; omega)]
                          by_cases h3 : p * c.pg < base.toNat + c.stride * c.ncpu + c.stride
                          · rw [if_pos h3]
                            exact a3 rfl p ⟨by omega, h3⟩
                          · rw [if_neg h3, a2 p (fun h => by have := h.2; omega), p1]
                            exact hanon p hp
                    have q4 : (s3.setDontfork c.pg base.toNat (rangeLen c)).page p =
                        if base.toNat ≤ p * c.pg then (s3.page p).map fun q => { q with dontfork := true } else s3.page p := by
                      unfold Sys.setDontfork Sys.setPages
                      simp only []
                      by_cases h : base.toNat ≤ p * c.pg
                      · rw [if_pos h, if_pos ⟨h, by omega⟩]
                      · rw [if_neg h, if_neg (fun h' => h h'.1)]
                    have q5 : ((s3.setDontfork c.pg base.toNat (rangeLen c)).setWipe c.pg header.toNat c.pg).page p =
                        if p * c.pg - header.toNat < c.pg then
                          ((s3.setDontfork c.pg base.toNat (rangeLen c)).page p).map fun q => { q with wipe := true }
                        else (s3.setDontfork c.pg base.toNat (rangeLen c)).page p := by
                      unfold Sys.setWipe
                      rw [show (Sys.setPages (s3.setDontfork c.pg base.toNat (rangeLen c)) c.pg header.toNat c.pg
                          fun _ o => o.map fun q => { q with wipe := true }).page p =
                          if InPages c.pg header.toNat c.pg p then
                            ((s3.setDontfork c.pg base.toNat (rangeLen c)).page p).map fun q => { q with wipe := true }
                          else (s3.setDontfork c.pg base.toNat (rangeLen c)).page p from rfl]
                      by_cases h : p * c.pg - header.toNat < c.pg
                      · rw [if_pos h, if_pos ⟨hp1, by omega⟩]
                      · rw [if_neg h, if_neg (fun h' => h (by have := h'.2; omega))]
                    rw [q5, q4, q3]
                    unfold wantedPage
                    simp only [hcow]
                    by_cases h1 : p * c.pg - header.toNat < c.pg
                    · rw [if_pos h1, if_pos h1, if_neg (by omega), if_pos (by omega)]
                      rfl
                    · rw [if_neg h1, if_neg h1]
                      by_cases h2 : p * c.pg < base.toNat
                      · rw [if_neg (by omega), if_pos h2, if_pos (Or.inl (by omega))]
                      · rw [if_pos (by omega), if_neg h2,
                          if_neg (c := p * c.pg - header.toNat < 2 * c.pg ∨ true = false) (by rintro (h | h); · omega
                                                                                              · cases h)]
                        rw [show p * c.pg - header.toNat - 2 * c.pg = p * c.pg - base.toNat by omega]
                        by_cases h3 : p * c.pg < base.toNat + c.stride * c.ncpu
                        · rw [if_pos h3, if_pos (by omega)]
                          rfl
                        · rw [if_neg h3, if_neg (c := p * c.pg - base.toNat < c.stride * c.ncpu) (by omega)]
                          have hmul : c.stride * (c.ncpu + 1) = c.stride * c.ncpu + c.stride := Nat.mul_succ _ _
                          by_cases h4 : p * c.pg < base.toNat + c.stride * c.ncpu + c.stride
                          · rw [if_pos h4, if_pos (by omega), show p * c.pg - (base.toNat + c.stride * c.ncpu) =
                              p * c.pg - base.toNat - c.stride * c.ncpu by omega]
                            rfl
                          · rw [if_neg h4, if_neg (by omega)]
                            rfl

/-- The block right after `aligned_mmap_anonymous`: anonymous pages exactly in the block, nothing else changed. -/
theorem block_spec {c : Config} {env : SysEnv} {s : Sys} (h : SysOK c env s) :
    Mmap.alignedMmap env.k (BitVec.ofNat _ c.pg) (rangeLenW c) (BitVec.ofNat _ c.stride)
        (BitVec.ofNat (8 * wb) 2 * BitVec.ofNat _ c.pg) = .mmapFailed ∧
      env.k.mmap (BitVec.ofNat (8 * wb) (c.pg + rangeLen c + c.stride)) = none ∨
    (Mmap.alignedMmap env.k (BitVec.ofNat _ c.pg) (rangeLenW c) (BitVec.ofNat _ c.stride)
        (BitVec.ofNat (8 * wb) 2 * BitVec.ofNat _ c.pg) = .aborted ∧ ∃ a l, env.k.munmapOk a l = false) ∨
    ∃ base header mapped unmaps,
      Mmap.alignedMmap env.k (BitVec.ofNat _ c.pg) (rangeLenW c) (BitVec.ofNat _ c.stride)
        (BitVec.ofNat (8 * wb) 2 * BitVec.ofNat _ c.pg) = .ok base header mapped unmaps ∧
      c.stride ∣ base.toNat ∧ c.pg ∣ header.toNat ∧ 0 < header.toNat ∧ base.toNat = header.toNat + 2 * c.pg ∧
      base.toNat + rangeLen c < 2 ^ (8 * wb) ∧ env.k.mmap (BitVec.ofNat (8 * wb) (c.pg + rangeLen c + c.stride)) ≠ none ∧
      (∀ p, InPages c.pg header.toNat (2 * c.pg + rangeLen c) p → s.page p = none) ∧
      Same s (unmaps.foldl (fun s u => s.munmap c.pg u.1.toNat u.2.toNat) (s.mmapAnon c.pg mapped.1.toNat mapped.2.toNat)) ∧
      ∀ p, (unmaps.foldl (fun s u => s.munmap c.pg u.1.toNat u.2.toNat) (s.mmapAnon c.pg mapped.1.toNat mapped.2.toNat)).page p =
        if InPages c.pg header.toNat (2 * c.pg + rangeLen c) p then some { back := .anon } else s.page p := by
  obtain ⟨hv, hfits, hk, hun, _⟩ := h
  have hpg : 0 < c.pg := by obtain ⟨k, hk⟩ := hv.pg_pow; rw [hk]; exact Nat.two_pow_pos k
  have hst : 0 < c.stride := Nat.lt_of_lt_of_le hpg hv.pg_le
  have hd : c.pg ∣ c.stride := by
    obtain ⟨k, hk⟩ := hv.pg_pow
    obtain ⟨j, hj⟩ := hv.stride_pow
    have := hv.pg_le
    rw [hk, hj] at this ⊢
    exact Nat.pow_dvd_pow 2 ((Nat.pow_le_pow_iff_right (by decide)).1 this)
  have eW : (rangeLenW c).toNat = rangeLen c := rangeLenW_toNat (by omega)
  have eS : (BitVec.ofNat (8 * wb) c.stride).toNat = c.stride := ofNat_toNat (by omega)
  have eP : (BitVec.ofNat (8 * wb) c.pg).toNat = c.pg := ofNat_toNat (by omega)
  have eH : (BitVec.ofNat (8 * wb) 2 * BitVec.ofNat (8 * wb) c.pg).toNat = 2 * c.pg := mulW (by omega)
  have hln : c.stride ∣ rangeLen c := by rw [rangeLen_eq]; exact Nat.dvd_mul_right _ _
  have hpos : 0 < rangeLen c :=
    Nat.lt_of_lt_of_le (Nat.mul_pos hst hv.ncpu_pos) (stride_mul_le c)
  have wf : Mmap.WellFormed (8 * wb) (BitVec.ofNat (8 * wb) c.pg).toNat (rangeLenW c).toNat (BitVec.ofNat (8 * wb) c.stride).toNat
      (BitVec.ofNat (8 * wb) 2 * BitVec.ofNat (8 * wb) c.pg).toNat := by
    rw [eW, eS, eP, eH]
    exact ⟨hv.pg_pow, hv.stride_pow, hv.pg_le, hpos, hln, Nat.dvd_mul_left _ _, hfits⟩
  have hlen : ∀ l : Word, l.toNat = (BitVec.ofNat (8 * wb) 2 * BitVec.ofNat (8 * wb) c.pg).toNat + (rangeLenW c).toNat +
      ((BitVec.ofNat (8 * wb) c.stride).toNat - (BitVec.ofNat (8 * wb) c.pg).toNat) →
      l = BitVec.ofNat (8 * wb) (c.pg + rangeLen c + c.stride) := by
    intro l hl
    apply BitVec.eq_of_toNat_eq
    have := hv.pg_le
    rw [hl, eW, eS, eP, eH, ofNat_toNat (by omega)]
    omega
  rcases Mmap.alignedMmap_exact bits_eq env.k _ _ _ _ wf (by rw [eP]; exact hk) with
      ⟨h, l, hl, hl2⟩ | h | ⟨base, header, mapped, unmaps, h0, h1, h2, h3, h4, h5, hl, h6, h7⟩
  · refine Or.inl ⟨h, ?_⟩
    rw [← hlen l hl]
    exact hl2
  · exact Or.inr (Or.inl h)
  · right; right
    rw [eS] at h1
    rw [eH] at h2
    rw [eW] at h3 h5
    rw [eP] at h7
    obtain ⟨g1, g2⟩ := foldl_munmap c.pg unmaps (s.mmapAnon c.pg mapped.1.toNat mapped.2.toNat)
    have hmap : ∀ p, Mmap.InBlock (p * c.pg) mapped → s.page p = none := fun p hp => hun _ _ h6 p hp
    refine ⟨base, header, mapped, unmaps, h0, h1, ?_, h4, h2, h3, by rw [← hlen _ hl, h6]; exact fun h => (by cases h), ?_, (setPages_same ..).trans g1, ?_⟩
    · have h8 : c.pg ∣ base.toNat := Nat.dvd_trans hd h1
      rw [h2] at h8
      exact (Nat.dvd_add_left (Nat.dvd_mul_left _ _)).1 h8
    · intro p hp
      exact hmap p ((h5 (p * c.pg)).2 ⟨hp.1, by have := hp.2; omega⟩).1
    · intro p
      rw [g2 p]
      have e : (s.mmapAnon c.pg mapped.1.toNat mapped.2.toNat).page p =
          if Mmap.InBlock (p * c.pg) mapped then some { back := .anon } else s.page p := rfl
      rw [e]
      by_cases hin : InPages c.pg header.toNat (2 * c.pg + rangeLen c) p
      · rw [if_pos hin]
        have hs := (h5 (p * c.pg)).2 ⟨hin.1, by have := hin.2; omega⟩
        rw [if_pos hs.2, if_pos hs.1]
      · rw [if_neg hin]
        by_cases hu : ∀ u ∈ unmaps, ¬ Mmap.InBlock (p * c.pg) u
        · rw [if_pos hu, if_neg]
          intro hm
          have := (h5 (p * c.pg)).1 ⟨hm, hu⟩
          exact hin ⟨this.1, by have := this.2; omega⟩
        · rw [if_neg hu]
          symm
          refine hmap p ?_
          rw [Classical.not_forall] at hu
          obtain ⟨u, hu⟩ := hu
          rw [Classical.not_imp, Classical.not_not] at hu
          obtain ⟨hu1, hu2⟩ := hu
          obtain ⟨_, _, _, q1, q2⟩ := h7 u hu1
          exact ⟨by have := hu2.1; omega, by have := hu2.2; omega⟩

end Verif.RangeSys
