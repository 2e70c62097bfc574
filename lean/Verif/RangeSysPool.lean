import Verif.RangeSysProps
import Verif.MempoolMulti
/-
The allocator model on top of the address-space model: a process with any number of pools, its pages,
descriptors and bitmaps (specification first, then helper lemmas). The property theorems (C68) are in
`Verif.RangeSysPoolProps`.
-/
namespace Verif.RangeSys
open Verif Verif.Mempool

variable [Abi]

/-- The answers of `rangeCreateSys` as the allocator model sees them; `stores` are the stores performed by the
init callbacks. -/
def absEnv (c : Config) (env : SysEnv) (s : Sys) (stores : Nat → List (Nat × Byte)) : RangeEnv :=
  let o := Mmap.alignedMmap env.k (BitVec.ofNat _ c.pg) (rangeLenW c) (BitVec.ofNat _ c.stride)
    (BitVec.ofNat (8 * wb) 2 * BitVec.ofNat _ c.pg)
  { base := match o with
      | .ok base _ _ _ => some base.toNat
      | _ => none
    setupOk := match o with
      | .ok base header mapped unmaps =>
        match setupCow c env base header
          (unmaps.foldl (fun s u => s.munmap c.pg u.1.toNat u.2.toNat) (s.mmapAnon c.pg mapped.1.toNat mapped.2.toNat)) with
        | .done _ => true
        | _ => false
      | _ => false
    bitmapOk := env.bitmapOk
    cb := fun k => (env.cbOk k, stores k) }

/-- Does `__rseq_percpu_malloc` reach `create_range` (1093)? -/
def needsRange (c : Config) (pool : Pool) : Bool :=
  pool.head == 0 && match pool.ranges with
    | [] => true
    | r :: _ => decide (r.nextUnused + c.itemLen > c.stride)

/-- The process after an allocation; `none`: killed. -/
def sysAfter (c : Config) (len : Nat) (pool : Pool) (env : SysEnv) (s : Sys) : Option Sys :=
  if len ≤ c.itemLen ∧ needsRange c pool = true then
    match rangeCreateSys c pool.nrRanges env s with
    | .null s' => some s'
    | .range _ _ _ _ s' => some s'
    | .killed => none
  else some s

/-- Copy-on-write in the memory model is what the page tables say: a page still sharing the content of another
page is a private view of the same place of the same object of which the other is a shared view. -/
def MemOK (pg : Nat) (s : Sys) (m : Mem) : Prop :=
  ∀ x, m.resolve pg x = x ∨ ∃ P Q obj off, s.page (x / pg) = some P ∧ s.page (m.resolve pg x / pg) = some Q ∧
    P.back = .file obj off false ∧ Q.back = .file obj off true

/-- Unmapped pages share nothing. -/
def unmapMem (pg : Nat) (blocks : List (Nat × Nat)) (m : Mem) : Mem :=
  { m with src := fun p => if (blocks.any fun b => decide (InPages pg b.1 b.2 p)) then none else m.src p }

/-- A process: pools and memory as the allocator sees them, the system's view, and (ghost) the pages, descriptors and
number of heap blocks of the rest of the program. -/
structure Proc where
  w : World
  s : Sys
  rest : Nat → Option Page
  restFds : List (Nat × Nat)
  restHeap : Nat

/-- Page `p` belongs to a range of some pool. -/
def Proc.Pool (P : Proc) (pg p : Nat) : Prop :=
  ∃ e ∈ P.w.entries, ∃ r ∈ e.pool.ranges, InPages pg r.mmapAddr r.mmapLen p

/-- One event of the process. The kernel obeys `SysOK` and does not refuse to unmap; the callbacks store inside
the area they are given. `ext`: the rest of the program maps, unmaps, writes, opens and allocates as it likes but leaves
pool memory alone. -/
inductive PStep (pg : Nat) : Proc → Proc → Prop where
  | create (P : Proc) (c : Config) (env : SysEnv) (stores : Nat → List (Nat × Byte)) (base header ma ml : Word) (s' : Sys)
      (r : Range) (m' : Mem) (hpg : c.pg = pg) (hok : SysOK c env P.s) (hun : ∀ a l, env.k.munmapOk a l = true)
      (hcb : ∀ k o b, (o, b) ∈ stores k → o < c.stride)
      (hs : rangeCreateSys c 0 env P.s = .range base header ma ml s')
      (h : (rangeCreate c ⟨[], 0, 0⟩ P.w.mem (absEnv c env P.s stores)).2 = some (r, m')) :
      PStep pg P { P with w := ⟨m', ⟨c, ⟨[r], 0, 1⟩, [], []⟩ :: P.w.entries⟩, s := s' }
  | createNull (P : Proc) (c : Config) (env : SysEnv) (s' : Sys)
      (hpg : c.pg = pg) (hok : SysOK c env P.s) (hun : ∀ a l, env.k.munmapOk a l = true)
      (hs : rangeCreateSys c 0 env P.s = .null s') : PStep pg P { P with s := s' }
  | malloc (P : Proc) (pre post : List Entry) (e : Entry) (fill : Fill) (env : SysEnv)
      (stores : Nat → List (Nat × Byte)) (ret : Ret) (t : State) (s' : Sys)
      (hw : P.w.entries = pre ++ e :: post) (hok : SysOK e.c env P.s) (hun : ∀ a l, env.k.munmapOk a l = true)
      (hcb : ∀ k o b, (o, b) ∈ stores k → o < e.c.stride)
      (hs : sysAfter e.c fill.len e.pool env P.s = some s')
      (h : malloc e.c fill (absEnv e.c env P.s stores) { pool := e.pool, mem := P.w.mem } = .ok (ret, t)) :
      PStep pg P { P with w := ⟨t.mem, pre ++ e.afterMalloc t.pool ret :: post⟩, s := s' }
  | free (P : Proc) (pre post : List Entry) (e : Entry) (p : Nat) (t : State)
      (hw : P.w.entries = pre ++ e :: post) (hp : p ∈ e.live)
      (h : free e.c p { pool := e.pool, mem := P.w.mem } = .ok t) :
      PStep pg P { P with w := ⟨t.mem, pre ++ { e with pool := t.pool, live := e.live.erase p, freed := p :: e.freed } :: post⟩ }
  | store (P : Proc) (e : Entry) (p cpu o : Nat) (b : Byte) (he : e ∈ P.w.entries) (hp : p ∈ e.live)
      (hcpu : cpu < e.c.ncpu) (ho : o < e.c.itemLen) :
      PStep pg P { P with w := ⟨P.w.mem.write pg (cpuAddr e.c p cpu + o) b, P.w.entries⟩ }
  | destroy (P : Proc) (pre post : List Entry) (e : Entry) (res : DestroyResult) (hw : P.w.entries = pre ++ e :: post)
      (h : destroy e.c (fun _ => true) { pool := e.pool, mem := P.w.mem } = .ok res) :
      PStep pg P { P with
        w := ⟨unmapMem pg res.unmapped P.w.mem, pre ++ post⟩
        s := { res.unmapped.foldl (fun s u => s.munmap pg u.1 u.2) P.s with
               heap := P.s.heap - if e.c.robust then e.pool.ranges.length else 0 } }
  | ext (P : Proc) (s' : Sys) (m' : Mem) (rest' : Nat → Option Page) (fds' : List (Nat × Nat)) (heap' : Nat)
      (hpool : ∀ p, P.Pool pg p → s'.page p = P.s.page p) (hrest : ∀ p, ¬ P.Pool pg p → s'.page p = rest' p)
      (hhole : ∀ p, P.Pool pg p → rest' p = none)
      (hfds : s'.fds = fds') (hheap : s'.heap + P.restHeap = P.s.heap + heap') (hobjs : P.s.objs ≤ s'.objs)
      (hwf : m'.WF) (hmem : MemOK pg s' m') (h : ∀ e ∈ P.w.entries, ExtOK e.c e.pool.ranges P.w.mem m') :
      PStep pg P { w := ⟨m', P.w.entries⟩, s := s', rest := rest', restFds := fds', restHeap := heap' }

/-- Histories of a process that starts without pools. -/
inductive PReach (pg : Nat) : Proc → Prop where
  | init (s : Sys) (m : Mem) (hwf : m.WF) (hmem : MemOK pg s m) : PReach pg ⟨⟨m, []⟩, s, s.page, s.fds, s.heap⟩
  | step (P P' : Proc) (h : PReach pg P) (hs : PStep pg P P') : PReach pg P'

/-! ### Helper lemmas -/

omit [Abi] in
theorem MemOK.frame {pg : Nat} {W : Nat → Prop} {s : Sys} {m m' : Mem} (h : MemOK pg s m) (hf : Mem.Frame pg W m m') :
    MemOK pg s m' := by
  intro x
  rcases hf.res x with e | e
  · rw [e]; exact h x
  · exact Or.inl e

omit [Abi] in
theorem MemOK.mono {pg : Nat} {s s' : Sys} {m : Mem} (h : MemOK pg s m) (hs : ∀ p, s.page p ≠ none → s'.page p = s.page p) :
    MemOK pg s' m := by
  intro x
  rcases h x with e | ⟨P, Q, o, f, h1, h2, h3, h4⟩
  · exact Or.inl e
  · exact Or.inr ⟨P, Q, o, f, by rw [hs _ (by rw [h1]; exact fun h => (by cases h)), h1],
      by rw [hs _ (by rw [h2]; exact fun h => (by cases h)), h2], h3, h4⟩

/-- The abstract environment satisfies the assumptions of the allocator proofs. -/
theorem absEnv_ok {c : Config} {env : SysEnv} {s : Sys} {m : Mem} {stores : Nat → List (Nat × Byte)} {l : List Range}
    (h : SysOK c env s) (hm : MemOK c.pg s m) (hcb : ∀ k o b, (o, b) ∈ stores k → o < c.stride)
    (hl : ∀ r ∈ l, RangeInv c r ∧ ∀ p, InPages c.pg r.mmapAddr r.mmapLen p → s.page p ≠ none) :
    EnvOK c l m (absEnv c env s stores) ∧
    ∀ base, (absEnv c env s stores).base = some base → 2 * c.pg ≤ base ∧ c.pg ∣ base ∧
      ∀ p, InPages c.pg (base - 2 * c.pg) (2 * c.pg + rangeLen c) p → s.page p = none := by
  have hv := h.valid
  have hpg := hv.pg_pos
  have hst := hv.stride_pos
  have hpos : 0 < rangeLen c := Nat.lt_of_lt_of_le (Nat.mul_pos hst hv.ncpu_pos) (stride_mul_le c)
  have key : ∀ base, (absEnv c env s stores).base = some base → c.stride ∣ base ∧ 2 * c.pg ≤ base ∧
      base + rangeLen c ≤ 2 ^ (8 * wb) ∧ c.pg ∣ base ∧
      ∀ p, InPages c.pg (base - 2 * c.pg) (2 * c.pg + rangeLen c) p → s.page p = none := by
    intro base hb
    unfold absEnv at hb
    simp only [] at hb
    rcases block_spec h with ⟨hb', _⟩ | ⟨hb', hab⟩ | ⟨base', header, mapped, unmaps, hb', hst', hph, hh0, hbh, hfit, _, hnone, hsame, hpage⟩
    · rw [hb'] at hb; cases hb
    · rw [hb'] at hb; cases hb
    · rw [hb'] at hb
      cases hb
      refine ⟨hst', by omega, by omega, ?_, ?_⟩
      · rw [hbh]; exact Nat.dvd_add hph (Nat.dvd_mul_left _ _)
      · rw [show base'.toNat - 2 * c.pg = header.toNat by omega]; exact hnone
  refine ⟨⟨fun base hb => ?_, fun k o b hk => hcb k o b hk⟩, fun base hb => ⟨(key base hb).2.1, (key base hb).2.2.2⟩⟩
  obtain ⟨k1, k2, k3, k4, k5⟩ := key base hb
  refine ⟨k1, k2, k3, fun r hr => ?_, fun x hx => ?_⟩
  · obtain ⟨hi, hmap⟩ := hl r hr
    rw [hi.maddr, hi.mlen] at hmap
    have hrb : c.pg ∣ r.base := Nat.dvd_trans hv.pg_dvd hi.al
    have hrp := hi.pos
    obtain ⟨a, ha⟩ := k4
    obtain ⟨b, hb2⟩ := hrb
    have ea : (a - 2) * c.pg = base - 2 * c.pg := by rw [Nat.sub_mul, Nat.mul_comm a, ← ha]
    have eb : (b - 2) * c.pg = r.base - 2 * c.pg := by rw [Nat.sub_mul, Nat.mul_comm b, ← hb2]
    unfold Apart
    rcases Nat.lt_or_ge r.base (base + rangeLen c + 2 * c.pg) with h1 | h1
    · rcases Nat.lt_or_ge base (r.base + rangeLen c + 2 * c.pg) with h2 | h2
      · exfalso
        rcases Nat.le_total base r.base with h3 | h3
        · exact hmap (b - 2) ⟨by omega, by omega⟩ (k5 (b - 2) ⟨by omega, by omega⟩)
        · exact hmap (a - 2) ⟨by omega, by omega⟩ (k5 (a - 2) ⟨by omega, by omega⟩)
      · exact Or.inr h2
    · exact Or.inl h1
  · rcases hm x with e | ⟨P, Q, o, f, _, h2, _, _⟩
    · rw [e]; exact hx
    · intro hin
      have hd2 : c.pg ∣ base + rangeLen c := Nat.dvd_add k4 hv.pg_dvd_rangeLen
      have := k5 (m.resolve c.pg x / c.pg) ⟨?_, ?_⟩
      · rw [this] at h2; cases h2
      · have := (le_page_iff hpg k4).2 hin.1
        omega
      · have := (page_lt_iff hpg hd2).2 hin.2
        omega

/-- The allocator model and the system model agree on the outcome. -/
theorem absEnv_outcome {c : Config} {env : SysEnv} {s : Sys} {stores : Nat → List (Nat × Byte)} {pool : Pool} (m : Mem)
    (h : SysOK c env s) :
    match rangeCreateSys c pool.nrRanges env s with
    | .killed => True
    | .null _ => (rangeCreate c pool m (absEnv c env s stores)).2 = none
    | .range base header ma ml _ => (absEnv c env s stores).base = some base.toNat ∧
        ∃ r m', (rangeCreate c pool m (absEnv c env s stores)).2 = some (r, m') ∧
          r.base = base.toNat ∧ r.header = header.toNat ∧ r.mmapAddr = ma.toNat ∧ r.mmapLen = ml.toNat := by
  rcases rangeCreateSys_cases (nr := pool.nrRanges) h with ⟨t, h1, _⟩ | ⟨h1, _⟩ | ⟨base, header, ma, ml, t, h1, g1, g2, g3, g4, g5, g6, g7, _⟩
  · rw [h1]
    simp only []
    rw [rangeCreate_none_iff]
    unfold rangeCreateSys at h1
    by_cases hmax : c.maxRanges ≠ 0 ∧ pool.nrRanges ≥ c.maxRanges
    · exact Or.inl hmax
    · rw [if_neg hmax] at h1
      right
      unfold Refused absEnv
      simp only [] at h1 ⊢
      cases ho : Mmap.alignedMmap env.k (BitVec.ofNat _ c.pg) (rangeLenW c) (BitVec.ofNat _ c.stride)
        (BitVec.ofNat (8 * wb) 2 * BitVec.ofNat _ c.pg) with
      | einval => exact Or.inl rfl
      | mmapFailed => exact Or.inl rfl
      | aborted => exact Or.inl rfl
      | assertFailed => exact Or.inl rfl
      | ok base header mapped unmaps =>
        rw [ho] at h1
        simp only [] at h1 ⊢
        right
        cases hc : c.cow with
        | false =>
          rw [hc] at h1
          simp only [Bool.false_eq_true, if_false] at h1
          right
          by_cases hbm : (c.robust && !env.bitmapOk) = true
          · simp at hbm
            exact Or.inl hbm
          · rw [if_neg hbm] at h1
            right
            split at h1
            · cases h1
            · rename_i hcb
              rw [List.all_eq_true] at hcb
              have hcb : ∃ k, k < nrCalls c ∧ env.cbOk k = false := by
                refine Classical.byContradiction fun hh => hcb fun x hx => ?_
                rw [List.mem_range] at hx
                cases hh2 : env.cbOk x
                · exact absurd ⟨x, hx, hh2⟩ hh
                · rfl
              obtain ⟨k, hk1, hk2⟩ := hcb
              unfold nrCalls at hk1
              cases hi : c.initSet with
              | false => rw [hi] at hk1; simp at hk1
              | true =>
                rw [hi] at hk1
                exact ⟨rfl, k, hk1, hk2⟩
        | true =>
          rw [hc] at h1
          simp only [if_true] at h1
          cases hset : setupCow c env base header
            (unmaps.foldl (fun s u => s.munmap c.pg u.1.toNat u.2.toNat) (s.mmapAnon c.pg mapped.1.toNat mapped.2.toNat)) with
          | assertFailed => exact Or.inl ⟨rfl, rfl⟩
          | fail fd s2 => exact Or.inl ⟨rfl, rfl⟩
          | done s2 =>
            rw [hset] at h1
            simp only [] at h1
            right
            by_cases hbm : (c.robust && !env.bitmapOk) = true
            · simp at hbm
              exact Or.inl hbm
            · rw [if_neg hbm] at h1
              right
              split at h1
              · cases h1
              · rename_i hcb
                rw [List.all_eq_true] at hcb
                have hcb : ∃ k, k < nrCalls c ∧ env.cbOk k = false := by
                  refine Classical.byContradiction fun hh => hcb fun x hx => ?_
                  rw [List.mem_range] at hx
                  cases hh2 : env.cbOk x
                  · exact absurd ⟨x, hx, hh2⟩ hh
                  · rfl
                obtain ⟨k, hk1, hk2⟩ := hcb
                unfold nrCalls at hk1
                cases hi : c.initSet with
                | false => rw [hi] at hk1; simp at hk1
                | true =>
                  rw [hi] at hk1
                  exact ⟨rfl, k, hk1, hk2⟩
  · rw [h1]; trivial
  · rw [h1]
    simp only []
    have hb : (absEnv c env s stores).base = some base.toNat ∧ (c.cow = true → (absEnv c env s stores).setupOk = true) ∧
        (c.robust = true → env.bitmapOk = true) ∧ (∀ k, k < nrCalls c → env.cbOk k = true) ∧
        ¬ (c.maxRanges ≠ 0 ∧ pool.nrRanges ≥ c.maxRanges) := by
      unfold rangeCreateSys at h1
      by_cases hmax : c.maxRanges ≠ 0 ∧ pool.nrRanges ≥ c.maxRanges
      · rw [if_pos hmax] at h1; cases h1
      · rw [if_neg hmax] at h1
        unfold absEnv
        simp only [] at h1 ⊢
        cases ho : Mmap.alignedMmap env.k (BitVec.ofNat _ c.pg) (rangeLenW c) (BitVec.ofNat _ c.stride)
          (BitVec.ofNat (8 * wb) 2 * BitVec.ofNat _ c.pg) with
        | einval => rw [ho] at h1; cases h1
        | mmapFailed => rw [ho] at h1; cases h1
        | aborted => rw [ho] at h1; cases h1
        | assertFailed => rw [ho] at h1; cases h1
        | ok base' header' mapped unmaps =>
          rw [ho] at h1
          simp only [] at h1 ⊢
          split at h1
          · cases h1
          · cases h1
          · rename_i s2 hset
            split at h1
            · cases h1
            · rename_i hbm
              split at h1
              · rename_i hcb
                cases h1
                refine ⟨rfl, fun hc => ?_, fun hr => ?_, fun k hk => ?_, hmax⟩
                · rw [hc, if_pos rfl] at hset
                  rw [hset]
                · cases hbo : env.bitmapOk
                  · rw [hr, hbo] at hbm; exact absurd rfl hbm
                  · rfl
                · exact List.all_eq_true.1 hcb k (List.mem_range.2 hk)
              · cases h1
    obtain ⟨b1, b2, b3, b4, b5⟩ := hb
    refine ⟨b1, ?_⟩
    cases hrc : (rangeCreate c pool m (absEnv c env s stores)).2 with
    | none =>
      exfalso
      rw [rangeCreate_none_iff] at hrc
      rcases hrc with hrc | hrc | ⟨hc, hrc⟩ | ⟨hc, hrc⟩ | ⟨hc, k, hk, hrc⟩
      · exact b5 hrc
      · rw [b1] at hrc; cases hrc
      · rw [b2 hc] at hrc; cases hrc
      · have : env.bitmapOk = false := hrc
        rw [b3 hc] at this; cases this
      · have h2 : env.cbOk k = false := hrc
        rw [b4 k (by unfold nrCalls; rw [hc, if_pos rfl]; exact hk)] at h2; cases h2
    | some rm =>
      obtain ⟨r, m'⟩ := rm
      refine ⟨r, m', rfl, ?_⟩
      unfold rangeCreate at hrc
      rw [if_neg b5, b1] at hrc
      simp only [] at hrc
      split at hrc
      · cases hrc
      · split at hrc
        · cases hrc
        · split at hrc
          · cases hrc
          · cases hrc
            refine ⟨rfl, by show base.toNat - _ = _; omega, by show base.toNat - _ = _; rw [g6]; omega, by show 2 * c.pg + _ = _; rw [g7]⟩

end Verif.RangeSys
