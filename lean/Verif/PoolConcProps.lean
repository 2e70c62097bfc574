import Verif.PoolConcWeakStep
/-
C27, C28: one pool used by any number of threads.

The theorems quantify over every reachable state of `Verif.PoolConc`, i.e. over every number of threads,
every client program that respects the interface (frees only live items, stores only into live items and
not into an item being freed) and every schedule of single byte loads and stores.
-/
namespace Verif.PoolConc
open Verif Verif.Mem Verif.Mempool MProg

variable [Abi]

variable {c : Config} {split : Bool} {s s' : CState}

/-- C27, ownership: no item is handed out twice, and no byte of a live item, on any CPU, is a byte of
another live item or of another CPU's copy.  Page faults of either kind, any item length. -/
theorem conc_exclusive (hv : Valid c) (h : CReach c split s) :
    s.live.Nodup ∧
    ∀ p q, p ∈ s.live → q ∈ s.live → ∀ i j o o', i < c.ncpu → j < c.ncpu → o < c.itemLen → o' < c.itemLen →
      cpuAddr c p i + o = cpuAddr c q j + o' → p = q ∧ i = j ∧ o = o' := by
  obtain ⟨L, F, hC⟩ := winv_of_reach hv h
  have hle := ncpu_le_nCols c
  refine ⟨hC.nodup, fun p q hp hq i j o o' hi hj ho ho' e => ?_⟩
  have hsp := hC.inv.slotL (hC.own p hp)
  have hsq := hC.inv.slotL (hC.own q hq)
  unfold cpuAddr at e
  by_cases epq : p = q
  · subst epq
    by_cases eij : i = j
    · subst eij; exact ⟨rfl, rfl, by omega⟩
    · exact absurd e (slot_col_disj hsp eij ho ho')
  · exact absurd e (slot_disj hC.inv.ranges hsp hsq epq (by omega) (by omega) ho ho')

/-- C27, ownership during calls: an item that an allocation is about to return, or that is being freed,
belongs to that thread alone. -/
theorem conc_exclusive_calls (hv : Valid c) (h : CReach c split s) {t p : Nat}
    (ht : (∃ fill k, s.th t = .filling fill p k) ∨ s.th t = .wantFree p ∨ ∃ pool k, s.th t = .inFree p pool k) :
    p ∉ s.live ∧ ∀ u, u ≠ t → (∀ fill k, s.th u ≠ .filling fill p k) ∧ s.th u ≠ .wantFree p ∧
      ∀ pool k, s.th u ≠ .inFree p pool k := by
  obtain ⟨L, F, hC⟩ := winv_of_reach hv h
  have hh : Holder (s.th t) p := by
    rcases ht with ⟨_, _, e⟩ | e | ⟨_, _, e⟩ <;> rw [e] <;> rfl
  refine ⟨hC.apart t p hh, fun u hu => ⟨fun fill k e => ?_, fun e => ?_, fun pool k e => ?_⟩⟩
  all_goals exact hu (hC.uniq u t p (by rw [e]; rfl) hh)

/-- C27: at most one thread is inside the locked part, and it holds the lock. -/
theorem conc_lock_exclusive (hv : Valid c) (h : CReach c split s) {t : Nat}
    (ht : (∃ fill k, s.th t = .inAlloc fill k) ∨ ∃ p pool k, s.th t = .inFree p pool k) :
    s.lock = some t ∧ ∀ u, u ≠ t → (∀ fill k, s.th u ≠ .inAlloc fill k) ∧ ∀ p pool k, s.th u ≠ .inFree p pool k := by
  obtain ⟨L, F, hC⟩ := winv_of_reach hv h
  have hl : s.lock = some t := by
    refine hC.lk t ?_
    rcases ht with ⟨_, _, e⟩ | ⟨_, _, _, e⟩ <;> rw [e] <;> trivial
  refine ⟨hl, fun u hu => ⟨fun fill k e => ?_, fun p pool k e => ?_⟩⟩
  all_goals
    have := hC.lk u (by rw [e]; trivial)
    rw [hl] at this
    exact hu (Option.some.inj this).symm

/-- C27, no interference, page faults of either kind and any item length: a step changes a byte of a live
item only if it is the owner's store to that byte, or the kernel installs a copy of that byte's page, which
until then was shared with the init area.  Bytes of pages that are private already are never disturbed. -/
theorem conc_undisturbed_faults (hv : Valid c) (h : CReach c split s) {lab : Lab}
    (hs : CStep c split s lab s') {p : Nat} (hp : p ∈ s.live) :
    ((∀ t, lab ≠ .freeCall t p) → p ∈ s'.live) ∧
    ∀ i o, i < c.ncpu → o < c.itemLen →
      (∃ t b, lab = .stored t p i o b ∧ s'.mem.read c.pg (cpuAddr c p i + o) = b) ∨
      ((∀ t b, lab ≠ .stored t p i o b) ∧ s'.mem.read c.pg (cpuAddr c p i + o) = s.mem.read c.pg (cpuAddr c p i + o)) ∨
      (∃ t d, s.pend t = some d ∧ s'.mem = installAt c.pg s.mem d ∧ d.x / c.pg = (cpuAddr c p i + o) / c.pg ∧
        s.mem.src ((cpuAddr c p i + o) / c.pg) ≠ none ∧ split = true) := by
  obtain ⟨L, F, hC⟩ := winv_of_reach hv h
  have hle := ncpu_le_nCols c
  have hpL := hC.own p hp
  have hsl := hC.inv.slotL hpL
  have quiet : ∀ m' : Mem, (∀ i o, i < c.ncpu → o < c.itemLen →
      m'.read c.pg (cpuAddr c p i + o) = s.mem.read c.pg (cpuAddr c p i + o)) →
      (∀ t i o b, lab ≠ .stored t p i o b) → ∀ i o, i < c.ncpu → o < c.itemLen →
      (∃ t b, lab = .stored t p i o b ∧ m'.read c.pg (cpuAddr c p i + o) = b) ∨
      ((∀ t b, lab ≠ .stored t p i o b) ∧ m'.read c.pg (cpuAddr c p i + o) = s.mem.read c.pg (cpuAddr c p i + o)) ∨
      (∃ t d, s.pend t = some d ∧ m' = installAt c.pg s.mem d ∧ d.x / c.pg = (cpuAddr c p i + o) / c.pg ∧
        s.mem.src ((cpuAddr c p i + o) / c.pg) ≠ none ∧ split = true) :=
    fun m' h1 h2 i o hi ho => Or.inr (Or.inl ⟨fun t b => h2 t i o b, h1 i o hi ho⟩)
  have other : ∀ t q x b, Holder (s.th t) q → ItemBytes c q x → ∀ i o, i < c.ncpu → o < c.itemLen →
      (s.mem.write c.pg x b).read c.pg (cpuAddr c p i + o) = s.mem.read c.pg (cpuAddr c p i + o) := by
    intro t q x b hq hx i o hi ho
    exact keepOther hC.inv.ranges hC.inv.wf hC.inv.shape (hC.inv.slotL (hC.held t q hq)) hsl
      (fun e => hC.apart t q hq (e ▸ hp)) (write_frame hv hx) (by omega) ho
  cases hs with
  | free t q ht hpn hl hn =>
    refine ⟨fun hf => ?_, quiet _ (fun _ _ _ _ => rfl) (fun _ _ _ _ => Lab.noConfusion)⟩
    have : p ≠ q := fun e => hf t (by rw [e])
    exact (hC.nodup.mem_erase_iff).2 ⟨this, hp⟩
  | returned t fill q ht hpn =>
    exact ⟨fun _ => List.mem_cons_of_mem _ hp, quiet _ (fun _ _ _ _ => rfl) (fun _ _ _ _ => Lab.noConfusion)⟩
  | create t fill env r m r' off' q s1 ht henv hc hk =>
    refine ⟨fun _ => hp, quiet _ (fun i o hi ho => ?_) (fun _ _ _ _ => Lab.noConfusion)⟩
    have hn := (rangeCreate_spec hv hC.inv.wf hC.inv.shape henv hc).1
    exact (rely_of_new hn (P := (· = p)) fun q hq => by rw [hq]; exact hsl).rd p rfl i o (by omega) ho
  | writeFill t fill q x b k ht hpn hx =>
    have hpt := hC.prog t
    rw [ht] at hpt
    cases hpt with
    | wr _ _ _ hxb hk =>
      exact ⟨fun _ => hp, quiet _ (other t q x b (by rw [ht]; rfl) hxb) (fun _ _ _ _ => Lab.noConfusion)⟩
  | writeFree t q pool' x b k ht hpn hx =>
    have hpt := hC.prog t
    rw [ht] at hpt
    exact ⟨fun _ => hp, quiet _ (other t q x b (by rw [ht]; rfl) hpt.2.1) (fun _ _ _ _ => Lab.noConfusion)⟩
  | install t d hd =>
    refine ⟨fun _ => hp, fun i o hi ho => ?_⟩
    cases hsrc : s.mem.src ((cpuAddr c p i + o) / c.pg) with
    | none =>
      exact Or.inr (Or.inl ⟨fun _ _ => Lab.noConfusion, install_self hv.pg_pos hC.inv.wf d (resolve_of_none hsrc)⟩)
    | some q =>
      by_cases e : d.x / c.pg = (cpuAddr c p i + o) / c.pg
      · exact Or.inr (Or.inr ⟨t, d, hd, rfl, e, by simp, split_of_pend h hd⟩)
      · refine Or.inr (Or.inl ⟨fun _ _ => Lab.noConfusion, install_other hv.pg_pos hC.inv.wf d fun e' => e e'.symm⟩)
  | ext m' hm =>
    refine ⟨fun _ => hp, quiet _ (fun i o hi ho => ?_) (fun _ _ _ _ => Lab.noConfusion)⟩
    exact (rely_of_ext hm (P := (· = p)) fun q hq => by rw [hq]; exact hsl).rd p rfl i o (by omega) ho
  | store t q cpu o' b ht hpn hl hcpu ho' hx =>
    refine ⟨fun _ => hp, fun i o hi ho => ?_⟩
    by_cases e : q = p ∧ cpu = i ∧ o' = o
    · obtain ⟨rfl, rfl, rfl⟩ := e
      exact Or.inl ⟨t, b, rfl, read_write_self _ _ _ _⟩
    · refine Or.inr (Or.inl ⟨fun t' b' hh => e (by cases hh; exact ⟨rfl, rfl, rfl⟩), ?_⟩)
      by_cases eq : q = p
      · subst eq
        exact write_keep hv hsl hC.inv.wf (IShape.of_shape hC.inv.shape hsl) ho' (by omega) ho (by omega) (by omega)
      · exact keepOther hC.inv.ranges hC.inv.wf hC.inv.shape (hC.inv.slotL (hC.own q hl)) hsl
          (fun e' => eq e'.symm) (write_frame hv ⟨cpu, o', by omega, ho', rfl⟩) (by omega) ho
  | _ => exact ⟨fun _ => hp, quiet _ (fun _ _ _ _ => rfl) (fun _ _ _ _ => Lab.noConfusion)⟩

theorem CInv.content {L F : List Nat} (hC : CInv c s L F) {t p : Nat} {fill : Fill}
    (hs : CStep c split s (.returned t fill p) s') :
    p ∉ s.live ∧ s'.live = p :: s.live ∧
    (fill = .zero → ∀ i o, i < c.ncpu → o < c.itemLen → s'.mem.read c.pg (cpuAddr c p i + o) = 0#8) ∧
    (∀ f len, fill = .init f len → ∀ i o, i < c.ncpu → o < len → s'.mem.read c.pg (cpuAddr c p i + o) = f o) := by
  cases hs with
  | returned _ _ _ ht hp =>
    have hk := hC.prog t
    rw [ht] at hk
    have hcon := hk _ (Rely.refl _)
    refine ⟨hC.apart t p (by rw [ht]; rfl), rfl, ?_, ?_⟩
    · rintro rfl i o hi ho
      exact hcon i hi o ho
    · rintro f len rfl i o hi ho
      exact hcon i hi o ho

/-- C27 and C28 (positive part), content: when `zmalloc` returns, the item is zero on every CPU; when
`malloc_init` returns, the first `len` bytes are the given ones on every CPU; whatever the other threads
did meanwhile.  The item was nobody's before. -/
theorem conc_content (hv : Valid c) (hsafe : FaultSafe c split) (h : CReach c split s) {t p : Nat} {fill : Fill}
    (hs : CStep c split s (.returned t fill p) s') :
    p ∉ s.live ∧ s'.live = p :: s.live ∧
    (fill = .zero → ∀ i o, i < c.ncpu → o < c.itemLen → s'.mem.read c.pg (cpuAddr c p i + o) = 0#8) ∧
    (∀ f len, fill = .init f len → ∀ i o, i < c.ncpu → o < len → s'.mem.read c.pg (cpuAddr c p i + o) = f o) := by
  obtain ⟨L, F, hC⟩ := cinv_of_reach hv hsafe h
  exact hC.content hs

theorem CInv.undisturbed (hv : Valid c) {L F : List Nat} (hC : CInv c s L F) {lab : Lab}
    (hs : CStep c split s lab s') {p : Nat} (hp : p ∈ s.live) :
    ((∀ t, lab ≠ .freeCall t p) → p ∈ s'.live) ∧
    ∀ i o, i < c.ncpu → o < c.itemLen →
      (∃ t b, lab = .stored t p i o b ∧ s'.mem.read c.pg (cpuAddr c p i + o) = b) ∨
      ((∀ t b, lab ≠ .stored t p i o b) ∧ s'.mem.read c.pg (cpuAddr c p i + o) = s.mem.read c.pg (cpuAddr c p i + o)) := by
  have hle := ncpu_le_nCols c
  have hpL := (hC.own p).2 (Or.inl hp)
  have hsl := hC.inv.slotL hpL
  have quiet : ∀ m' : Mem, (∀ i o, i < c.ncpu → o < c.itemLen →
      m'.read c.pg (cpuAddr c p i + o) = s.mem.read c.pg (cpuAddr c p i + o)) →
      (∀ t i o b, lab ≠ .stored t p i o b) → ∀ i o, i < c.ncpu → o < c.itemLen →
      (∃ t b, lab = .stored t p i o b ∧ m'.read c.pg (cpuAddr c p i + o) = b) ∨
      ((∀ t b, lab ≠ .stored t p i o b) ∧ m'.read c.pg (cpuAddr c p i + o) = s.mem.read c.pg (cpuAddr c p i + o)) :=
    fun m' h1 h2 i o hi ho => Or.inr ⟨fun t b => h2 t i o b, h1 i o hi ho⟩
  -- a store inside another item
  have other : ∀ t q x b, Holder (s.th t) q → ItemBytes c q x → ∀ i o, i < c.ncpu → o < c.itemLen →
      (s.mem.write c.pg x b).read c.pg (cpuAddr c p i + o) = s.mem.read c.pg (cpuAddr c p i + o) := by
    intro t q x b hq hx i o hi ho
    have hf : Frame c.pg (ItemBytes c q) s.mem (s.mem.write c.pg x b) :=
      (Frame.write hv.pg_pos).mono fun y hy => by rw [hy]; exact hx
    exact keepOther hC.inv.ranges hC.inv.wf hC.inv.shape (hC.inv.slotL (hC.heldMem hq)) hsl
      (fun e => hC.apart t q hq (e ▸ hp)) hf (by omega) ho
  cases hs with
  | free t q ht hpn hl hn =>
    refine ⟨fun hf => ?_, quiet _ (fun _ _ _ _ => rfl) (fun _ _ _ _ => Lab.noConfusion)⟩
    have : p ≠ q := fun e => hf t (by rw [e])
    exact (hC.nodup.mem_erase_iff).2 ⟨this, hp⟩
  | returned t fill q ht hpn =>
    exact ⟨fun _ => List.mem_cons_of_mem _ hp, quiet _ (fun _ _ _ _ => rfl) (fun _ _ _ _ => Lab.noConfusion)⟩
  | create t fill env r m r' off' q s1 ht henv hc hk =>
    refine ⟨fun _ => hp, quiet _ (fun i o hi ho => ?_) (fun _ _ _ _ => Lab.noConfusion)⟩
    have hn := (rangeCreate_spec hv hC.inv.wf hC.inv.shape henv hc).1
    exact (rely_of_new hn (P := (· = p)) fun q hq => by rw [hq]; exact hsl).rd p rfl i o (by omega) ho
  | writeFill t fill q x b k ht hpn hx =>
    have hpt := hC.prog t
    rw [ht] at hpt
    exact ⟨fun _ => hp, quiet _ (other t q x b (by rw [ht]; rfl) hpt.1) (fun _ _ _ _ => Lab.noConfusion)⟩
  | writeFree t q pool' x b k ht hpn hx =>
    have hpt := hC.prog t
    rw [ht] at hpt
    exact ⟨fun _ => hp, quiet _ (other t q x b (by rw [ht]; rfl) hpt.2.1) (fun _ _ _ _ => Lab.noConfusion)⟩
  | install t d hd =>
    refine ⟨fun _ => hp, quiet _ (fun i o _ _ => ?_) (fun _ _ _ _ => Lab.noConfusion)⟩
    exact (install_frame hv.pg_pos hC.inv.wf (hC.pd t d hd).snap fun _ => False).rd hC.inv.wf _ id id
  | ext m' hm =>
    refine ⟨fun _ => hp, quiet _ (fun i o hi ho => ?_) (fun _ _ _ _ => Lab.noConfusion)⟩
    exact (rely_of_ext hm (P := (· = p)) fun q hq => by rw [hq]; exact hsl).rd p rfl i o (by omega) ho
  | store t q cpu o' b ht hpn hl hcpu ho' hx =>
    refine ⟨fun _ => hp, fun i o hi ho => ?_⟩
    by_cases e : q = p ∧ cpu = i ∧ o' = o
    · obtain ⟨rfl, rfl, rfl⟩ := e
      exact Or.inl ⟨t, b, rfl, read_write_self _ _ _ _⟩
    · refine Or.inr ⟨fun t' b' hh => e (by cases hh; exact ⟨rfl, rfl, rfl⟩), ?_⟩
      by_cases eq : q = p
      · subst eq
        exact write_keep hv hsl hC.inv.wf (IShape.of_shape hC.inv.shape hsl) ho' (by omega) ho (by omega) (by omega)
      · have hf : Frame c.pg (ItemBytes c q) s.mem (s.mem.write c.pg (cpuAddr c q cpu + o') b) :=
          (Frame.write hv.pg_pos).mono fun y hy => by rw [hy]; exact ⟨cpu, o', by omega, ho', rfl⟩
        exact keepOther hC.inv.ranges hC.inv.wf hC.inv.shape (hC.inv.slotL ((hC.own q).2 (Or.inl hl))) hsl
          (fun e' => eq e'.symm) hf (by omega) ho
  | _ => exact ⟨fun _ => hp, quiet _ (fun _ _ _ _ => rfl) (fun _ _ _ _ => Lab.noConfusion)⟩

/-- C27, no interference: a step changes a byte of a live item only if it is the owner's store to that
byte; the item stays live until it is freed. -/
theorem conc_undisturbed (hv : Valid c) (hsafe : FaultSafe c split) (h : CReach c split s) {lab : Lab}
    (hs : CStep c split s lab s') {p : Nat} (hp : p ∈ s.live) :
    ((∀ t, lab ≠ .freeCall t p) → p ∈ s'.live) ∧
    ∀ i o, i < c.ncpu → o < c.itemLen →
      (∃ t b, lab = .stored t p i o b ∧ s'.mem.read c.pg (cpuAddr c p i + o) = b) ∨
      ((∀ t b, lab ≠ .stored t p i o b) ∧ s'.mem.read c.pg (cpuAddr c p i + o) = s.mem.read c.pg (cpuAddr c p i + o)) := by
  obtain ⟨L, F, hC⟩ := cinv_of_reach hv hsafe h
  exact hC.undisturbed hv hs hp

/-- A schedule and the events its clients see. -/
inductive CTrace (c : Config) (split : Bool) : CState → List Lab → CState → Prop
  | nil (s : CState) : CTrace c split s [] s
  | cons {s s1 s2 : CState} {lab : Lab} {labs : List Lab} (h : CStep c split s lab s1) (ht : CTrace c split s1 labs s2) :
      CTrace c split s (lab :: labs) s2

/-- The value of byte `o` of CPU `i`'s instance of `p` after these events: the last one stored. -/
def lastStored (p i o : Nat) : List Lab → Byte → Byte
  | [], v => v
  | .stored _ q j o' b :: labs, v => lastStored p i o labs (if q = p ∧ j = i ∧ o' = o then b else v)
  | _ :: labs, v => lastStored p i o labs v

theorem CInv.privateMemory (hv : Valid c) (hsafe : FaultSafe c split) {L F : List Nat} (hC : CInv c s L F) {labs : List Lab}
    (ht : CTrace c split s labs s') {p : Nat} (hp : p ∈ s.live) (hf : ∀ t, .freeCall t p ∉ labs) :
    p ∈ s'.live ∧ ∀ i o, i < c.ncpu → o < c.itemLen →
      s'.mem.read c.pg (cpuAddr c p i + o) = lastStored p i o labs (s.mem.read c.pg (cpuAddr c p i + o)) := by
  induction ht generalizing L F with
  | nil s => exact ⟨hp, fun _ _ _ _ => rfl⟩
  | @cons s s1 s2 lab labs hs ht ih =>
    obtain ⟨hlive, hrd⟩ := hC.undisturbed hv hs hp
    have hp1 := hlive fun t e => hf t (by rw [e]; exact List.mem_cons_self)
    obtain ⟨L1, F1, hC1⟩ := hC.step hv hsafe hs
    obtain ⟨hl, ih⟩ := ih hC1 hp1 fun t e => hf t (List.mem_cons_of_mem _ e)
    refine ⟨hl, fun i o hi ho => ?_⟩
    rw [ih i o hi ho]
    rcases hrd i o hi ho with ⟨t, b, rfl, e⟩ | ⟨hne, e⟩
    · rw [e]
      show _ = lastStored p i o labs (if p = p ∧ i = i ∧ o = o then b else _)
      rw [if_pos ⟨rfl, rfl, rfl⟩]
    · rw [e]
      cases lab with
      | stored t q j o' b =>
        show _ = lastStored p i o labs (if q = p ∧ j = i ∧ o' = o then b else _)
        rw [if_neg]
        rintro ⟨rfl, rfl, rfl⟩
        exact hne t b rfl
      | _ => rfl

/-- C27: between allocation and free an item behaves as private memory of its owner: each byte has the
value last stored there, else the value it had. -/
theorem conc_private_memory (hv : Valid c) (hsafe : FaultSafe c split) (h : CReach c split s) {labs : List Lab}
    (ht : CTrace c split s labs s') {p : Nat} (hp : p ∈ s.live) (hf : ∀ t, .freeCall t p ∉ labs) :
    p ∈ s'.live ∧ ∀ i o, i < c.ncpu → o < c.itemLen →
      s'.mem.read c.pg (cpuAddr c p i + o) = lastStored p i o labs (s.mem.read c.pg (cpuAddr c p i + o)) := by
  obtain ⟨L, F, hC⟩ := cinv_of_reach hv hsafe h
  exact hC.privateMemory hv hsafe ht hp hf

/-- C27, content from `zmalloc` on: every byte is zero until it is stored to, then it is the last value
stored, whatever all threads do. -/
theorem conc_zmalloc_view (hv : Valid c) (hsafe : FaultSafe c split) (h : CReach c split s) {t p : Nat} {s1 : CState}
    (hs : CStep c split s (.returned t .zero p) s1) {labs : List Lab} (ht : CTrace c split s1 labs s')
    (hf : ∀ t, .freeCall t p ∉ labs) {i o : Nat} (hi : i < c.ncpu) (ho : o < c.itemLen) :
    s'.mem.read c.pg (cpuAddr c p i + o) = lastStored p i o labs 0#8 := by
  obtain ⟨_, hl, hz, _⟩ := conc_content hv hsafe h hs
  have := (conc_private_memory hv hsafe (CReach.step h hs) ht (p := p) (by rw [hl]; exact List.mem_cons_self) hf).2 i o hi ho
  rw [this, hz rfl i o hi ho]

/-- C27, content from `malloc_init` on. -/
theorem conc_malloc_init_view (hv : Valid c) (hsafe : FaultSafe c split) (h : CReach c split s) {t p : Nat} {s1 : CState}
    {f : Nat → Byte} {len : Nat} (hs : CStep c split s (.returned t (.init f len) p) s1) {labs : List Lab}
    (ht : CTrace c split s1 labs s') (hf : ∀ t, .freeCall t p ∉ labs) {i o : Nat} (hi : i < c.ncpu) (ho : o < len)
    (hlen : len ≤ c.itemLen) : s'.mem.read c.pg (cpuAddr c p i + o) = lastStored p i o labs (f o) := by
  obtain ⟨_, hl, _, hz⟩ := conc_content hv hsafe h hs
  have := (conc_private_memory hv hsafe (CReach.step h hs) ht (p := p) (by rw [hl]; exact List.mem_cons_self) hf).2 i o hi (by omega)
  rw [this, hz f len rfl i o hi ho]

/-- C27: no thread ever aborts (corrupted free list, bitmap or poison) or runs into undefined behaviour. -/
theorem conc_no_abort (hv : Valid c) (hsafe : FaultSafe c split) (h : CReach c split s) (t : Nat) : s.th t ≠ .dead := by
  obtain ⟨L, F, hC⟩ := cinv_of_reach hv hsafe h
  intro e
  have := hC.prog t
  rw [e] at this
  exact this

/-- C27: the lock is held by at most one thread, and a thread inside the locked part holds it. -/
theorem conc_lock (hv : Valid c) (hsafe : FaultSafe c split) (h : CReach c split s) (t : Nat) :
    ((∃ fill k, s.th t = .inAlloc fill k) ∨ ∃ p pool k, s.th t = .inFree p pool k) ↔ s.lock = some t := by
  obtain ⟨L, F, hC⟩ := cinv_of_reach hv hsafe h
  rw [← hC.lk t]
  cases hst : s.th t <;> simp [InLock]

omit [Abi] in
/-- Alone, a thread whose store faults gets to execute it. -/
theorem install_private {pg : Nat} {m : Mem} {d : Pend} : (installAt pg m d).src (d.x / pg) = none := by
  unfold installAt
  cases hs : m.src (d.x / pg) with
  | none => exact hs
  | some q => exact if_pos rfl

/-- C27: the lock never stays locked for lack of a possible step: from every reachable state the holder,
running alone (the system may refuse memory), releases it.  The other threads are where they were. -/
theorem conc_lock_released (hv : Valid c) (hsafe : FaultSafe c split) (h : CReach c split s) {t : Nat}
    (ht : s.lock = some t) :
    ∃ labs s', CTrace c split s labs s' ∧ s'.lock = none ∧ s'.live = s.live ∧
      ∀ u, u ≠ t → s'.th u = s.th u ∧ s'.pend u = s.pend u := by
  rcases (conc_lock hv hsafe h t).2 ht with ⟨fill, k, hst⟩ | ⟨p, pool', k, hst⟩
  · induction k generalizing s with
    | rd x k ih =>
      have hs := CStep.readAlloc (c := c) (split := split) t fill x k hst
      obtain ⟨labs, s', h1, h2, h3, h4⟩ := ih _ (CReach.step h hs) ht (upd_self ..)
      exact ⟨_, s', .cons hs h1, h2, h3, fun u hu => ⟨(h4 u hu).1.trans (upd_ne _ hu _), (h4 u hu).2⟩⟩
    | wr x b k ih =>
      obtain ⟨L, F, hC⟩ := cinv_of_reach hv hsafe h
      have hpt := hC.prog t
      rw [hst] at hpt
      exact hpt.2.1.elim
    | ret a =>
      cases a with
      | take r off addr pool' =>
        cases hk : takeSlot c { pool := pool', mem := s.mem } r off addr with
        | ub => unfold takeSlot at hk; split at hk <;> cases hk
        | aborted w =>
          exact absurd (upd_self ..) (conc_no_abort hv hsafe (CReach.step h (CStep.takeAbort t fill r off addr pool' w hst hk)) t)
        | ok x =>
          obtain ⟨ch, s1⟩ := x
          cases ch with
          | null e => unfold takeSlot at hk; split at hk <;> cases hk
          | item r' off' p =>
            exact ⟨_, _, .cons (CStep.take t fill r off addr pool' r' off' p s1 hst hk) (.nil _), rfl, rfl,
              fun u hu => ⟨upd_ne _ hu _, rfl⟩⟩
      | create =>
        refine ⟨_, _, .cons (CStep.createNull t fill { base := none } hst (ex_env ..) ?_) (.nil _), rfl, rfl,
          fun u hu => ⟨upd_ne _ hu _, rfl⟩⟩
        unfold rangeCreate
        split <;> rfl
      | poisoned =>
        exact absurd (upd_self ..) (conc_no_abort hv hsafe (CReach.step h (CStep.allocAbort t fill (Or.inl hst))) t)
      | ub =>
        exact absurd (upd_self ..) (conc_no_abort hv hsafe (CReach.step h (CStep.allocAbort t fill (Or.inr hst))) t)
  · -- the stores of a free, page faults included
    have main : ∀ (k : MProg Unit) (s : CState), CReach c split s → s.lock = some t → s.th t = .inFree p pool' k →
        s.pend t = none →
        ∃ labs s', CTrace c split s labs s' ∧ s'.lock = none ∧ s'.live = s.live ∧
          ∀ u, u ≠ t → s'.th u = s.th u ∧ s'.pend u = s.pend u := by
      intro k
      induction k with
      | ret a =>
        intro s h ht hst hpn
        exact ⟨_, _, .cons (CStep.unlockFree t p pool' hst hpn) (.nil _), rfl, rfl, fun u hu => ⟨upd_ne _ hu _, rfl⟩⟩
      | rd x k ih =>
        intro s h ht hst hpn
        have hs := CStep.readFree (c := c) (split := split) t p pool' x k hst hpn
        obtain ⟨labs, s', h1, h2, h3, h4⟩ := ih _ _ (CReach.step h hs) ht (upd_self ..) hpn
        exact ⟨_, s', .cons hs h1, h2, h3, fun u hu => ⟨(h4 u hu).1.trans (upd_ne _ hu _), (h4 u hu).2⟩⟩
      | wr x b k ih =>
        intro s h ht hst hpn
        have go : ∀ s1, CReach c split s1 → s1.lock = some t → s1.th t = .inFree p pool' (.wr x b k) → s1.pend t = none →
            CanStore c split s1.mem x →
            ∃ labs s', CTrace c split s1 labs s' ∧ s'.lock = none ∧ s'.live = s1.live ∧
              ∀ u, u ≠ t → s'.th u = s1.th u ∧ s'.pend u = s1.pend u := by
          intro s1 h1 ht1 hst1 hpn1 hx1
          have hs := CStep.writeFree (c := c) (split := split) t p pool' x b k hst1 hpn1 hx1
          obtain ⟨labs, s', a1, a2, a3, a4⟩ := ih _ (CReach.step h1 hs) ht1 (upd_self ..) hpn1
          exact ⟨_, s', .cons hs a1, a2, a3, fun u hu => ⟨(a4 u hu).1.trans (upd_ne _ hu _), (a4 u hu).2⟩⟩
        by_cases hx : CanStore c split s.mem x
        · exact go s h ht hst hpn hx
        · unfold CanStore at hx
          have h1 : split = true := by
            cases split
            · exact absurd (fun e => by cases e) hx
            · rfl
          cases hsrc : s.mem.src (x / c.pg) with
          | none => exact absurd (fun _ => hsrc) hx
          | some q =>
            have s1 := CStep.snapFree (c := c) (split := split) t p pool' x b k q hst hpn h1 hsrc
            have s2 := CStep.install (c := c) (split := split) (s := { s with pend := upd s.pend t (some ⟨p, x, snapOf c.pg s.mem x⟩) })
              t ⟨p, x, snapOf c.pg s.mem x⟩ (upd_self ..)
            obtain ⟨labs, s', a1, a2, a3, a4⟩ := go _ (CReach.step (CReach.step h s1) s2) ht hst (upd_self ..)
              (fun _ => install_private (d := ⟨p, x, snapOf c.pg s.mem x⟩))
            refine ⟨_, s', .cons s1 (.cons s2 a1), a2, a3, fun u hu => ⟨(a4 u hu).1, (a4 u hu).2.trans ?_⟩⟩
            show upd (upd s.pend t _) t _ u = _
            rw [upd_ne _ hu, upd_ne _ hu]
    cases hpn : s.pend t with
    | none => exact main k s h ht hst hpn
    | some d =>
      have hs := CStep.install (c := c) (split := split) t d hpn
      obtain ⟨labs, s', h1, h2, h3, h4⟩ := main k _ (CReach.step h hs) ht hst (upd_self ..)
      exact ⟨_, s', .cons hs h1, h2, h3, fun u hu => ⟨(h4 u hu).1, (h4 u hu).2.trans (upd_ne _ hu _)⟩⟩

end Verif.PoolConc

namespace Verif.PoolConc
open Verif Verif.Mem Verif.Mempool MProg

attribute [local instance] le64

/-! ### C28: the two-phase page copy -/

/-- 8-byte items, 4 KiB pages, COW_INIT, one CPU. -/
def raceC : Config :=
  { pg := 4096, order := 3, stride := 4096, ncpu := 1, cow := true, robust := false, poison := none
    maxRanges := 1, initSet := false, global := false }

theorem raceC_valid : Valid raceC :=
  ⟨by decide, by decide, ⟨12, by decide⟩, ⟨12, by decide⟩, by decide, by decide, fun h => (by cases h), fun h => by cases h⟩

def raceMem : Mem := ⟨fun _ => 0#8, fun _ => none⟩

def raceRange (nu : Nat) : Range :=
  { base := 8192, header := 0, init := some 12288, nextUnused := nu, mmapAddr := 0, mmapLen := 16384, bitmap := none, canary := 1#8 }

/-- Memory after the creation of the pool. -/
def raceMem1 : Mem := mapRange raceC 8192 raceMem

/-- The memory thread 0's page fault has seen: item 1 not yet initialised. -/
def racePend : Pend := ⟨8192, 8192, snapOf 4096 raceMem1 8192⟩

/-- Thread 1's allocation: `malloc_init` of one byte, value 7. -/
def raceFill : Fill := .init (fun _ => 7#8) 1

/-- The states of the schedule. -/
def raceS (mem : Mem) (nu : Nat) (lock : Option Nat) (t0 t1 : TSt) (p0 : Option Pend) (live : List Nat) : CState :=
  { mem := mem, pool := ⟨[raceRange nu], 0, 1⟩, lock := lock, th := upd (upd (fun _ => .idle) 0 t0) 1 t1
    pend := upd (fun _ => none) 0 p0, live := live }

theorem race_th0 (a b b' : TSt) : upd (upd (upd (fun _ => TSt.idle) 0 a) 1 b) 0 b' = upd (upd (fun _ => .idle) 0 b') 1 b := by
  funext u; unfold upd; split <;> split <;> simp_all

theorem race_th1 (a b b' : TSt) : upd (upd (upd (fun _ => TSt.idle) 0 a) 1 b) 1 b' = upd (upd (fun _ => .idle) 0 a) 1 b' := by
  funext u; unfold upd; split <;> simp_all

theorem race_pend (a b : Option Pend) : upd (upd (fun _ => (none : Option Pend)) 0 a) 0 b = upd (fun _ => none) 0 b := by
  funext u; unfold upd; split <;> simp_all

theorem race_init : CReach raceC true (raceS raceMem1 0 none .idle .idle none []) := by
  have h := CReach.create (c := raceC) (split := true) raceMem { base := some 8192 } (raceRange 0) raceMem1
    (fun _ _ h => by cases h) ⟨fun b e => ?_, fun _ _ _ h => by cases h⟩ rfl
  · have e1 : upd (upd (fun _ => TSt.idle) 0 .idle) 1 .idle = fun _ => .idle := by
      funext u; unfold upd; split <;> (try split) <;> rfl
    have e2 : upd (fun _ => (none : Option Pend)) 0 none = fun _ => none := by
      funext u; unfold upd; split <;> rfl
    unfold raceS
    rw [e1, e2]
    exact h
  · cases e
    exact ⟨by decide, by decide, by decide, fun r hr => (by cases hr), fun x hx => hx⟩

/-- Thread 0 allocates item 0 without initialisation. -/
theorem race_first : CReach raceC true (raceS raceMem1 8 none .idle .idle none [8192]) := by
  have h0 := race_init
  have h1 := CReach.step h0 (CStep.alloc 0 (.plain 8) rfl rfl (by decide))
  have h2 := CReach.step h1 (CStep.lockAlloc 0 (.plain 8) rfl rfl)
  have h3 := CReach.step h2 (CStep.take 0 (.plain 8) (raceRange 8) 0 8192 ⟨[raceRange 8], 0, 1⟩ (raceRange 8) 0 8192
    { pool := ⟨[raceRange 8], 0, 1⟩, mem := raceMem1 } rfl rfl)
  have h4 := CReach.step h3 (CStep.returned 0 (.plain 8) 8192 rfl rfl)
  have e : upd (upd (upd (upd (upd (upd (fun _ => TSt.idle) 0 .idle) 1 .idle) 0 (.wantAlloc (.plain 8))) 0
      (.inAlloc (.plain 8) (lockedP raceC ⟨[raceRange 0], 0, 1⟩))) 0 (.filling (.plain 8) 8192 (fillP raceC (raceRange 8) 0 (.plain 8)))) 0 .idle =
      upd (upd (fun _ => TSt.idle) 0 .idle) 1 .idle := by
    rw [race_th0, race_th0, race_th0, race_th0]
  unfold raceS at h4 ⊢
  dsimp only at h4
  rw [e] at h4
  exact h4

/-- The byte program of thread 1 after each of its accesses. -/
def raceP1 : MProg Unit := fillP raceC (raceRange 16) 8 raceFill

theorem raceP1_eq : raceP1 = .wr 12296 7#8 (.rd 8200 fun b =>
    (MProg.ret (b == 7#8)).bind fun e => if e then ret () else (writeP 8200 (fun _ => 7#8) 1)) := rfl

theorem race_second : CReach raceC true (raceS raceMem1 16 none .idle (.filling raceFill 8200 raceP1) none [8192]) := by
  have h0 := race_first
  have h1 := CReach.step h0 (CStep.alloc 1 raceFill rfl rfl (by decide))
  have h2 := CReach.step h1 (CStep.lockAlloc 1 raceFill rfl rfl)
  have h3 := CReach.step h2 (CStep.take 1 raceFill (raceRange 16) 8 8200 ⟨[raceRange 16], 0, 1⟩ (raceRange 16) 8 8200
    { pool := ⟨[raceRange 16], 0, 1⟩, mem := raceMem1 } rfl rfl)
  unfold raceS at h3 ⊢
  dsimp only at h3
  rw [race_th1, race_th1, race_th1] at h3
  exact h3

/-- C28, negation: with the kernel copying the page before it switches the page table entry, a
`malloc_init` returns an item that does not show the given content: a store to a neighbouring live item
faults, the kernel copies the page, the allocation initialises the init area and finds CPU 0's instance
(still the shared page) equal, the kernel installs the old copy.  Finding F18. -/
theorem cow_race_loses_init :
    ∃ s s' t p f len, CReach raceC true s ∧ CStep raceC true s (.returned t (.init f len) p) s' ∧
      s'.mem.read raceC.pg (cpuAddr raceC p 0) ≠ f 0 ∧ 0 < len := by
  have h0 := race_second
  -- thread 0 stores to its item 0: the page is shared, the kernel copies it
  have h1 := CReach.step h0 (CStep.snapStore 0 8192 0 0 3 rfl rfl List.mem_cons_self (by decide) (by decide) rfl rfl)
  -- thread 1 initialises the init area
  have h2 := CReach.step h1 (CStep.writeFill 1 raceFill 8200 12296 7#8 _ rfl rfl (fun _ => rfl))
  -- thread 1 compares CPU 0's instance: equal
  have h3 := CReach.step h2 (CStep.readFill 1 raceFill 8200 8200 _ rfl rfl)
  -- the kernel installs the copy
  have h4 := CReach.step h3 (CStep.install 0 racePend rfl)
  -- thread 1 returns
  refine ⟨_, _, 1, 8200, _, 1, h4, CStep.returned 1 raceFill 8200 rfl rfl, ?_, by decide⟩
  decide +kernel

/-- An execution with two live items on one shared page and a page fault of the two-phase kind, as in
`conc_exclusive` and `conc_undisturbed_faults`. -/
example : ∃ s, CReach raceC true s ∧ s.live = [8200, 8192] := by
  have h1 := CReach.step race_second (CStep.snapStore 0 8192 0 0 3 rfl rfl List.mem_cons_self (by decide) (by decide) rfl rfl)
  have h2 := CReach.step h1 (CStep.writeFill 1 raceFill 8200 12296 7#8 _ rfl rfl (fun _ => rfl))
  have h3 := CReach.step h2 (CStep.readFill 1 raceFill 8200 8200 _ rfl rfl)
  have h4 := CReach.step h3 (CStep.install 0 racePend rfl)
  exact ⟨_, CReach.step h4 (CStep.returned 1 raceFill 8200 rfl rfl), rfl⟩

/-- The configuration of the witness is outside `FaultSafe`, as it must be. -/
example : ¬ FaultSafe raceC true := by
  rintro (h | h | h)
  · cases h
  · cases h
  · exact absurd h (by decide)

end Verif.PoolConc
