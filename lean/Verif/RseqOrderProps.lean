import Verif.RseqOrder
/-
C42: the release helpers publish what they stored.  See `RseqOrder.lean` for the store-buffer machine.
-/

namespace Verif.Rseq

variable {n : Nat}

/-- The architectures whose manuals promise that stores become visible in program order.  Written here
once more, apart from the machine's `tso`. -/
def KeepsStoreOrder (arch : Arch) : Prop := arch = .x86_64 ∨ arch = .i386 ∨ arch = .s390

theorem tso_iff (arch : Arch) : tso arch = true ↔ KeepsStoreOrder arch := by
  cases arch <;> simp [tso, KeepsStoreOrder]

theorem tso_false (arch : Arch) : tso arch = false ↔ ¬ KeepsStoreOrder arch := by
  rw [← tso_iff]; simp

theorem octx (hn : 4 ≤ n) {arch : Arch} {rel be : Bool} {al : Opnd → Nat} {csa : W n} {op : Op n}
    {p : Prog n} (hp : program al be csa arch op.kind rel = some p) (hpub : Publishes op)
    (hord : KeepsStoreOrder arch ∨ rel = true) (hok : CallOK arch al op) (ht : Tidy op)
    {cpu : BitVec 32} {l0 : LSt n} (hs : Setup (clobbers arch op.kind) (signExt arch) al op cpu l0) :
    OCtx (tso arch) p (clobbers arch op.kind) (signExt arch) al arch op cpu l0 := by
  refine ⟨zoneOK_facts (program_zoneOK al be csa arch op.kind rel p hp),
    program_postOK al be csa arch op.kind rel p hp, ?_,
    helpers_implement_pseudocode hn arch rel be al csa op p hp hok,
    program_foot hn arch rel be al csa op p hp hok ht, hok, ht, hpub, hs⟩
  intro h0
  rcases hord with h | h
  · rw [← tso_iff, h0] at h; simp at h
  · subst h
    rcases program_relOK al be csa arch op.kind p hp with h | h
    · rw [h0] at h; simp at h
    · exact h

/-- The value the final store writes. -/
def pubVal : Op n → W n
  | .cbneStoreStore _ _ _ _ newv => newv
  | .cbneMemcpyStore _ _ _ _ _ newv => newv
  | _ => 0#_

/-- **C42.** A call of `rseq_load_cbne_store_store__ptr` or `rseq_load_cbne_memcpy_store__ptr` with release
order (on x86 and s390, with any order) runs on a CPU with a store buffer, while other CPUs change memory
outside the call's footprint and the kernel may abort the call at any point of the critical section.  As
soon as another CPU can see the variable `v` changed, it sees the new value there, and everything the call
stored before (`v2`, or the copied bytes) is visible, too. -/
theorem release_publishes (hn : 4 ≤ n) {arch : Arch} {rel be : Bool} {al : Opnd → Nat} {csa : W n}
    {op : Op n} {p : Prog n} (hp : program al be csa arch op.kind rel = some p) (hpub : Publishes op)
    (hord : KeepsStoreOrder arch ∨ rel = true) (hok : CallOK arch al op) (ht : Tidy op)
    {cpu fv : BitVec 32} {l0 : LSt n} (hs : Setup (clobbers arch op.kind) (signExt arch) al op cpu l0)
    {b0 : List (Ent n)} {m0 : Mem n} (hb : ∀ e ∈ b0, ∀ x, InWord (pubVar op) x → ¬ e.covers x)
    {s : OSt n} (h : OSteps (tso arch) p fv (opFoot p.be op (view p.be m0 b0)) ⟨l0, b0, m0⟩ s)
    (hne : ldw p.be s.mem (pubVar op) ≠ ldw p.be m0 (pubVar op)) :
    (pseudo p.be op (view p.be m0 b0)).1 = 0 ∧ ldw p.be s.mem (pubVar op) = pubVal op ∧
      ∀ a, targets op a → s.mem a = (pseudo p.be op (view p.be m0 b0)).2 a := by
  have C := octx hn hp hpub hord hok ht hs
  have hold : ¬ Old op m0 s.mem := fun ho => hne (ldw_agree ho)
  rcases OSteps.inv C hb h with h | h | h
  · exact absurd h.old hold
  · rcases h.buf with h' | h'
    · have hv : ∀ a, opFoot p.be op (view p.be m0 b0) a →
          s.mem a = (pseudo p.be op (view p.be m0 b0)).2 a := by
        intro a ha
        have := h.val a ha
        rw [h'] at this
        exact this
      refine ⟨h.res, ?_, fun a ha => hv a (pub_targets_foot hpub _ _ ha)⟩
      rw [ldw_agree fun a ha => hv a (pub_var_foot hpub _ _ ha)]
      have h0 := h.res
      cases op with
      | cbneStoreStore v expect v2 newv2 newv =>
        simp only [pseudo] at h0 ⊢
        split at h0
        · simp at h0
        · rename_i he
          rw [if_neg he]
          exact ldw_stw_same _ _ _ _
      | cbneMemcpyStore v expect dst src len newv =>
        simp only [pseudo] at h0 ⊢
        split at h0
        · simp at h0
        · rename_i he
          rw [if_neg he]
          exact ldw_stw_same _ _ _ _
      | _ => exact hpub.elim
    · exact absurd h'.2 hold
  · exact absurd h.old hold

theorem OSteps.trans {ord : Bool} {p : Prog n} {fv : BitVec 32} {foot : W n → Prop} {a b c : OSt n}
    (h1 : OSteps ord p fv foot a b) (h2 : OSteps ord p fv foot b c) : OSteps ord p fv foot a c := by
  induction h2 with
  | refl => exact h1
  | step _ hs ih => exact .step ih hs

/-- **C42, message passing.** A reader that loads `v`, finds it changed, and later loads a byte of what the
call stored before, gets the call's byte: the second load cannot see older memory. -/
theorem release_message_passing (hn : 4 ≤ n) {arch : Arch} {rel be : Bool} {al : Opnd → Nat} {csa : W n}
    {op : Op n} {p : Prog n} (hp : program al be csa arch op.kind rel = some p) (hpub : Publishes op)
    (hord : KeepsStoreOrder arch ∨ rel = true) (hok : CallOK arch al op) (ht : Tidy op)
    {cpu fv : BitVec 32} {l0 : LSt n} (hs : Setup (clobbers arch op.kind) (signExt arch) al op cpu l0)
    {b0 : List (Ent n)} {m0 : Mem n} (hb : ∀ e ∈ b0, ∀ x, InWord (pubVar op) x → ¬ e.covers x)
    {s1 s2 : OSt n}
    (h1 : OSteps (tso arch) p fv (opFoot p.be op (view p.be m0 b0)) ⟨l0, b0, m0⟩ s1)
    (hne : ldw p.be s1.mem (pubVar op) ≠ ldw p.be m0 (pubVar op))
    (h2 : OSteps (tso arch) p fv (opFoot p.be op (view p.be m0 b0)) s1 s2) {a : W n} (ha : targets op a) :
    s2.mem a = (pseudo p.be op (view p.be m0 b0)).2 a := by
  have C := octx hn hp hpub hord hok ht hs
  suffices hk : ldw p.be s2.mem (pubVar op) ≠ ldw p.be m0 (pubVar op) from
    (release_publishes hn hp hpub hord hok ht hs hb (h1.trans h2) hk).2.2 a ha
  induction h2 with
  | refl => exact hne
  | @step u w hu hw ih =>
    have hi := OSteps.inv C hb (h1.trans hu)
    have hnb : u.buf = [] := by
      rcases hi with h | h | h
      · exact absurd (ldw_agree h.old) ih
      · exact h.buf.resolve_right fun h' => ih (ldw_agree h'.2)
      · exact absurd (ldw_agree h.old) ih
    cases hw with
    | exec hp hc => exact ih
    | flush hb hm => rw [hnb] at hb; simp at hb
    | other m hm =>
      intro he
      refine ih (Eq.trans (ldw_agree fun x hx => ?_) he)
      exact (hm x (pub_var_foot hpub _ _ hx)).symm
    | abort hp h1 h2 => exact ih

/-! ### Examples -/

/-- Uninterrupted execution without draining the buffer. -/
def orun (p : Prog n) (fv : BitVec 32) : Nat → OSt n → OSt n
  | 0, s => s
  | k + 1, s =>
    match s.l.pc with
    | .ret _ => s
    | .at i =>
      match p.code[i]? with
      | none => s
      | some ins => orun p fv k
        { l := (exec p fv i ins s.l (view p.be s.mem s.buf)).1
          buf := s.buf ++ ents p.be ins s.l (view p.be s.mem s.buf)
          mem := s.mem }

theorem orun_steps {ord : Bool} {p : Prog n} {fv : BitVec 32} {foot : W n → Prop} :
    ∀ (k : Nat) (s : OSt n), OSteps ord p fv foot s (orun p fv k s) := by
  intro k
  induction k with
  | zero => intro s; exact .refl
  | succ k ih =>
    intro s
    unfold orun
    split
    · exact .refl
    · split
      · exact .refl
      · exact OSteps.trans (.step .refl (.exec (by assumption) (by assumption))) (ih _)

/-- `rseq_load_cbne_store_store__ptr(0x1000, 0, 0x2000, 0x11, 0x55)` on zeroed memory. -/
def exPub : Op 8 := .cbneStoreStore 0x1000#64 0#64 0x2000#64 0x11#64 0x55#64

theorem exPub_tidy : Tidy exPub := by
  intro x h1 h2
  have h1 : (x - 0x2000#64).toNat < 8 := h1
  have h2 : (x - 0x1000#64).toNat < 8 := h2
  bv_omega

theorem ex_relaxed_buf (arch : Arch) (hw : ¬ KeepsStoreOrder arch) (p : Prog 8)
    (hp : program exAl false 0#64 arch .cbneStoreStore false = some p) :
    (orun p 0#32 40 ⟨entry exInv exPub 0#32, [], fun _ => 0#8⟩).buf =
      [.word 0x2000#64 0x11#64, .word 0x1000#64 0x55#64] := by
  cases arch <;>
    first
      | (simp [KeepsStoreOrder] at hw; done)
      | (simp only [program, reduceCtorEq] at hp; done)
      | (simp only [program, Option.some.injEq] at hp; subst hp; decide +kernel)

theorem orun_mem {p : Prog n} {fv : BitVec 32} : ∀ (k : Nat) (s : OSt n), (orun p fv k s).mem = s.mem := by
  intro k
  induction k with
  | zero => intro s; rfl
  | succ k ih =>
    intro s
    unfold orun
    split
    · rfl
    · split
      · rfl
      · rw [ih]

/-- **C42, the release order is needed.** With relaxed order, on each architecture that does not keep
stores in order, the variable can become visible before the value it publishes: another CPU sees `v`
changed to 0x55 while `v2` still holds the old 0. -/
theorem relaxed_may_reorder (arch : Arch) (hw : ¬ KeepsStoreOrder arch) (p : Prog 8)
    (hp : program exAl false 0#64 arch exPub.kind false = some p) (foot : W 8 → Prop) :
    ∃ s, OSteps (tso arch) p 0#32 foot ⟨entry exInv exPub 0#32, [], fun _ => 0#8⟩ s ∧
      ldw false s.mem 0x1000#64 = 0x55#64 ∧ ldw false s.mem 0x2000#64 = 0#64 := by
  have hb := ex_relaxed_buf arch hw p hp
  refine ⟨_, .step (orun_steps 40 _) (OStep.flush
    (pre := [Ent.word (n := 8) 0x2000#64 0x11#64]) (e := Ent.word (n := 8) 0x1000#64 0x55#64)
    (post := []) hb ?_), ?_, ?_⟩
  · refine .inr ⟨(tso_false arch).2 hw, by simp, ?_⟩
    intro d hd
    simp only [List.mem_singleton] at hd
    subst hd
    refine ⟨by simp, ?_⟩
    intro x h1 h2
    have h1 : (x - 0x1000#64).toNat < 8 := h1
    have h2 : (x - 0x2000#64).toNat < 8 := h2
    bv_omega
  · rw [orun_mem]
    cases arch <;> simp only [exPub, Op.kind, program, Option.some.injEq] at hp <;> subst hp <;>
      decide +kernel
  · rw [orun_mem]
    cases arch <;> simp only [exPub, Op.kind, program, Option.some.injEq] at hp <;> subst hp <;>
      decide +kernel

theorem drain {ord : Bool} {p : Prog n} {fv : BitVec 32} {foot : W n → Prop} :
    ∀ (b : List (Ent n)) (l : LSt n) (m : Mem n),
      OSteps ord p fv foot ⟨l, b, m⟩ ⟨l, [], view p.be m b⟩ := by
  intro b
  induction b with
  | nil => intro l m; exact .refl
  | cons e r ih =>
    intro l m
    exact OSteps.trans (.step .refl (.flush (pre := []) (e := e) (post := r) rfl (.inl rfl))) (ih l _)

/-- The release theorem's hypotheses can be met: on every architecture the example call, executed and its
buffer drained, makes the change of `v` visible. -/
theorem ex_release (arch : Arch) (p : Prog 8)
    (hp : program exAl false 0#64 arch exPub.kind true = some p) :
    ∃ s, OSteps (tso arch) p 0#32 (opFoot p.be exPub (view p.be (fun _ => 0#8) []))
        ⟨entry exInv exPub 0#32, [], fun _ => 0#8⟩ s ∧
      ldw p.be s.mem (pubVar exPub) ≠ ldw p.be (fun _ => 0#8) (pubVar exPub) := by
  refine ⟨_, (orun_steps 40 _).trans (drain _ _ _), ?_⟩
  cases arch <;> simp only [exPub, Op.kind, program, Option.some.injEq] at hp <;> subst hp <;>
    decide +kernel

/-- The theorem applied to it. -/
theorem ex_release_sees (arch : Arch) (p : Prog 8)
    (hp : program exAl false 0#64 arch exPub.kind true = some p) {s : OSt 8}
    (h : OSteps (tso arch) p 0#32 (opFoot p.be exPub (view p.be (fun _ => 0#8) []))
        ⟨entry exInv exPub 0#32, [], fun _ => 0#8⟩ s)
    (hne : ldw p.be s.mem 0x1000#64 ≠ ldw p.be (fun _ => 0#8) 0x1000#64) :
    ldw p.be s.mem 0x1000#64 = 0x55#64 ∧ ldw p.be s.mem 0x2000#64 = 0x11#64 := by
  obtain ⟨h0, h1, h2⟩ := release_publishes (by decide) hp trivial (.inr rfl) trivial exPub_tidy
    (entry_setup (by decide) arch exPub 0#32) (b0 := []) (fun e he => by simp at he) h hne
  refine ⟨h1, ?_⟩
  rw [ldw_agree h2]
  simp only [exPub, pseudo] at h0 ⊢
  split at h0
  · simp at h0
  · rename_i he
    rw [if_neg he]
    rw [ldw_stw_ne, ldw_stw_same]
    intro x h1 h2
    have h1 : (x - _).toNat < 8 := h1
    have h2 : (x - _).toNat < 8 := h2
    bv_omega

end Verif.Rseq
