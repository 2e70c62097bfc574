import Verif.RseqSymAll
import Verif.RseqArchProps
/-
Soundness of the check of whole programs.
-/

namespace Verif.Rseq

variable {n : Nat} {al : Opnd → Nat} {env : Nat → W n} {σ : Sy} {l : LSt n}

/-- All paths from `σ` follow the tree. -/
def Good (arch : Arch) (k : Kind) (q : Prog n) (σ : Sy) : Prop :=
  ∃ f, follows arch k q.code q.start q.commit f σ = true

theorem good_entry {arch : Arch} {k : Kind} {q : Prog n} (h : treeOK arch k q.code q.start q.commit = true) :
    Good arch k q (sy0 (backwards arch) (rereads arch) k) := by
  simp only [treeOK, Bool.and_eq_true] at h
  exact ⟨60, h.1⟩

theorem good_head {arch : Arch} {k : Kind} {q : Prog n} (h : treeOK arch k q.code q.start q.commit = true)
    (hk : loops k = true) : Good arch k q (syH arch (headOf q.code)) := by
  simp only [treeOK, Bool.and_eq_true, hk, Bool.not_true, Bool.false_or] at h
  exact ⟨60, h.2⟩

theorem good_ret (hn : 1 ≤ n) {arch : Arch} {k : Kind} {q : Prog n} (hg : Good arch k q σ) {r : Int} (hp : σ.pc = .ret r)
    (env : Nat → W n) : (r = -1 → σ.tree.conc env ≠ .ret 0) ∧ (r ≠ -1 → σ.tree.conc env = .ret r) := by
  obtain ⟨f, hf⟩ := hg
  unfold follows at hf
  cases f with
  | zero => cases hf
  | succ f =>
    simp only [explore, hp] at hf
    by_cases hr : r = -1
    · rw [if_pos hr] at hf
      exact ⟨fun _ => not0_conc hn hf env, fun h => absurd hr h⟩
    · rw [if_neg hr, beq_iff_eq] at hf
      exact ⟨fun h => absurd h hr, fun _ => by rw [hf]; rfl⟩

theorem good_abort (hn : 1 ≤ n) {arch : Arch} {k : Kind} {q : Prog n} (hg : Good arch k q σ) {i : Nat} (hp : σ.pc = .at i)
    (h1 : q.start ≤ i) (h2 : i < q.commit) (env : Nat → W n) : σ.tree.conc env ≠ .ret 0 := by
  obtain ⟨f, hf⟩ := hg
  unfold follows at hf
  cases f with
  | zero => cases hf
  | succ f =>
    simp only [explore, hp, Bool.and_eq_true] at hf
    have : (Nat.ble q.start i && Nat.blt i q.commit) = true := by
      rw [show Nat.ble q.start i = true from Nat.ble_eq_true_of_le h1,
        show Nat.blt i q.commit = true from Nat.ble_eq_true_of_le h2]; rfl
    rw [this] at hf
    exact not0_conc hn hf.1 env

theorem arrives_rel {σ' H : Sy} (hH : H.tree = .body b (lat 1)) (hz : H.zf = none) (h : Rel al env σ' l)
    (ha : arrives σ' H = true) (hpc : σ'.pc = H.pc) :
    ∃ env', Rel al env' H l ∧ H.tree.conc env' = σ'.tree.conc env := by
  unfold arrives at ha
  rw [hH] at ha
  split at ha
  · rename_i b1 x b2 y h1 h2
    injection h2 with e1 e2
    subst e1
    simp only [Bool.and_eq_true, beq_iff_eq, List.all_eq_true] at ha
    obtain ⟨⟨rfl, hr⟩, hs⟩ := ha
    refine ⟨upd env 1 (ev env x), ⟨?_, by rw [h.pc, hpc], ?_, ?_, ?_⟩, ?_⟩
    · simp [upd, h.one]
    · intro q hq
      rw [h.get (hr q hq), ev_subst]
    · intro q hq
      rw [h.slots _ (lookup_mem (hs q hq)), ev_subst]
    · intro y hy; rw [hz] at hy; cases hy
    · have hop : ∀ o, upd env 1 (ev env x) (oix o) = env (oix o) := by
        intro o
        simp only [upd]; rw [if_neg (by unfold oix; omega)]
      rw [hH, h1]
      simp only [STree.conc, copyRest, hop]
      rw [ev_lat _ (by decide), show upd env 1 (ev env x) 1 = ev env x by simp [upd]]
  · cases ha

theorem good_step (hn : 1 ≤ n) {arch : Arch} {k : Kind} {q : Prog n} (hsep : SepR (sepOK arch k) al)
    (hall : treeOK arch k q.code q.start q.commit = true) (hg : Good arch k q σ)
    (h : Rel al env σ l) {i : Nat} {ins : Instr} (hp : l.pc = .at i) (hc : q.code[i]? = some ins)
    (p : Prog n) (fv : BitVec 32) (m : Mem n) :
    ∃ σ' env' as, Good arch k q σ' ∧ Rel al env' σ' (exec p fv i (ins.ren (rn al)) l m).1 ∧
      Runs (σ.tree.conc env) as (σ'.tree.conc env') ∧ (memFree ins = true → as = []) ∧
      Does p.be m as (exec p fv i (ins.ren (rn al)) l m).2 := by
  obtain ⟨f, hf⟩ := hg
  unfold follows at hf
  cases f with
  | zero => cases hf
  | succ f =>
    have hpc : σ.pc = .at i := by rw [← h.pc]; exact hp
    simp only [explore, hpc, Bool.and_eq_true, hc] at hf
    obtain ⟨-, hf⟩ := hf
    cases hst : σ.step (sepOK arch k) i ins with
    | none => rw [hst] at hf; cases hf
    | some L =>
      rw [hst] at hf
      dsimp only at hf
      rw [List.all_eq_true] at hf
      obtain ⟨σ', hm, env', as, h1, h2, h3, h4⟩ := step_sound hn hsep h hst p fv m
      have hσ := hf σ' hm
      split at hσ
      · rename_i ha
        obtain ⟨env'', h5, h6⟩ := arrives_rel (b := backwards arch) rfl rfl h1 hσ ha.2
        exact ⟨_, env'', as, good_head hall ha.1, h5, by rw [h6]; exact h2, h3, h4⟩
      · exact ⟨σ', env', as, ⟨f, hσ⟩, h1, h2, h3, h4⟩

/-! ### Entry -/

/-- Values of the variables on entry. -/
def env0 (op : Op n) (j : Nat) : W n :=
  if j = 0 then 1#(8 * n) else (op.val (Opnd.ofNum (j - 2))).getD 0#(8 * n)

theorem env0_op (op : Op n) (o : Opnd) : env0 op (oix o) = (op.val o).getD 0#(8 * n) := by
  cases o <;> rfl

theorem env0_val {op : Op n} {o : Opnd} {x : W n} (h : op.val o = some x) : env0 op (oix o) = x := by
  rw [env0_op, h]; rfl

/-- The order in which the copy goes. -/
def Op.order (b : Bool) : Op n → List (W n)
  | .cbneMemcpyStore _ _ _ _ len _ => offs b len (if b = true then len else 0#(8 * n))
  | _ => []

theorem offsF_eq : ∀ (r : Nat) (x : W n), offsF x r = (List.range r).map fun i => x + BitVec.ofNat (8 * n) i := by
  intro r
  induction r with
  | zero => intro x; rfl
  | succ r ih =>
    intro x
    simp only [offsF, List.range_succ_eq_map, List.map_cons, List.map_map, ih]
    congr 1
    · simp
    · apply List.map_congr_left
      intro i _
      simp only [Function.comp, BitVec.add_assoc, ← BitVec.ofNat_add]
      rw [Nat.add_comm 1 i]

theorem offsB_eq : ∀ (r : Nat), (offsB r : List (W n)) = ((List.range r).map (BitVec.ofNat (8 * n))).reverse := by
  intro r
  induction r with
  | zero => rfl
  | succ r ih => simp [offsB, List.range_succ, ih]

theorem order_ok (b : Bool) (op : Op n) : IsOrder op (op.order b) := by
  cases op with
  | cbneMemcpyStore v e dst src len w =>
    simp only [IsOrder, Op.order, offs]
    cases b
    · simp only [Bool.false_eq_true, if_false]
      rw [offsF_eq]
      simp
    · simp only [if_true]
      rw [offsB_eq]
      exact List.reverse_perm _
  | _ => trivial

attribute [local irreducible] lat ev

theorem entry_tree (b re : Bool) (op : Op n) :
    (op.kind.stree b re).conc (env0 op) = op.tree re (op.order b) := by
  have hz : ∀ a c : W n, a - c = 0#(8 * n) ↔ a = c := by
    intro a c
    rw [← sub_zero_iff, beq_iff_eq]
  have ho : ∀ o, oix o < 19 := oix_lt
  have hu : ∀ (e : Nat → W n) k x o, 19 ≤ k → upd e k x (oix o) = e (oix o) := by
    intro e k x o hk
    have := ho o
    simp only [upd]; rw [if_neg (by omega)]
  have hu19 := fun (e : Nat → W n) x o => hu e 19 x o (by decide)
  have hu20 := fun (e : Nat → W n) x o => hu e 20 x o (by decide)
  have hu21 := fun (e : Nat → W n) x o => hu e 21 x o (by decide)
  have l19 := fun (e : Nat → W n) => ev_lat e (j := 19) (by decide)
  have l20 := fun (e : Nat → W n) => ev_lat e (j := 20) (by decide)
  have l21 := fun (e : Nat → W n) => ev_lat e (j := 21) (by decide)
  have u19 : ∀ (e : Nat → W n) x, upd e 19 x 19 = x := fun _ _ => rfl
  have u20 : ∀ (e : Nat → W n) x, upd e 20 x 20 = x := fun _ _ => rfl
  have u21 : ∀ (e : Nat → W n) x, upd e 21 x 21 = x := fun _ _ => rfl
  have u1 : ∀ (e : Nat → W n) x, upd e 20 x 19 = e 19 := fun _ _ => rfl
  have u2 : ∀ (e : Nat → W n) x, upd e 21 x 19 = e 19 := fun _ _ => rfl
  have u3 : ∀ (e : Nat → W n) x, upd e 21 x 20 = e 20 := fun _ _ => rfl
  cases op with
  | cbneMemcpyStore v e dst src len w =>
    simp only [Op.kind, Kind.stree, STree.conc, Op.tree, lop, ev_op, env0_op, Op.val, Option.getD_some]
    congr 1
    funext x
    rw [ev_sub, ev_lat _ (by decide), ev_op, hu _ _ _ _ (by decide), env0_op]
    simp only [u19, Op.val, Option.getD_some, hz]
    by_cases hx : x = e
    · rw [if_pos hx]
      have h0 : ev (upd (env0 (.cbneMemcpyStore v e dst src len w)) 19 x) (if b = true then lat (oix .len) else lcst 0) =
          if b = true then len else 0#(8 * n) := by
        cases b
        · simp only [Bool.false_eq_true, if_false]
          rw [ev_cst (by rfl)]; simp
        · simp only [if_true]
          rw [ev_op, hu _ _ _ _ (by decide), env0_op]; rfl
      simp only [copyRest, Op.order]
      erw [h0]
      simp only [hu _ 19 x _ (by decide), env0_op, Op.val, Option.getD_some]
      simp [hx]
    · rw [if_neg hx, if_pos hx]
  | cbeqStoreAddLoadStore v e o l =>
    cases re <;>
    simp only [Op.kind, Kind.stree, STree.conc, Op.tree, lop, ev_op, env0_op, Op.val, Option.getD_some, ev_sub,
      ev_add, hu19, hu20, hu21, l19, l20, l21, hz, u19, u20, u21, popTree, if_true, Bool.false_eq_true, if_false]
    rfl
  | _ =>
    simp only [Op.kind, Kind.stree, STree.conc, Op.tree, lop, ev_op, env0_op, Op.val, Option.getD_some, ev_sub,
      ev_add, hu19, hu20, hu21, l19, l20, l21, hz, u19, u20, u21, u1, u3]
    try simp [u3]

/-- The symbolic state on entry describes the state the compiler guarantees. -/
theorem entry_rel {clob : List Nat} {sx : Bool} {op : Op n} {cpu : BitVec 32} (h : Setup clob sx al op cpu l)
    (b re : Bool) : Rel al (env0 op) (sy0 b re op.kind) l := by
  have hval := Op.val_opnds op
  refine ⟨rfl, h.pc, ?_, ?_, ?_⟩
  · intro q hq
    obtain ⟨o, ho, rfl⟩ := List.mem_map.1 hq
    obtain ⟨x, hx⟩ := hval o ho
    dsimp only [lop]
    rw [ev_op, env0_val hx, ← h.reg o x hx, show rn al (sym o) = al o by cases o <;> rfl]
  · intro q hq
    obtain ⟨o, ho, rfl⟩ := List.mem_map.1 hq
    obtain ⟨ho, h5⟩ := List.mem_filter.1 ho
    obtain ⟨x, hx⟩ := hval o ho
    dsimp only [lop]
    rw [ev_op, env0_val hx]
    exact h.slot o x hx (by simpa using h5)
  · intro x hx; cases hx

/-- The compiler's choice of registers. -/
theorem entry_sep {arch : Arch} {sx : Bool} {op : Op n} {cpu : BitVec 32}
    (h : Setup (clobbers arch op.kind) sx al op cpu l) (hok : CallOK arch al op) :
    SepR (sepOK arch op.kind) al := by
  have hval := Op.val_opnds op
  have hrn : ∀ o, rn al (sym o) = al o := by intro o; cases o <;> rfl
  have hcl : ∀ r ∈ clobbers arch op.kind, rn al r = r := by
    intro r hr
    have := clobbers_small arch op.kind r hr
    simp [rn, this]
  have hfree : ∀ o ∈ op.kind.opnds, ∀ r ∈ clobbers arch op.kind, al o ≠ r := by
    intro o ho r hr he
    obtain ⟨x, hx⟩ := hval o ho
    exact h.free o x hx (he ▸ hr)
  intro r r' hs
  simp only [sepOK, Bool.and_eq_true, Bool.or_eq_true, bne_iff_ne, ne_eq, List.contains_iff_mem, beq_iff_eq] at hs
  obtain ⟨hne, ⟨hr, hr' | hr'⟩ | ⟨⟨⟨hk, hm⟩, hr⟩, hr'⟩⟩ := hs
  · rw [hcl r hr, hcl r' hr']; exact fun h => hne h.symm
  · obtain ⟨o, ho, rfl⟩ := List.mem_map.1 hr'
    rw [hcl r hr, hrn]; exact hfree o ho r hr
  · cases op with
    | cbneMemcpyStore v e dst src len w =>
      have O := hok.2 hm
      rcases hr' with hr' | hr'
      · rw [hcl r' hr']
        simp only [List.mem_cons, List.not_mem_nil, or_false] at hr
        rcases hr with rfl | rfl | rfl <;> rw [hrn] <;> exact fun h' => hfree _ (by simp [Op.kind, Kind.opnds]) r' hr' h'.symm
      · simp only [List.mem_cons, List.not_mem_nil, or_false] at hr hr'
        obtain ⟨o1, o2, o3, o4, o5, o6, o7, o8, o9⟩ := O
        rcases hr with rfl | rfl | rfl <;> rcases hr' with rfl | rfl | rfl | rfl | rfl <;>
          first
          | exact absurd rfl hne
          | (rw [hrn, hrn]; assumption)
          | (rw [hrn, hrn]; exact Ne.symm (by assumption))
    | _ => simp [Op.kind] at hk

end Verif.Rseq
