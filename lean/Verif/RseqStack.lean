import Verif.RseqClient
/-
Per-CPU linked lists: `this_cpu_list_push` and `this_cpu_list_pop`, tests/basic_percpu_ops_test.c:165-225 (the
same code is in tests/param_test.c).
-/

namespace Verif.Rseq

variable {n : Nat}

/-- Memory holds the list `l` at pointer `p`: specification of a null-terminated singly linked list whose
nodes have their `next` field at offset `off`. -/
def IsList (be : Bool) (off : W n) (m : Mem n) : W n → List (W n) → Prop
  | p, [] => p = 0#_
  | p, x :: r => p = x ∧ x ≠ 0#_ ∧ IsList be off m (ldw be m (x + off)) r

/-- The abstract state: a stack for each CPU; who holds a node that is in no stack (a thread, and how many
signal handlers deep); the node last popped by a thread at a depth. -/
structure Stacks (n : Nat) where
  stk : BitVec 32 → List (W n)
  own : W n → Option (Nat × Nat)
  got : Nat → Nat → Option (W n)

def Stacks.push (G : Stacks n) (c : BitVec 32) (x : W n) : Stacks n where
  stk := fun c' => if c' = c then x :: G.stk c else G.stk c'
  own := fun y => if y = x then none else G.own y
  got := G.got

def Stacks.pop (G : Stacks n) (c : BitVec 32) (t d : Nat) : Stacks n :=
  match G.stk c with
  | [] => G
  | x :: r =>
    { stk := fun c' => if c' = c then r else G.stk c'
      own := fun y => if y = x then some (t, d) else G.own y
      got := fun t' d' => if t' = t ∧ d' = d then some x else G.got t' d' }

def Stacks.give (G : Stacks n) (x : W n) (t d : Nat) : Stacks n :=
  { G with own := fun y => if y = x then some (t, d) else G.own y }

/-- The call that executes its final store in this step. -/
def committing (T : Nat → Site n) (s : State n) (t : Nat) (lab : Lab n) : Option (Frame n) :=
  match lab, (s.th t).top with
  | .exec, some f =>
    match f.l.pc with
    | .at i => if i + 1 = (T f.pid).prog.commit then some f else none
    | .ret _ => none
  | _, _ => none

/-- The abstract operation of a call, applied when it executes its final store. -/
def applyOp (G : Stacks n) (t d : Nat) : Option (Frame n) → Stacks n
  | some f =>
    match f.op with
    | .cbneStore _ _ x => G.push f.cpu x
    | .cbeqStoreAddLoadStore _ _ _ _ => G.pop f.cpu t d
    | _ => G
  | none => G

/-- The memory used: list heads, the nodes, their `next` field, and the local variables `head` of
`this_cpu_list_pop` (bytes private to a thread at a signal depth). -/
structure ListLayout (n : Nat) where
  be : Bool
  fld : Fld
  off : W n
  cpus : List (BitVec 32)
  head : BitVec 32 → W n
  nodes : W n → Prop
  priv : Nat → Nat → W n → Prop

/-- Nothing overlaps, and nothing is at address 0. -/
structure ListLayout.OK (K : ListLayout n) : Prop where
  node0 : ¬ K.nodes 0#_
  head_head : ∀ c ∈ K.cpus, ∀ c' ∈ K.cpus, ∀ a, InWord (K.head c) a → InWord (K.head c') a → c = c'
  next_next : ∀ x y a, K.nodes x → K.nodes y → InWord (x + K.off) a → InWord (y + K.off) a → x = y
  head_next : ∀ c ∈ K.cpus, ∀ x a, K.nodes x → InWord (K.head c) a → ¬ InWord (x + K.off) a
  head_priv : ∀ c ∈ K.cpus, ∀ t d a, InWord (K.head c) a → ¬ K.priv t d a
  next_priv : ∀ x t d a, K.nodes x → InWord (x + K.off) a → ¬ K.priv t d a
  priv_priv : ∀ t d t' d' a, K.priv t d a → K.priv t' d' a → t = t' ∧ d = d'
  null_head : ∀ c ∈ K.cpus, ∀ a, InWord K.off a → ¬ InWord (K.head c) a
  null_priv : ∀ t d a, InWord K.off a → ¬ K.priv t d a

/-- The arguments of the two list functions' calls (lines 179-183, 206-214): push has stored the value of the
head that it read into `node->next` of a node it holds; pop passes a local variable. -/
def ListCall (K : ListLayout n) (G : Stacks n) (m : Mem n) (t d : Nat) (f : Frame n) : Prop :=
  f.fld = K.fld ∧ f.cpu ∈ K.cpus ∧
  ((∃ e x, f.op = .cbneStore (K.head f.cpu) e x ∧ G.own x = some (t, d) ∧ ldw K.be m (x + K.off) = e) ∨
   (∃ load, f.op = .cbeqStoreAddLoadStore (K.head f.cpu) 0#_ K.off load ∧ ∀ a, InWord load a → K.priv t d a))

/-- Executions of any number of threads and signal handlers that use the lists in this way.  Other code may
store anywhere but to list heads, `next` fields of nodes it does not hold, local variables of others, and
the bytes a null node pointer would designate.  Threads may hand nodes to each other. -/
inductive SReach (T : Nat → Site n) (K : ListLayout n) (m0 : Mem n) (G0 : Stacks n) :
    State n → Stacks n → Prop
  | init : SReach T K m0 G0 { mem := m0, th := fun _ => thread0 } G0
  | step {s s' : State n} {G : Stacks n} {t : Nat} {lab : Lab n} (h : SReach T K m0 G0 s G)
      (hs : Step T s t lab s')
      (hi : ∀ f, lab = .invoke f → ListCall K G s.mem t (s.th t).saved.length f)
      (hu : lab = .user → ∀ a, s'.mem a ≠ s.mem a →
        (∀ c ∈ K.cpus, ¬ InWord (K.head c) a) ∧
        (∀ x, K.nodes x → InWord (x + K.off) a → G.own x = some (t, (s.th t).saved.length)) ∧
        (∀ t' d', K.priv t' d' a → t' = t ∧ d' = (s.th t).saved.length) ∧ ¬ InWord K.off a) :
      SReach T K m0 G0 s' (applyOp G t (s.th t).saved.length (committing T s t lab))
  | give {s : State n} {G : Stacks n} {t : Nat} (x : W n) (t' d' : Nat) (h : SReach T K m0 G0 s G)
      (ht : (s.th t).top = none) (ho : G.own x = some (t, (s.th t).saved.length)) :
      SReach T K m0 G0 s (G.give x t' d')

/-- The initial memory and abstract state agree. -/
structure StackInit (K : ListLayout n) (m0 : Mem n) (G0 : Stacks n) : Prop where
  list : ∀ c ∈ K.cpus, IsList K.be K.off m0 (ldw K.be m0 (K.head c)) (G0.stk c)
  mem : ∀ c ∈ K.cpus, ∀ x ∈ G0.stk c, K.nodes x ∧ G0.own x = none
  nodup : ∀ c ∈ K.cpus, (G0.stk c).Nodup
  disj : ∀ c ∈ K.cpus, ∀ c' ∈ K.cpus, ∀ x, x ∈ G0.stk c → x ∈ G0.stk c' → c = c'
  ownN : ∀ x o, G0.own x = some o → K.nodes x
  all : ∀ x, K.nodes x → (∃ o, G0.own x = some o) ∨ ∃ c ∈ K.cpus, x ∈ G0.stk c

variable {T : Nat → Site n} {K : ListLayout n} {m0 : Mem n} {G0 : Stacks n}

/-! ### Helpers -/

theorem IsList.congr {be : Bool} {off : W n} {m m' : Mem n} {l : List (W n)} :
    ∀ {p : W n}, (∀ x ∈ l, ldw be m' (x + off) = ldw be m (x + off)) → IsList be off m p l →
      IsList be off m' p l := by
  induction l with
  | nil => intro p _ h; exact h
  | cons x r ih =>
    intro p h hl
    refine ⟨hl.1, hl.2.1, ?_⟩
    rw [h x (by simp)]
    exact ih (fun y hy => h y (List.mem_cons_of_mem _ hy)) hl.2.2

theorem committing_some {s : State n} {t : Nat} {lab : Lab n} {f : Frame n}
    (h : committing T s t lab = some f) : lab = .exec ∧ (s.th t).top = some f ∧
      ∃ i, f.l.pc = .at i ∧ i + 1 = (T f.pid).prog.commit := by
  unfold committing at h
  split at h
  · next f' hf =>
    split at h
    · next i hi =>
      split at h
      · next hc => injection h with h; subst h; exact ⟨rfl, hf, i, hi, hc⟩
      · simp at h
    · simp at h
  · simp at h

theorem committing_eq {s : State n} {t i : Nat} {f : Frame n} (hf : (s.th t).top = some f)
    (hp : f.l.pc = .at i) (hc : i + 1 = (T f.pid).prog.commit) : committing T s t .exec = some f := by
  unfold committing
  rw [hf]
  dsimp only
  rw [hp]
  dsimp only
  rw [if_pos hc]

/-- What a section in progress has touched, in terms of current memory. -/
theorem rep_foot {p : Prog n} {clob : List Nat} {sx : Bool} {al : Opnd → Nat} {op : Op n}
    (hf : FootOK p clob sx al op) {cpu fv : BitVec 32} {m : Mem n} {l0 l : LSt n} {F : W n → Prop}
    (hs : Setup clob sx al op cpu l0) (h : Rep p fv m l0 l F) : ∀ a, F a → opFoot p.be op m a := by
  induction h with
  | refl => intro a h; exact h.elim
  | @step l l' F i ins hr hp hc he ih =>
    intro a ha
    rcases ha with ha | ha
    · have := hf.rep hs hr
      unfold SOK at this
      rw [hp] at this
      dsimp only at this
      rw [hc] at this
      exact this.1 a ha
    · exact ih a ha

theorem body_foot (hn : 4 ≤ n) {s : State n} (hI : Inv T s) {t : Nat} {f : Frame n}
    (hr : (s.th t).run = true) (ht : (s.th t).top = some f)
    (hz : zone (T f.pid).prog f.l.pc = .body) :
    (∀ a, f.foot a → opFoot (T f.pid).prog.be f.op s.mem a) ∨ Quiet (T f.pid).prog f.l := by
  have hi := (hI.th t).top f ht
  have hrng := hi.rng (.inr hz)
  have hreg := (body_on hn hI hr ht hz).reg
  obtain ⟨-, r5, r6⟩ := (hrng.regd hreg).2.2 hr
  rcases r6 with r6 | r6
  · exact .inl (rep_foot (hi.base.foot hn) hi.base.setup (r5.agree r6))
  · exact .inr r6

/-! ### The invariant -/

/-- A list call in progress. -/
def ListFrame (K : ListLayout n) (G : Stacks n) (m : Mem n) (t d : Nat) (f : Frame n) : Prop :=
  f.fld = K.fld ∧ f.cpu ∈ K.cpus ∧
  ((∃ e x, f.op = .cbneStore (K.head f.cpu) e x ∧
      (f.commits = 0 → G.own x = some (t, d) ∧ ldw K.be m (x + K.off) = e)) ∨
   (∃ load, f.op = .cbeqStoreAddLoadStore (K.head f.cpu) 0#_ K.off load ∧
      (∀ a, InWord load a → K.priv t d a) ∧
      (f.commits ≠ 0 → ∃ x, G.got t d = some x ∧ G.own x = some (t, d) ∧ ldw K.be m load = x)))

structure SInv (T : Nat → Site n) (K : ListLayout n) (m0 : Mem n) (s : State n) (G : Stacks n) : Prop
    extends StackInit K s.mem G where
  reach : PReach T m0 s
  frames : ∀ t d f, frameAt (s.th t) d = some f → ListFrame K G s.mem t d f

/-- What changes in memory. -/
theorem list_changes (hn : 4 ≤ n) (hbe : ∀ p, (T p).prog.be = K.be) (hK : K.OK) {s s' : State n}
    {G : Stacks n} (ih : SInv T K m0 s G) {t : Nat} {lab : Lab n} (hs : Step T s t lab s') (a : W n)
    (ha : s'.mem a ≠ s.mem a) :
    lab = .user ∨ ∃ f, (s.th t).top = some f ∧ (s.th t).run = true ∧
      zone (T f.pid).prog f.l.pc = .body ∧
      (K.priv t (s.th t).saved.length a ∨
        (InWord (K.head f.cpu) a ∧ committing T s t lab = some f)) := by
  have hI := ih.reach.inv hn
  cases hs with
  | exec f i ins l' m' hr ht hp hc he =>
    right
    have hacc := body_access hn hI hr ht hp hc he
    refine ⟨f, ht, hr, ?_, ?_⟩
    · apply Classical.byContradiction
      intro hz
      exact ha (congrFun (hacc.1 hz).1 a)
    · obtain ⟨-, -, hop⟩ := ih.frames t _ f (by rw [frameAt_top rfl]; exact ht)
      rcases hacc.2.2.2 with ⟨hcm, h⟩ | ⟨hcm, h⟩
      · have hcom := committing_eq (T := T) ht hp hcm
        rcases hop with ⟨e, x, hop, -⟩ | ⟨load, hop, hl, -⟩
        · have := hacc.2.2.1 a ha
          rw [hop] at this
          exact .inr ⟨this, hcom⟩
        · rw [hop] at h
          simp only [pseudo] at h
          split at h
          · simp at h
          · injection h with _ h
            by_cases h1 : InWord (K.head f.cpu) a
            · exact .inr ⟨h1, hcom⟩
            · by_cases h2 : InWord load a
              · exact .inl (hl a h2)
              · exact absurd (by dsimp only; rw [← h, stw_other _ _ _ _ _ h1, stw_other _ _ _ _ _ h2]) ha
      · have := h a ha
        rcases hop with ⟨e, x, hop, -⟩ | ⟨load, hop, hl, -⟩
        · rw [hop] at this; exact this.elim
        · rw [hop] at this; exact .inl (hl a this)
  | user => exact .inl rfl
  | _ => exact absurd rfl ha

/-- Steps do not disturb running sections. -/
theorem list_polite (hn : 4 ≤ n) (hbe : ∀ p, (T p).prog.be = K.be) (hK : K.OK) {s s' : State n}
    {G : Stacks n} (ih : SInv T K m0 s G) {t : Nat} {lab : Lab n} (hs : Step T s t lab s')
    (hu : lab = .user → ∀ a, s'.mem a ≠ s.mem a →
        (∀ c ∈ K.cpus, ¬ InWord (K.head c) a) ∧
        (∀ x, K.nodes x → InWord (x + K.off) a → G.own x = some (t, (s.th t).saved.length)) ∧
        (∀ t' d', K.priv t' d' a → t' = t ∧ d' = (s.th t).saved.length) ∧ ¬ InWord K.off a) :
    Polite T s t s' := by
  have hI := ih.reach.inv hn
  intro u g hut hru hg hzg
  rcases (body_foot hn hI hru hg hzg).symm with hq | hft
  · exact .inr hq
  left
  intro a ha
  apply Classical.byContradiction
  intro hne
  obtain ⟨g1, g2, g3⟩ := ih.frames u _ g (by rw [frameAt_top rfl]; exact hg)
  -- where the byte is
  have hwhere : InWord (K.head g.cpu) a ∨ K.priv u (s.th u).saved.length a ∨
      (∃ x, K.nodes x ∧ G.own x = none ∧ InWord (x + K.off) a) ∨ InWord K.off a := by
    have h1 := hft a ha
    rw [hbe] at h1
    rcases g3 with ⟨e, x, hop, -⟩ | ⟨load, hop, hl, -⟩
    · rw [hop] at h1; exact .inl h1
    · rw [hop] at h1
      rcases h1 with h1 | h1 | h1
      · exact .inl h1
      · exact .inr (.inl (hl a h1))
      · have hlist := ih.list g.cpu g2
        have hmem := ih.mem g.cpu g2
        cases hx : G.stk g.cpu with
        | nil =>
          rw [hx] at hlist
          rw [show ldw K.be s.mem (K.head g.cpu) = 0#_ from hlist, BitVec.zero_add] at h1
          exact .inr (.inr (.inr h1))
        | cons x r =>
          rw [hx] at hlist hmem
          rw [hlist.1] at h1
          exact .inr (.inr (.inl ⟨x, (hmem x (by simp)).1, (hmem x (by simp)).2, h1⟩))
  rcases list_changes hn hbe hK ih hs a (fun e => hne e.symm) with hl | ⟨f, hf, hrf, hzf, hw⟩
  · obtain ⟨c1, c2, c3, c4⟩ := hu hl a (fun e => hne e.symm)
    rcases hwhere with h | h | ⟨x, hx, ho, h⟩ | h
    · exact c1 _ g2 h
    · exact hut (c3 _ _ h).1
    · rw [c2 x hx h] at ho; simp at ho
    · exact c4 h
  · obtain ⟨f1, f2, -⟩ := ih.frames t _ f (by rw [frameAt_top rfl]; exact hf)
    rcases hw with hw | ⟨hw, -⟩
    · rcases hwhere with h | h | ⟨x, hx, ho, h⟩ | h
      · exact hK.head_priv _ g2 _ _ a h hw
      · exact hut (hK.priv_priv _ _ _ _ a h hw).1
      · exact hK.next_priv x _ _ a hx h hw
      · exact hK.null_priv _ _ a h hw
    · rcases hwhere with h | h | ⟨x, hx, ho, h⟩ | h
      · have := hK.head_head _ f2 _ g2 a hw h
        exact hut (body_exclusive hn hI hrf hru hf hg hzf hzg (f1.trans g1.symm) this).symm
      · exact hK.head_priv _ f2 _ _ a hw h
      · exact hK.head_next _ f2 x a hx hw h
      · exact hK.null_head _ f2 a h hw

/-- The final store of a call: the abstract operation takes place. -/
theorem list_commit (hn : 4 ≤ n) (hbe : ∀ p, (T p).prog.be = K.be) (hK : K.OK) {s s' : State n}
    {G : Stacks n} (ih : SInv T K m0 s G) {t : Nat} (hs : Step T s t .exec s') (hpol : Polite T s t s')
    {f : Frame n} (hcom : committing T s t .exec = some f) :
    SInv T K m0 s' (applyOp G t (s.th t).saved.length (some f)) := by
  have hI := ih.reach.inv hn
  obtain ⟨-, ht, i, hp, hcm⟩ := committing_some hcom
  have hreach := ih.reach.step hs hpol
  have Z := (T f.pid).facts
  have hz : zone (T f.pid).prog f.l.pc = .body := by
    rw [hp]
    have := Z.sc; have := Z.cc; have := Z.ca; have := Z.an; have := Z.nl
    rcases zone_at_cases Z (i := i) with h'|h'|h'|h'|h'|h'|h' <;>
      first | exact h'.1 | omega
  have hc0 : f.commits = 0 := (((hI.th t).top f ht).rng (.inr hz)).commits
  have hfr := ih.frames t _ f (by rw [frameAt_top rfl]; exact ht)
  obtain ⟨f1, f2, hop⟩ := hfr
  -- frames after the step
  have hframe : ∀ t' d' g, frameAt (s'.th t') d' = some g →
      (t' = t ∧ d' = (s.th t).saved.length ∧ g.fld = f.fld ∧ g.cpu = f.cpu ∧ g.op = f.op ∧ g.commits = 1) ∨
      (¬ (t' = t ∧ d' = (s.th t).saved.length) ∧ frameAt (s.th t') d' = some g) := by
    intro t' d' g hg
    by_cases e : t' = t
    · subst e
      cases hs with
      | exec f' i' ins l' m' hr ht' hp' hc he =>
        rw [ht] at ht'; injection ht' with ht'; subst ht'
        rw [hp] at hp'; injection hp' with hp'; subst hp'
        dsimp only at hg
        rw [updT_same] at hg
        rcases frameAt_case (x := s.th t') hg rfl with ⟨h, hg⟩ | ⟨h, hg⟩
        · injection hg with hg
          refine .inl ⟨rfl, h, by rw [← hg], by rw [← hg], by rw [← hg], ?_⟩
          rw [← hg]; simp [hcm, hc0]
        · exact .inr ⟨fun h' => h h'.2, hg⟩
    · right
      rw [hs.other (fun e' => e e'.symm)] at hg
      exact ⟨fun h => e h.1, hg⟩
  have hps : pseudo K.be f.op s.mem = (0, s'.mem) := by
    cases hs with
    | exec f' i' ins l' m' hr ht' hp' hc he =>
      rw [ht] at ht'; injection ht' with ht'; subst ht'
      rw [hp] at hp'; injection hp' with hp'; subst hp'
      rcases (body_access hn hI hr ht hp hc he).2.2.2 with ⟨-, h⟩ | ⟨h, -⟩
      · rw [hbe] at h; exact h
      · exact absurd hcm h
  rcases hop with ⟨e, x, hop, hx⟩ | ⟨load, hop, hl, -⟩
  · -- push
    obtain ⟨hox, hnx⟩ := hx hc0
    have hxN := ih.ownN x _ hox
    have hx0 : x ≠ 0#_ := fun h => hK.node0 (h ▸ hxN)
    rw [hop] at hps
    simp only [pseudo] at hps
    have hhe : ldw K.be s.mem (K.head f.cpu) = e := by
      apply Classical.byContradiction
      intro h
      rw [if_pos h] at hps
      simp at hps
    rw [if_neg (by simp [hhe])] at hps
    injection hps with _ hmem
    have hnext : ∀ y, K.nodes y → ldw K.be s'.mem (y + K.off) = ldw K.be s.mem (y + K.off) := by
      intro y hy
      rw [← hmem]
      exact ldw_stw_ne _ _ _ _ _ fun a h1 h2 => hK.head_next _ f2 y a hy h2 h1
    have hlist0 : ∀ c ∈ K.cpus, IsList K.be K.off s'.mem (ldw K.be s.mem (K.head c)) (G.stk c) :=
      fun c hc => (ih.list c hc).congr fun y hy => hnext y (ih.mem c hc y hy).1
    have hxs : ∀ c ∈ K.cpus, x ∉ G.stk c := by
      intro c hc h
      have := (ih.mem c hc x h).2
      rw [hox] at this; simp at this
    simp only [applyOp, hop]
    refine { reach := hreach, list := ?_, mem := ?_, nodup := ?_, disj := ?_, ownN := ?_, all := ?_, frames := ?_ }
    · intro c hc
      simp only [Stacks.push]
      split
      · next e' =>
        subst e'
        refine ⟨?_, hx0, ?_⟩
        · rw [← hmem, ldw_stw_same]
        · rw [hnext x hxN, hnx, ← hhe]; exact hlist0 _ hc
      · next e' =>
        have : ldw K.be s'.mem (K.head c) = ldw K.be s.mem (K.head c) := by
          rw [← hmem]
          exact ldw_stw_ne _ _ _ _ _ fun a h1 h2 => e' (hK.head_head _ hc _ f2 a h1 h2)
        rw [this]; exact hlist0 c hc
    · intro c hc y hy
      simp only [Stacks.push] at hy ⊢
      split at hy
      · next e' =>
        subst e'
        rcases List.mem_cons.1 hy with rfl | hy
        · exact ⟨hxN, if_pos rfl⟩
        · have := ih.mem _ hc y hy
          refine ⟨this.1, ?_⟩
          split
          · rfl
          · exact this.2
      · have := ih.mem c hc y hy
        refine ⟨this.1, ?_⟩
        split
        · rfl
        · exact this.2
    · intro c hc
      simp only [Stacks.push]
      split
      · next e' => subst e'; exact List.nodup_cons.2 ⟨hxs _ hc, ih.nodup _ hc⟩
      · exact ih.nodup c hc
    · intro c hc c' hc' y h1 h2
      simp only [Stacks.push] at h1 h2
      split at h1 <;> split at h2
      · next e1 e2 => exact e1.trans e2.symm
      · next e1 e2 =>
        subst e1
        rcases List.mem_cons.1 h1 with rfl | h1
        · exact absurd h2 (hxs _ hc')
        · exact ih.disj _ hc _ hc' y h1 h2
      · next e1 e2 =>
        subst e2
        rcases List.mem_cons.1 h2 with rfl | h2
        · exact absurd h1 (hxs _ hc)
        · exact ih.disj _ hc _ hc' y h1 h2
      · exact ih.disj _ hc _ hc' y h1 h2
    · intro y o ho
      simp only [Stacks.push] at ho
      split at ho
      · simp at ho
      · exact ih.ownN y o ho
    · intro y hy
      simp only [Stacks.push]
      by_cases e' : y = x
      · subst e'
        exact .inr ⟨f.cpu, f2, by simp⟩
      · rw [if_neg e']
        rcases ih.all y hy with h | ⟨c, hc, h⟩
        · exact .inl h
        · refine .inr ⟨c, hc, ?_⟩
          split
          · next e'' => subst e''; exact List.mem_cons_of_mem _ h
          · exact h
    · intro t' d' g hg
      rcases hframe t' d' g hg with ⟨rfl, rfl, g1, g2, g3, g4⟩ | ⟨hne, hg⟩
      · refine ⟨g1.trans f1, g2 ▸ f2, .inl ⟨e, x, ?_, fun h => ?_⟩⟩
        · rw [g2, g3]; exact hop
        · rw [g4] at h; simp at h
      · obtain ⟨h1, h2, h3⟩ := ih.frames t' d' g hg
        refine ⟨h1, h2, ?_⟩
        rcases h3 with ⟨e', x', hop', hx'⟩ | ⟨load', hop', hl', hx'⟩
        · refine .inl ⟨e', x', hop', fun h => ?_⟩
          obtain ⟨q1, q2⟩ := hx' h
          have hxx : x' ≠ x := by
            rintro rfl
            rw [hox] at q1
            injection q1 with q1
            injection q1 with a b
            exact hne ⟨a.symm, b.symm⟩
          refine ⟨?_, by rw [hnext x' (ih.ownN _ _ q1)]; exact q2⟩
          simp only [Stacks.push]
          rw [if_neg hxx]; exact q1
        · refine .inr ⟨load', hop', hl', fun h => ?_⟩
          obtain ⟨y, q1, q2, q3⟩ := hx' h
          have hxx : y ≠ x := by
            rintro rfl
            rw [hox] at q2
            injection q2 with q2
            injection q2 with a b
            exact hne ⟨a.symm, b.symm⟩
          refine ⟨y, q1, ?_, ?_⟩
          · simp only [Stacks.push]; rw [if_neg hxx]; exact q2
          · rw [← q3, ← hmem]
            exact ldw_stw_ne _ _ _ _ _ fun a h1 h2 => hK.head_priv _ f2 _ _ a h2 (hl' a h1)
  · -- pop
    rw [hop] at hps
    simp only [pseudo] at hps
    have hne0 : ldw K.be s.mem (K.head f.cpu) ≠ 0#_ := by
      intro h
      rw [if_pos h] at hps
      simp at hps
    rw [if_neg hne0] at hps
    injection hps with _ hmem
    have hlf := ih.list f.cpu f2
    have hmf := ih.mem f.cpu f2
    have hnf := ih.nodup f.cpu f2
    cases hstk : G.stk f.cpu with
    | nil => rw [hstk] at hlf; exact absurd hlf hne0
    | cons x r =>
      rw [hstk] at hlf hmf hnf
      obtain ⟨hhx, hx0, hlr⟩ := hlf
      obtain ⟨hxN, hox⟩ := hmf x (by simp)
      rw [hhx] at hmem
      have hld : ∀ y, K.nodes y → ldw K.be (stw K.be s.mem load x) (y + K.off) = ldw K.be s.mem (y + K.off) :=
        fun y hy => ldw_stw_ne _ _ _ _ _ fun a h1 h2 => hK.next_priv y _ _ a hy h1 (hl a h2)
      rw [hld x hxN] at hmem
      have hnext : ∀ y, K.nodes y → ldw K.be s'.mem (y + K.off) = ldw K.be s.mem (y + K.off) := by
        intro y hy
        rw [← hmem, ldw_stw_ne _ _ _ _ _ fun a h1 h2 => hK.head_next _ f2 y a hy h2 h1]
        exact hld y hy
      have hlist0 : ∀ c ∈ K.cpus, IsList K.be K.off s'.mem (ldw K.be s.mem (K.head c)) (G.stk c) :=
        fun c hc => (ih.list c hc).congr fun y hy => hnext y (ih.mem c hc y hy).1
      simp only [applyOp, hop, Stacks.pop, hstk]
      have hsub : ∀ c ∈ K.cpus, ∀ y, y ∈ (if c = f.cpu then r else G.stk c) → y ∈ G.stk c ∧ y ≠ x := by
        intro c hc y hy
        split at hy
        · next e' =>
          subst e'
          rw [hstk]
          refine ⟨List.mem_cons_of_mem _ hy, ?_⟩
          rintro rfl
          exact (List.nodup_cons.1 hnf).1 hy
        · next e' =>
          refine ⟨hy, ?_⟩
          rintro rfl
          exact e' (ih.disj c hc f.cpu f2 y hy (by rw [hstk]; simp))
      refine { reach := hreach, list := ?_, mem := ?_, nodup := ?_, disj := ?_, ownN := ?_, all := ?_, frames := ?_ }
      · intro c hc
        dsimp only
        split
        · next e' =>
          subst e'
          rw [show ldw K.be s'.mem (K.head f.cpu) = ldw K.be s.mem (x + K.off) by
            rw [← hmem, ldw_stw_same]]
          exact hlr.congr fun y hy => hnext y (hmf y (List.mem_cons_of_mem _ hy)).1
        · next e' =>
          have : ldw K.be s'.mem (K.head c) = ldw K.be s.mem (K.head c) := by
            rw [← hmem, ldw_stw_ne _ _ _ _ _ fun a h1 h2 => e' (hK.head_head _ hc _ f2 a h1 h2)]
            exact ldw_stw_ne _ _ _ _ _ fun a h1 h2 => hK.head_priv _ hc _ _ a h1 (hl a h2)
          rw [this]; exact hlist0 c hc
      · intro c hc y hy
        obtain ⟨h1, h2⟩ := hsub c hc y hy
        have := ih.mem c hc y h1
        exact ⟨this.1, by dsimp only; rw [if_neg h2]; exact this.2⟩
      · intro c hc
        dsimp only
        split
        · exact (List.nodup_cons.1 hnf).2
        · exact ih.nodup c hc
      · intro c hc c' hc' y h1 h2
        exact ih.disj c hc c' hc' y (hsub c hc y h1).1 (hsub c' hc' y h2).1
      · intro y o ho
        dsimp only at ho
        split at ho
        · next e' => subst e'; exact hxN
        · exact ih.ownN y o ho
      · intro y hy
        dsimp only
        by_cases e' : y = x
        · exact .inl ⟨_, if_pos e'⟩
        · rw [if_neg e']
          rcases ih.all y hy with h | ⟨c, hc, h⟩
          · exact .inl h
          · refine .inr ⟨c, hc, ?_⟩
            split
            · next e'' =>
              subst e''
              rw [hstk] at h
              exact (List.mem_cons.1 h).resolve_left e'
            · exact h
      · intro t' d' g hg
        rcases hframe t' d' g hg with ⟨rfl, rfl, g1, g2, g3, g4⟩ | ⟨hne, hg⟩
        · refine ⟨g1.trans f1, g2 ▸ f2, .inr ⟨load, ?_, hl, fun _ => ⟨x, ?_, ?_, ?_⟩⟩⟩
          · rw [g2, g3]; exact hop
          · simp
          · simp
          · rw [← hmem, ldw_stw_ne _ _ _ _ _ fun a h1 h2 => hK.head_priv _ f2 _ _ a h2 (hl a h1)]
            exact ldw_stw_same _ _ _ _
        · obtain ⟨h1, h2, h3⟩ := ih.frames t' d' g hg
          refine ⟨h1, h2, ?_⟩
          rcases h3 with ⟨e', x', hop', hx'⟩ | ⟨load', hop', hl', hx'⟩
          · refine .inl ⟨e', x', hop', fun h => ?_⟩
            obtain ⟨q1, q2⟩ := hx' h
            have hxx : x' ≠ x := by
              rintro rfl
              rw [hox] at q1
              simp at q1
            refine ⟨?_, by rw [hnext x' (ih.ownN _ _ q1)]; exact q2⟩
            dsimp only
            rw [if_neg hxx]; exact q1
          · refine .inr ⟨load', hop', hl', fun h => ?_⟩
            obtain ⟨y, q1, q2, q3⟩ := hx' h
            have hxx : y ≠ x := by
              rintro rfl
              rw [hox] at q2
              simp at q2
            refine ⟨y, ?_, ?_, ?_⟩
            · dsimp only; rw [if_neg hne]; exact q1
            · dsimp only; rw [if_neg hxx]; exact q2
            · rw [← q3, ← hmem, ldw_stw_ne _ _ _ _ _ fun a h1 h2 => hK.head_priv _ f2 _ _ a h2 (hl' a h1)]
              refine ldw_stw_ne _ _ _ _ _ fun a h1 h2 => hne ?_
              exact hK.priv_priv _ _ _ _ a (hl' a h1) (hl a h2)

/-- All other steps: the abstract state stays. -/
theorem list_quiet (hn : 4 ≤ n) (hbe : ∀ p, (T p).prog.be = K.be) (hK : K.OK) {s s' : State n}
    {G : Stacks n} (ih : SInv T K m0 s G) {t : Nat} {lab : Lab n} (hs : Step T s t lab s')
    (hpol : Polite T s t s')
    (hi : ∀ f, lab = .invoke f → ListCall K G s.mem t (s.th t).saved.length f)
    (hu : lab = .user → ∀ a, s'.mem a ≠ s.mem a →
        (∀ c ∈ K.cpus, ¬ InWord (K.head c) a) ∧
        (∀ x, K.nodes x → InWord (x + K.off) a → G.own x = some (t, (s.th t).saved.length)) ∧
        (∀ t' d', K.priv t' d' a → t' = t ∧ d' = (s.th t).saved.length) ∧ ¬ InWord K.off a)
    (hcom : committing T s t lab = none) : SInv T K m0 s' G := by
  have hI := ih.reach.inv hn
  -- bytes that change are private to the thread, or `next` fields of nodes it holds, or of no interest
  have hch : ∀ a, s'.mem a ≠ s.mem a → (∀ c ∈ K.cpus, ¬ InWord (K.head c) a) ∧
      (∀ x, K.nodes x → InWord (x + K.off) a → lab = .user ∧ G.own x = some (t, (s.th t).saved.length)) ∧
      (∀ t' d', K.priv t' d' a → t' = t ∧ d' = (s.th t).saved.length ∧
        (lab = .user ∨ ∃ f, (s.th t).top = some f ∧ zone (T f.pid).prog f.l.pc = .body)) := by
    intro a ha
    rcases list_changes hn hbe hK ih hs a ha with hl | ⟨f, hf, hr, hz, hw⟩
    · obtain ⟨c1, c2, c3, -⟩ := hu hl a ha
      exact ⟨c1, fun x hx h => ⟨hl, c2 x hx h⟩, fun t' d' h => ⟨(c3 t' d' h).1, (c3 t' d' h).2, .inl hl⟩⟩
    · rcases hw with hw | ⟨-, hw⟩
      · refine ⟨fun c hc h => hK.head_priv c hc _ _ a h hw, fun x hx h => absurd hw (hK.next_priv x _ _ a hx h),
          fun t' d' h => ?_⟩
        obtain ⟨e1, e2⟩ := hK.priv_priv _ _ _ _ a h hw
        exact ⟨e1, e2, .inr ⟨f, hf, hz⟩⟩
      · rw [hcom] at hw; simp at hw
  have hnext : ∀ y, K.nodes y → (lab = .user → G.own y ≠ some (t, (s.th t).saved.length)) →
      ldw K.be s'.mem (y + K.off) = ldw K.be s.mem (y + K.off) := by
    intro y hy ho
    refine ldw_agree fun a ha => ?_
    apply Classical.byContradiction
    intro hne
    obtain ⟨h1, h2⟩ := (hch a hne).2.1 y hy ha
    exact ho h1 h2
  have hhead : ∀ c ∈ K.cpus, ldw K.be s'.mem (K.head c) = ldw K.be s.mem (K.head c) := by
    intro c hc
    refine ldw_agree fun a ha => ?_
    apply Classical.byContradiction
    intro hne
    exact (hch a hne).1 c hc ha
  refine { reach := ih.reach.step hs hpol, list := ?_, mem := ih.mem, nodup := ih.nodup, disj := ih.disj,
           ownN := ih.ownN, all := ih.all, frames := ?_ }
  · intro c hc
    rw [hhead c hc]
    refine (ih.list c hc).congr fun y hy => hnext y (ih.mem c hc y hy).1 fun _ => ?_
    rw [(ih.mem c hc y hy).2]; simp
  · intro t' d' g hg
    have hfr : (lab = .invoke g ∧ t' = t ∧ d' = (s.th t).saved.length) ∨
        ∃ f, frameAt (s.th t') d' = some f ∧ g.pid = f.pid ∧ g.fld = f.fld ∧ g.cpu = f.cpu ∧ g.op = f.op ∧
          g.commits = f.commits := by
      by_cases e : t' = t
      · subst e
        rcases frameAt_step hs d' g hg with ⟨h1, h2⟩ | ⟨f, h1, h2, h3, h4, h5, h6, -⟩
        · exact .inl ⟨h1, rfl, h2⟩
        · rcases h6 with h6 | ⟨i, q1, q2, q3, q4, -, q6⟩
          · exact .inr ⟨f, h1, h2, h3, h4, h5, h6⟩
          · subst q6
            rw [committing_eq q1 q3 q4] at hcom; simp at hcom
      · right
        rw [hs.other (fun e' => e e'.symm)] at hg
        exact ⟨g, hg, rfl, rfl, rfl, rfl, rfl⟩
    rcases hfr with ⟨hl, rfl, rfl⟩ | ⟨f, hf, -, g1, g2, g3, g4⟩
    · obtain ⟨h1, h2, h3⟩ := hi g hl
      refine ⟨h1, h2, ?_⟩
      have hm : s'.mem = s.mem := by subst hl; cases hs; rfl
      have hc0 : g.commits = 0 := by
        subst hl
        cases hs with
        | invoke _ _ _ hf _ => exact hf.commits
      rcases h3 with ⟨e, x, q1, q2⟩ | ⟨load, q1, q2⟩
      · exact .inl ⟨e, x, q1, fun _ => by rw [hm]; exact q2⟩
      · exact .inr ⟨load, q1, q2, fun h => absurd hc0 h⟩
    · obtain ⟨h1, h2, h3⟩ := ih.frames t' d' f hf
      -- other code cannot run at the same thread and depth as a call
      have hnu : lab = .user → ¬ (t' = t ∧ d' = (s.th t).saved.length) := by
        rintro hl ⟨rfl, rfl⟩
        rw [frameAt_top rfl] at hf
        subst hl
        cases hs with
        | user _ _ ht => rw [ht] at hf; simp at hf
      unfold ListFrame
      rw [g1, g2, g3, g4]
      refine ⟨h1, h2, ?_⟩
      rcases h3 with ⟨e, x, q1, q2⟩ | ⟨load, q1, q2, q3⟩
      · refine .inl ⟨e, x, q1, fun h => ?_⟩
        obtain ⟨r1, r2⟩ := q2 h
        refine ⟨r1, ?_⟩
        rw [hnext x (ih.ownN _ _ r1)]
        · exact r2
        · intro hl ho
          rw [r1] at ho
          injection ho with ho
          injection ho with a b
          exact hnu hl ⟨a, b⟩
      · refine .inr ⟨load, q1, q2, fun h => ?_⟩
        obtain ⟨x, r1, r2, r3⟩ := q3 h
        refine ⟨x, r1, r2, ?_⟩
        rw [← r3]
        refine ldw_agree fun a ha => ?_
        apply Classical.byContradiction
        intro hne
        obtain ⟨e1, e2, hor⟩ := (hch a hne).2.2 _ _ (q2 a ha)
        rcases hor with hl | ⟨f', hf', hz'⟩
        · exact hnu hl ⟨e1, e2⟩
        · subst e1 e2
          rw [frameAt_top rfl, hf'] at hf
          injection hf with hf
          subst hf
          exact h ((((hI.th t').top f' hf').rng (.inr hz')).commits)

/-- The invariant holds in every state. -/
theorem SReach.inv (hn : 4 ≤ n) (hbe : ∀ p, (T p).prog.be = K.be) (hK : K.OK) (h0 : StackInit K m0 G0)
    {s : State n} {G : Stacks n} (h : SReach T K m0 G0 s G) : SInv T K m0 s G := by
  induction h with
  | init =>
    refine { toStackInit := h0, reach := .init, frames := ?_ }
    intro t d f hf
    rcases frameAt_any hf with h | h <;> simp [thread0] at h
  | @step s s' G t lab h hs hi hu ih =>
    have hpol := list_polite hn hbe hK ih hs hu
    cases hc : committing T s t lab with
    | none => exact list_quiet hn hbe hK ih hs hpol hi hu hc
    | some f =>
      obtain ⟨hl, -⟩ := committing_some hc
      subst hl
      exact list_commit hn hbe hK ih hs hpol hc
  | @give s G t x t' d' h ht ho ih =>
    have hxs : ∀ c ∈ K.cpus, x ∉ G.stk c := by
      intro c hc hx
      rw [(ih.mem c hc x hx).2] at ho; simp at ho
    have hkeep : ∀ u d y, (∃ f, frameAt (s.th u) d = some f) → G.own y = some (u, d) → y ≠ x := by
      rintro u d y ⟨f, hf⟩ hy rfl
      rw [ho] at hy
      injection hy with hy
      injection hy with a b
      subst a b
      rw [frameAt_top rfl, ht] at hf
      simp at hf
    refine { reach := ih.reach, list := ih.list, mem := ?_, nodup := ih.nodup, disj := ih.disj, ownN := ?_,
             all := ?_, frames := ?_ }
    · intro c hc y hy
      refine ⟨(ih.mem c hc y hy).1, ?_⟩
      simp only [Stacks.give]
      rw [if_neg]
      · exact (ih.mem c hc y hy).2
      · rintro rfl; exact hxs c hc hy
    · intro y o hy
      simp only [Stacks.give] at hy
      split at hy
      · next e => subst e; exact ih.ownN _ _ ho
      · exact ih.ownN y o hy
    · intro y hy
      simp only [Stacks.give]
      by_cases e : y = x
      · exact .inl ⟨_, if_pos e⟩
      · rw [if_neg e]; exact ih.all y hy
    · intro u d f hf
      obtain ⟨h1, h2, h3⟩ := ih.frames u d f hf
      refine ⟨h1, h2, ?_⟩
      rcases h3 with ⟨e, y, q1, q2⟩ | ⟨load, q1, q2, q3⟩
      · refine .inl ⟨e, y, q1, fun h => ?_⟩
        obtain ⟨r1, r2⟩ := q2 h
        refine ⟨?_, r2⟩
        simp only [Stacks.give]
        rw [if_neg (hkeep u d y ⟨f, hf⟩ r1)]; exact r1
      · refine .inr ⟨load, q1, q2, fun h => ?_⟩
        obtain ⟨y, r1, r2, r3⟩ := q3 h
        refine ⟨y, r1, ?_, r3⟩
        simp only [Stacks.give]
        rw [if_neg (hkeep u d y ⟨f, hf⟩ r2)]; exact r2

end Verif.Rseq
