import Verif.RseqFenceProps
import Verif.RseqCounter
/-
The counts of `test_membarrier`: the final addition of `rseq_load_add_load_load_add_store__ptr`, and the sum
of the counters of both lists (tests/param_test.c:1491-1502, 1603-1611).
-/

namespace Verif.Rseq

variable {n : Nat}

/-- The amount of a worker's call. -/
def Op.amount : Op n → W n
  | .addLoadLoadAddStore _ _ k => k
  | _ => 0#(8 * n)

/-- The amount of a call that has executed its final addition but has not returned yet. -/
def dpendF : Option (Frame n) → W n
  | some f => if f.commits = 1 then f.op.amount else 0#(8 * n)
  | none => 0#(8 * n)

def dpend (x : Thread n) : W n := lsum dpendF (x.top :: x.saved)

/-- The event is the return of a call with result 0 (the worker's `do ... while (ret)` ends). -/
def Ev.won (e : Ev n) : Bool :=
  match e.lab, (e.s.th e.who).top with
  | .ret, some f => decide (f.l.pc = .ret 0)
  | _, _ => false

/-- The amount such an event stands for. -/
def Ev.credit (e : Ev n) : W n :=
  match (e.s.th e.who).top with
  | some f => if e.won = true then f.op.amount else 0#(8 * n)
  | none => 0#(8 * n)

/-- `test_membarrier_count_percpu_list` for both lists (param_test.c:1491-1502, 1603-1604). -/
def TwoLists.total (L : TwoLists n) (be : Bool) (cpus : List (BitVec 32)) (m : Mem n) : W n :=
  lsum (fun c => ldw be m (L.node false c)) cpus + lsum (fun c => ldw be m (L.node true c)) cpus

variable {T : Nat → Site n} {m0 : Mem n} {L : TwoLists n} {be : Bool} {fl : Fld}

theorem dpendF_fix {x : Thread n} : dpendF (fixTop T x) = dpendF x.top := by
  unfold fixTop
  cases x.top with
  | none => rfl
  | some f =>
    dsimp only
    split
    · rfl
    · split <;> rfl

theorem deref_inc {x : Thread n} {P : Prop} {f : Frame n} {ptr off inc : W n} (h : GInv T x P f)
    (hk : FrameKeeps T f) (hop : f.op = .addLoadLoadAddStore ptr off inc) {i : Nat} (hp : f.l.pc = .at i)
    (hi : i < 9) : f.l.regs ((T f.pid).al .inc) = inc := by
  have hkind : (T f.pid).kind = .addLoadLoadAddStore := by rw [h.base.kind, hop]; rfl
  obtain ⟨q, hq, -⟩ := (T f.pid).exSym
  obtain ⟨hk, -⟩ := hk q hq
  have hq' : q ∈ program sym (T f.pid).be (T f.pid).csa .x86_64 .addLoadLoadAddStore false := by
    rw [← (deref_site hkind).2.1]; exact hq
  have hd := all_clean _ _ q hq'
  have hd := List.all_eq_true.1 hd i (List.mem_range.2 hi)
  rw [hp] at hk
  dsimp only at hk
  have hv : f.op.val .inc = some inc := by rw [hop]; rfl
  rw [hk.regs _ (by rw [h.base.kind]; exact h.base.setup.free _ _ hv) (by
      rw [beq_iff_eq.1 hd]; simp), h.base.setup.reg _ _ hv]

/-- What an instruction of a worker's call does to memory: only the last one stores, and it adds the amount
to one of the two counters of the call's CPU. -/
theorem worker_adds (hn : 4 ≤ n) {s : State n} {es : List (Ev n)} (h : Run T (init m0) es s)
    (hH : ∀ e ∈ es, L.Holds be e.s.mem) {t : Nat} {f : Frame n} (ht : (s.th t).top = some f)
    (hw : L.Worker T be fl f) (hr : (s.th t).run = true) {i : Nat} {ins : Instr} {l' : LSt n} {m' : Mem n}
    (hp : f.l.pc = .at i) (hc : (T f.pid).prog.code[i]? = some ins)
    (he : exec (T f.pid).prog ((s.th t).fv f.fld) i ins f.l s.mem = (l', m')) :
    (i + 1 = (T f.pid).prog.commit ∧ zone (T f.pid).prog f.l.pc = .body ∧
      ∃ b, m' = stw be s.mem (L.node b f.cpu) (ldw be s.mem (L.node b f.cpu) + f.op.amount)) ∨
    (i + 1 ≠ (T f.pid).prog.commit ∧ m' = s.mem) := by
  obtain ⟨⟨inc, hop⟩, hcpu, rfl, -⟩ := hw
  have h0 : AnyReach T m0 (init m0) := .init
  have hR := h.reach h0
  have hI := hR.inv hn
  have hgi := (hI.th t).top f ht
  have hkind : (T f.pid).kind = .addLoadLoadAddStore := by rw [hgi.base.kind, hop]; rfl
  have hprog := (deref_site hkind).1
  have hm' : m' = (exec (T f.pid).prog ((s.th t).fv f.fld) i ins f.l s.mem).2 := by rw [he]
  have hc0 := hc
  have hlt : i < 9 := by
    rw [hprog] at hc
    apply Decidable.byContradiction
    intro hge
    rw [List.getElem?_eq_none (by simp [x86_64_addLoadLoadAddStore]; omega)] at hc
    cases hc
  have hcom : (T f.pid).prog.commit = 7 := by rw [hprog]; rfl
  by_cases h6 : i = 6
  · subst h6
    left
    have hz : zone (T f.pid).prog f.l.pc = .body := by
      rw [hp, hprog]; simp [zone, x86_64_addLoadLoadAddStore]
    refine ⟨hcom.symm, hz, ?_⟩
    have hon := (race_commit_on_cpu hn hR hr ht hp (by rw [← hp]; exact hz)).1
    have hev : ((init m0 : State n).th t).ev < (s.th t).ev := by
      obtain ⟨q1, q2⟩ := h.steady t
      apply Decidable.byContradiction
      intro hlt
      have := (q2 (by omega)).1 hon.run
      simp [init, thread0] at this
    obtain ⟨e, k1, B, ⟨b, rfl⟩, k2⟩ := (deref_loaded hn h0 h (P := fun B => ∃ b, B = L.base b)
      (fun e he => (hH e he).active) rfl hop ht hon.run hon.reg (.inr hz) hev).2.2 hp
    rw [(hH e k1).heads b _ hcpu] at k2
    have hinc := deref_inc hgi ((hR.keep t).1 f ht) hop hp hlt
    refine ⟨b, ?_⟩
    have hbe : (T f.pid).prog.be = (T f.pid).be := by rw [hprog]; rfl
    have hins : ins = .addM ((T f.pid).al .inc) rcx := by
      rw [hprog] at hc
      simp only [x86_64_addLoadLoadAddStore, List.getElem?_cons_succ, List.getElem?_cons_zero, Option.some.injEq] at hc
      exact hc.symm
    subst hins
    rw [hm']
    simp only [exec, hbe, k2, hinc, hop, Op.amount]
  · right
    refine ⟨by omega, ?_⟩
    rw [hm']
    rw [hprog] at hc
    have : memFree ins = true ∨ ∃ a b, ins = .ld a b := by
      match i, hlt, h6 with
      | 0, _, _ | 1, _, _ | 2, _, _ | 3, _, _ | 4, _, _ | 5, _, _ | 7, _, _ | 8, _, _ =>
        simp only [x86_64_addLoadLoadAddStore, List.getElem?_cons_succ, List.getElem?_cons_zero, Option.some.injEq] at hc
        subst hc
        simp [memFree]
    rcases this with hf | ⟨a, b, rfl⟩
    · exact (exec_memFree hf (T f.pid).prog ((s.th t).fv f.fld) i f.l s.mem s.mem).1
    · rfl

/-- Adding to one of the counters adds to the total. -/
theorem total_add (hL : L.OK) {cpus : List (BitVec 32)} (hnd : cpus.Nodup)
    (hcp : ∀ c ∈ cpus, L.cpus c) {c : BitVec 32} (hc : c ∈ cpus) (b : Bool) (m : Mem n) (k : W n) :
    L.total be cpus (stw be m (L.node b c) (ldw be m (L.node b c) + k)) = L.total be cpus m + k := by
  have same : ∀ b', b' ≠ b → lsum (fun d => ldw be (stw be m (L.node b c) (ldw be m (L.node b c) + k))
      (L.node b' d)) cpus = lsum (fun d => ldw be m (L.node b' d)) cpus := by
    intro b' hb
    refine lsum_congr _ _ cpus fun d hd => ?_
    exact ldw_stw_ne be m _ _ _ fun x hx hx' =>
      hL.node_node b' d b c x (hcp d hd) (hcp c hc) (fun h => hb h.1) hx hx'
  have one : lsum (fun d => ldw be (stw be m (L.node b c) (ldw be m (L.node b c) + k)) (L.node b d)) cpus =
      lsum (fun d => ldw be m (L.node b d)) cpus + k := by
    refine lsum_one _ _ c k cpus hnd hc ?_ (by rw [ldw_stw_same])
    intro d hd hne
    exact ldw_stw_ne be m _ _ _ fun x hx hx' =>
      hL.node_node b d b c x (hcp d hd) (hcp c hc) (fun h => hne h.2) hx hx'
  unfold TwoLists.total
  cases b
  · rw [one, same true (by simp)]; grind
  · rw [one, same false (by simp)]; grind

end Verif.Rseq
