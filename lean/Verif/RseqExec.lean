import Verif.RseqArchProps
/-
How one instruction depends on memory, and replaying a helper on the current memory.
-/

namespace Verif.Rseq

variable {n : Nat}

/-- The instruction neither reads nor writes shared memory. -/
def memFree : Instr → Bool
  | .cmpM .. | .ld .. | .st .. | .stl .. | .addM .. | .ldx .. | .ldb .. | .stb .. | .ldbx .. | .stbx ..
  | .lbzu .. | .stbu .. => false
  | _ => true

/-- The instruction does not read the CPU field. -/
def cpuFree : Instr → Bool
  | .ldCpuS .. | .ldCpuZ .. | .cmpCpu .. => false
  | _ => true

/-- Read-modify-write instruction. -/
def isRmw : Instr → Bool
  | .addM .. => true
  | _ => false

/-- Possible next positions. -/
def succs (i : Nat) : Instr → List Pc
  | .jne t | .je t | .bne _ _ t | .beq _ _ t | .cbnz _ t | .cbz _ t | .cbnz32 _ t => [t, .at (i + 1)]
  | .jmp t => [t]
  | _ => [.at (i + 1)]

theorem exec_succs (p : Prog n) (fv : BitVec 32) (i : Nat) (ins : Instr) (l : LSt n) (m : Mem n) :
    (exec p fv i ins l m).1.pc ∈ succs i ins := by
  cases ins <;> simp [exec, succs, LSt.setR, LSt.setF, LSt.nx] <;> unfold LSt.br <;> dsimp only <;>
    split <;> simp

theorem memFree_touched {ins : Instr} (h : memFree ins = true) (l : LSt n) (x : W n) :
    ¬ touched ins l x := by
  cases ins <;> simp_all [memFree, touched]

theorem exec_memFree {ins : Instr} (h : memFree ins = true) (p : Prog n) (fv : BitVec 32) (i : Nat)
    (l : LSt n) (m m' : Mem n) :
    (exec p fv i ins l m).2 = m ∧ (exec p fv i ins l m).1 = (exec p fv i ins l m').1 := by
  cases ins <;> simp_all [memFree, exec]

theorem exec_cpuFree {ins : Instr} (h : cpuFree ins = true) (p : Prog n) (fv fv' : BitVec 32) (i : Nat)
    (l : LSt n) (m : Mem n) :
    exec p fv i ins l m = exec p fv' i ins l m := by
  cases ins <;> simp_all [cpuFree, exec]

theorem stores_touched {ins : Instr} {l : LSt n} {x : W n} (h : stores ins l x) : touched ins l x := by
  cases ins <;> simp_all [stores, touched]

theorem ldw_agree {be : Bool} {m m' : Mem n} {a : W n} (h : ∀ x, InWord a x → m x = m' x) :
    ldw be m a = ldw be m' a := by
  have key : ∀ k, k ≤ n → sumTo (fun i => (m (a + BitVec.ofNat (8 * n) i)).toNat * 256 ^ pos be n i) k =
      sumTo (fun i => (m' (a + BitVec.ofNat (8 * n) i)).toNat * 256 ^ pos be n i) k := by
    intro k
    induction k with
    | zero => intro _; rfl
    | succ k ih =>
      intro hk
      simp only [sumTo]
      rw [ih (by omega), h]
      unfold InWord
      rw [add_sub_cancel_w, BitVec.toNat_ofNat]
      exact Nat.lt_of_le_of_lt (Nat.mod_le _ _) (by omega)
  unfold ldw
  rw [key n (Nat.le_refl _)]

theorem exec_frame {ins : Instr} (p : Prog n) (fv : BitVec 32) (i : Nat) (l : LSt n) (m : Mem n)
    (x : W n) (h : ¬ stores ins l x) : (exec p fv i ins l m).2 x = m x := by
  cases ins <;> first
    | rfl
    | (simp only [stores, InWord] at h; simp only [exec, stw]; rw [if_neg h])
    | (simp only [stores] at h; simp only [exec, stb1]; rw [if_neg h])

theorem exec_agree {ins : Instr} (p : Prog n) (fv : BitVec 32) (i : Nat) (l : LSt n) (m m' : Mem n)
    (h : ∀ x, touched ins l x → m x = m' x) :
    (exec p fv i ins l m).1 = (exec p fv i ins l m').1 ∧
    ∀ x, touched ins l x → (exec p fv i ins l m).2 x = (exec p fv i ins l m').2 x := by
  cases ins <;> simp only [touched] at h <;>
    first
      | (simp only [exec, touched, false_imp_iff, implies_true, and_self]; done)
      | (refine ⟨?_, fun x hx => ?_⟩
         · simp only [exec, ldw_agree h]
         · simp only [touched] at hx
           simp only [exec, ldw_agree h, stw, h x hx])
      | (refine ⟨?_, fun x hx => ?_⟩
         · simp only [exec, h _ rfl]
         · simp only [touched] at hx
           simp only [exec, stb1, h x hx])

/-- Executing a store a second time changes nothing. -/
theorem exec_idem {ins : Instr} (hr : isRmw ins = false) (p : Prog n) (fv : BitVec 32) (i : Nat)
    (l : LSt n) (m : Mem n) :
    exec p fv i ins l (exec p fv i ins l m).2 = exec p fv i ins l m := by
  have hst : ∀ (be : Bool) (a v : W n), stw be (stw be m a v) a v = stw be m a v := by
    intro be a v; funext x; simp only [stw]; split <;> rfl
  have hsb : ∀ (a : W n) (b : Byte), stb1 (stb1 m a b) a b = stb1 m a b := by
    intro a b; funext x; simp only [stb1]; split <;> rfl
  cases ins <;> first
    | rfl
    | (simp only [exec, hst]; done)
    | (simp only [exec, hsb]; done)
    | simp [isRmw] at hr

/-! ### Replaying on a fixed memory -/

/-- `Rep p fv m l0 l F`: starting from `l0` with memory `m`, the helper reaches `l`, every store on the
way stores what `m` already contains, and `F` is the set of addresses touched. -/
inductive Rep (p : Prog n) (fv : BitVec 32) (m : Mem n) (l0 : LSt n) : LSt n → (W n → Prop) → Prop
  | refl : Rep p fv m l0 l0 (fun _ => False)
  | step {l l' : LSt n} {F : W n → Prop} {i : Nat} {ins : Instr} (h : Rep p fv m l0 l F)
      (hp : l.pc = .at i) (hc : p.code[i]? = some ins) (he : exec p fv i ins l m = (l', m)) :
      Rep p fv m l0 l' (fun x => touched ins l x ∨ F x)

/-- Only the touched bytes matter. -/
theorem Rep.agree {p : Prog n} {fv : BitVec 32} {m m' : Mem n} {l0 l : LSt n} {F : W n → Prop}
    (h : Rep p fv m l0 l F) (ha : ∀ x, F x → m x = m' x) : Rep p fv m' l0 l F := by
  induction h with
  | refl => exact .refl
  | @step l l' F i ins hr hp hc he ih =>
    refine .step (ih fun x hx => ha x (.inr hx)) hp hc ?_
    have h1 := exec_agree p fv i l m m' (fun x hx => ha x (.inl hx))
    rw [he] at h1
    refine Prod.ext h1.1.symm ?_
    funext x
    by_cases hx : touched ins l x
    · rw [← h1.2 x hx]; exact ha x (.inl hx)
    · exact exec_frame p fv i l m' x (fun h => hx (stores_touched h))

/-- A helper's own step, as long as it does not overwrite what it has touched before. -/
theorem Rep.own {p : Prog n} {fv : BitVec 32} {m m' : Mem n} {l0 l l' : LSt n} {F : W n → Prop}
    {i : Nat} {ins : Instr} (h : Rep p fv m l0 l F) (hp : l.pc = .at i) (hc : p.code[i]? = some ins)
    (he : exec p fv i ins l m = (l', m')) (hs : ∀ x, stores ins l x → ¬ F x)
    (hr : isRmw ins = false) : Rep p fv m' l0 l' (fun x => touched ins l x ∨ F x) := by
  refine .step (h.agree ?_) hp hc ?_
  · intro x hx
    have := exec_frame p fv i l m x (fun h => hs x h hx)
    rw [he] at this; exact this.symm
  · have := exec_idem hr p fv i l m
    rw [he] at this; exact this

theorem Rep.run {p : Prog n} {fv : BitVec 32} {m : Mem n} {l0 l : LSt n} {F : W n → Prop}
    (h : Rep p fv m l0 l F) : ∃ k, run p fv k (l0, m) = (l, m) := by
  induction h with
  | refl => exact ⟨0, rfl⟩
  | @step l l' F i ins _ hp hc he ih =>
    obtain ⟨k, hk⟩ := ih
    refine ⟨k + 1, ?_⟩
    rw [run_add, hk]
    simp only [Rseq.run, Rseq.step, hp, hc, he]

end Verif.Rseq
