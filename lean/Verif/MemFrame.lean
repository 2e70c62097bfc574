import Verif.Mem
/-
Frame relation between memories: which stores may have happened between `m` and `m'`.
Helper lemmas only; used by the allocator proofs.
-/
namespace Verif
namespace Mem

/-- `m'` results from `m` by stores to addresses in `W` only (page copies included). -/
structure Frame (pg : Nat) (W : Nat → Prop) (m m' : Mem) : Prop where
  wf : m.WF → m'.WF
  res : ∀ x, m'.resolve pg x = m.resolve pg x ∨ m'.resolve pg x = x
  rd : m.WF → ∀ x, ¬ W x → ¬ W (m.resolve pg x) → m'.read pg x = m.read pg x

theorem Frame.refl {pg : Nat} {W : Nat → Prop} {m : Mem} : Frame pg W m m :=
  ⟨id, fun _ => Or.inl rfl, fun _ _ _ _ => rfl⟩

theorem Frame.trans {pg : Nat} {W : Nat → Prop} {m m' m'' : Mem} (h : Frame pg W m m')
    (h' : Frame pg W m' m'') : Frame pg W m m'' := by
  refine ⟨fun w => h'.wf (h.wf w), fun x => ?_, fun w x hx hr => ?_⟩
  · rcases h'.res x with e | e
    · rw [e]; exact h.res x
    · exact Or.inr e
  · rw [h'.rd (h.wf w) x hx, h.rd w x hx hr]
    rcases h.res x with e | e <;> rw [e] <;> assumption

theorem Frame.mono {pg : Nat} {W W' : Nat → Prop} {m m' : Mem} (h : Frame pg W m m')
    (hw : ∀ x, W x → W' x) : Frame pg W' m m' :=
  ⟨h.wf, h.res, fun w x hx hr => h.rd w x (fun k => hx (hw _ k)) (fun k => hr (hw _ k))⟩

theorem Frame.write {pg : Nat} (hpg : 0 < pg) {m : Mem} {a : Nat} {b : Byte} :
    Frame pg (fun x => x = a) m (m.write pg a b) := by
  refine ⟨fun w => WF_write w _ _, fun x => ?_, fun w x hx hr => read_write_frame hpg w hx hr⟩
  rw [resolve_write]; split
  · exact Or.inr rfl
  · exact Or.inl rfl

theorem Frame.writeBlock {pg : Nat} (hpg : 0 < pg) {m : Mem} {a : Nat} {f : Nat → Byte} {n : Nat} :
    Frame pg (fun x => a ≤ x ∧ x < a + n) m (m.writeBlock pg a f n) :=
  ⟨fun w => WF_writeBlock w _ _ _, fun x => resolve_writeBlock pg m a f n x,
   fun w _ hx hr => read_writeBlock_frame hpg w hx hr⟩

theorem Frame.writeWord [Abi] {pg : Nat} (hpg : 0 < pg) {m : Mem} {a : Nat} {v : Word} :
    Frame pg (fun x => a ≤ x ∧ x < a + wb) m (m.writeWord pg a v) := Frame.writeBlock hpg

/-- A frame keeps the self-resolving property. -/
theorem Frame.res_self {pg : Nat} {W : Nat → Prop} {m m' : Mem} (h : Frame pg W m m') {x : Nat}
    (hx : m.resolve pg x = x) : m'.resolve pg x = x := by
  rcases h.res x with e | e
  · rw [e, hx]
  · exact e

end Mem
end Verif
