import Verif.MempoolStep
/-
Range creation, slot allocation and free preserve the invariant. Helper lemmas only.
-/
namespace Verif.Mempool
open Verif Verif.Mem

variable [Abi]

/-! ### New mappings -/

instance (c : Config) (base x : Nat) : Decidable (InRegion c base x) := by unfold InRegion; infer_instance


omit [Abi] in
theorem le_page_iff {pg A x : Nat} (hpg : 0 < pg) (hA : pg ∣ A) : A ≤ x / pg * pg ↔ A ≤ x := by
  obtain ⟨a, rfl⟩ := hA
  rw [Nat.mul_comm pg a, Nat.mul_le_mul_right_iff hpg, Nat.le_div_iff_mul_le hpg]

omit [Abi] in
theorem page_lt_iff {pg B x : Nat} (hpg : 0 < pg) (hB : pg ∣ B) : x / pg * pg < B ↔ x < B := by
  have := le_page_iff (x := x) hpg hB
  omega

theorem Valid.pg_dvd_rangeLen {c : Config} (hv : Valid c) : c.pg ∣ rangeLen c := by
  rw [rangeLen_eq]; exact Nat.dvd_trans hv.pg_dvd (Nat.dvd_mul_right _ _)

theorem mapRange_src_in {c : Config} (hv : Valid c) {base : Nat} (hal : c.stride ∣ base) {m : Mem} {x : Nat} :
    (mapRange c base m).src (x / c.pg) =
      if InRegion c base x then
        if c.cow = true ∧ x < base + c.stride * c.ncpu then
          some ((base + c.stride * c.ncpu + (x / c.pg * c.pg - base) % c.stride) / c.pg)
        else none
      else m.src (x / c.pg) := by
  have hb : c.pg ∣ base := Nat.dvd_trans hv.pg_dvd hal
  have h1 := le_page_iff (x := x) hv.pg_pos hb
  have h2 := page_lt_iff (x := x) hv.pg_pos (Nat.dvd_add hb hv.pg_dvd_rangeLen)
  have h3 := page_lt_iff (x := x) hv.pg_pos
    (Nat.dvd_add hb (Nat.dvd_trans hv.pg_dvd (Nat.dvd_mul_right c.stride c.ncpu)))
  unfold mapRange
  simp only [h1, h2, h3, InRegion]

theorem mapRange_resolve_out {c : Config} (hv : Valid c) {base : Nat} (hal : c.stride ∣ base) {m : Mem} {x : Nat}
    (hx : ¬ InRegion c base x) : (mapRange c base m).resolve c.pg x = m.resolve c.pg x := by
  unfold resolve
  rw [mapRange_src_in hv hal, if_neg hx]

theorem mapRange_resolve_in {c : Config} (hv : Valid c) {base : Nat} (hal : c.stride ∣ base) {m : Mem}
    {col off : Nat} (hcol : col < c.nCols) (hoff : off < c.stride) :
    (mapRange c base m).resolve c.pg (base + c.stride * col + off) =
      if c.cow = true ∧ col < c.ncpu then base + c.stride * c.ncpu + off else base + c.stride * col + off := by
  have hin := col_in (c := c) (base := base) hcol hoff
  have hlt : base + c.stride * col + off < base + c.stride * c.ncpu ↔ col < c.ncpu := by
    constructor
    · intro h
      apply Nat.lt_of_mul_lt_mul_left (a := c.stride)
      omega
    · intro h
      have := Nat.mul_le_mul_left c.stride (show col + 1 ≤ c.ncpu from h)
      rw [Nat.mul_add, Nat.mul_one] at this
      omega
  unfold resolve
  rw [mapRange_src_in hv hal, if_pos hin]
  simp only [hlt]
  by_cases h : c.cow = true ∧ col < c.ncpu
  · rw [if_pos h, if_pos h]
    dsimp only
    have hpg := hv.pg_pos
    obtain ⟨w, hw⟩ := hv.pg_dvd
    obtain ⟨z, hz⟩ := hal
    have e1 : base + c.stride * col = c.pg * (w * z + w * col) := by
      rw [hz, hw, Nat.mul_add, Nat.mul_assoc, Nat.mul_assoc]
    have e2 : base + c.stride * c.ncpu = c.pg * (w * z + w * c.ncpu) := by
      rw [hz, hw, Nat.mul_add, Nat.mul_assoc, Nat.mul_assoc]
    have hx : (base + c.stride * col + off) / c.pg * c.pg = base + c.stride * col + off / c.pg * c.pg := by
      rw [e1, Nat.mul_add_div hpg, Nat.add_mul, Nat.mul_comm c.pg]
    have hm : (base + c.stride * col + off) % c.pg = off % c.pg := by rw [e1, Nat.mul_add_mod]
    have hle : off / c.pg * c.pg ≤ off := Nat.div_mul_le_self _ _
    rw [hx, hm]
    have e3 : (base + c.stride * col + off / c.pg * c.pg - base) % c.stride = off / c.pg * c.pg := by
      rw [show base + c.stride * col + off / c.pg * c.pg - base = c.stride * col + off / c.pg * c.pg by omega,
        Nat.mul_add_mod]
      exact Nat.mod_eq_of_lt (by omega)
    rw [e3, e2, Nat.mul_comm (off / c.pg) c.pg, ← Nat.mul_add, Nat.mul_div_cancel_left _ hpg]
    have := Nat.div_add_mod off c.pg
    rw [Nat.mul_comm _ c.pg, Nat.mul_add]
    omega
  · rw [if_neg h, if_neg h]

/-- Every address of a region has a column and an offset. -/
theorem region_col {c : Config} (hv : Valid c) {base x : Nat} (h : InRegion c base x) :
    ∃ col off, col < c.nCols ∧ off < c.stride ∧ x = base + c.stride * col + off := by
  unfold InRegion at h
  rw [rangeLen_eq] at h
  have hs := hv.stride_pos
  refine ⟨(x - base) / c.stride, (x - base) % c.stride, ?_, Nat.mod_lt _ hs, ?_⟩
  · rw [Nat.div_lt_iff_lt_mul hs, Nat.mul_comm]; omega
  · have := Nat.div_add_mod (x - base) c.stride
    omega

theorem mapRange_resolve_region {c : Config} (hv : Valid c) {base : Nat} (hal : c.stride ∣ base) {m : Mem} {x : Nat}
    (hx : InRegion c base x) : InRegion c base ((mapRange c base m).resolve c.pg x) := by
  obtain ⟨col, off, hc, ho, rfl⟩ := region_col hv hx
  rw [mapRange_resolve_in hv hal hc ho]
  split
  · rename_i h; exact col_in (initCol_lt h.1) ho
  · exact hx

theorem mapRange_read_out {c : Config} (hv : Valid c) {base : Nat} (hal : c.stride ∣ base) {m : Mem} {x : Nat}
    (hx : ¬ InRegion c base x) (hr : ¬ InRegion c base (m.resolve c.pg x)) :
    (mapRange c base m).read c.pg x = m.read c.pg x := by
  unfold Mem.read
  rw [mapRange_resolve_out hv hal hx]
  unfold mapRange InRegion at *
  dsimp only
  rw [if_neg hr]

omit [Abi] in
theorem resolve_page {pg : Nat} (hpg : 0 < pg) {m : Mem} {p q : Nat} (h : m.src p = some q) :
    m.resolve pg (p * pg) = q * pg := by
  unfold resolve
  rw [Nat.mul_div_cancel _ hpg, h]
  dsimp only
  rw [Nat.mul_mod_left, Nat.add_zero]

theorem mapRange_wf {c : Config} (hv : Valid c) {base : Nat} (hal : c.stride ∣ base) {m : Mem} (hwf : m.WF)
    (hfresh : ∀ x, ¬ InRegion c base x → ¬ InRegion c base (m.resolve c.pg x)) : (mapRange c base m).WF := by
  intro p q hpq
  have hpg := hv.pg_pos
  have hsrc := fun x => mapRange_src_in (x := x) hv hal (m := m)
  have hpp : p * c.pg / c.pg = p := Nat.mul_div_cancel _ hpg
  have hqq : q * c.pg / c.pg = q := Nat.mul_div_cancel _ hpg
  have hp := hsrc (p * c.pg)
  have hq := hsrc (q * c.pg)
  rw [hpp] at hp
  rw [hqq] at hq
  rw [hpq] at hp
  rw [hq]
  by_cases hin : InRegion c base (p * c.pg)
  · obtain ⟨col, off, hc, ho, hx⟩ := region_col hv hin
    have hres := resolve_page hpg hpq
    rw [hx, mapRange_resolve_in hv hal hc ho] at hres
    rw [if_pos hin] at hp
    split at hp
    · rename_i hcow
      have hlt : col < c.ncpu := by
        rw [hx] at hcow
        apply Nat.lt_of_mul_lt_mul_left (a := c.stride)
        omega
      rw [if_pos ⟨hcow.1, hlt⟩] at hres
      have hqin : InRegion c base (q * c.pg) := by rw [← hres]; exact col_in (initCol_lt hcow.1) ho
      rw [if_pos hqin, if_neg (by rw [← hres]; omega)]
    · cases hp
  · rw [if_neg hin] at hp
    have hres := resolve_page hpg hp.symm
    have hqout := hfresh _ hin
    rw [hres] at hqout
    rw [if_neg hqout]
    exact hwf p q hp.symm

/-! ### Init callbacks -/

omit [Abi] in
theorem applyStores_frame {pg : Nat} (hpg : 0 < pg) {a S : Nat} {st : List (Nat × Byte)} {m : Mem}
    (h : ∀ o b, (o, b) ∈ st → o < S) :
    Frame pg (fun x => a ≤ x ∧ x < a + S) m (applyStores pg a st m) := by
  induction st generalizing m with
  | nil => exact Frame.refl
  | cons s st ih =>
    obtain ⟨o, b⟩ := s
    unfold applyStores
    refine Frame.trans ((Frame.write hpg).mono ?_) (ih fun o b hb => h o b (List.mem_cons_of_mem _ hb))
    have := h o b List.mem_cons_self
    intro x hx
    omega

theorem runCalls_frame {c : Config} (hv : Valid c) {env : RangeEnv} (hcb : ∀ k o b, (o, b) ∈ (env.cb k).2 → o < c.stride)
    {base : Nat} {calls : List Call} {k : Nat} {m m' : Mem} {log : List Call}
    (hcalls : ∀ call ∈ calls, ∃ i, i < c.ncpu ∧ call.addr = base + c.stride * i)
    (h : runCalls c env calls k m = (log, some m')) : Frame c.pg (InRegion c base) m m' := by
  induction calls generalizing k m log with
  | nil => unfold runCalls at h; cases h; exact Frame.refl
  | cons call rest ih =>
    unfold runCalls at h
    dsimp only at h
    split at h
    · cases hr : runCalls c env rest (k + 1) (applyStores c.pg call.addr (env.cb k).2 m) with
      | mk log' res =>
        rw [hr] at h
        cases h
        refine Frame.trans ((applyStores_frame hv.pg_pos (hcb k)).mono ?_)
          (ih (fun x hx => hcalls x (List.mem_cons_of_mem _ hx)) hr)
        obtain ⟨i, hi, e⟩ := hcalls call List.mem_cons_self
        rw [e]
        intro x hx
        have := ncpu_le_nCols c
        have := col_in (c := c) (base := base) (i := i) (a := x - (base + c.stride * i)) (by omega) (by omega)
        rw [show base + c.stride * i + (x - (base + c.stride * i)) = x by omega] at this
        exact this
    · cases h

theorem initCalls_addr {c : Config} (hv : Valid c) {base : Nat} :
    ∀ call ∈ initCalls c base, ∃ i, i < c.ncpu ∧ call.addr = base + c.stride * i := by
  intro call h
  have := hv.ncpu_pos
  unfold initCalls at h
  split at h
  · split at h
    · rw [List.mem_singleton] at h
      exact ⟨0, by omega, by rw [h]; simp⟩
    · rw [List.mem_map] at h
      obtain ⟨i, hi, rfl⟩ := h
      exact ⟨i, List.mem_range.1 hi, rfl⟩
  · cases h

/-! ### rangeCreate -/

/-- What a successful range creation gives. -/
structure NewRange (c : Config) (l : List Range) (m : Mem) (r : Range) (m' : Mem) : Prop where
  inv : RangeInv c r
  nu : r.nextUnused = 0
  empty : ∀ bm, r.bitmap = some bm → ∀ k, bitTest bm k = false
  apart : ∀ r' ∈ l, Apart c r.base r'.base
  wf : m'.WF
  shape : Shape c (r :: l) m'
  keep : ∀ r' ∈ l, ∀ x, InRegion c r'.base x → m'.read c.pg x = m.read c.pg x
  keepRes : ∀ r' ∈ l, ∀ x, InRegion c r'.base x →
    m'.resolve c.pg x = m.resolve c.pg x ∨ m'.resolve c.pg x = x

theorem Apart.not_in {c : Config} {b1 b2 x : Nat} (h : Apart c b1 b2) (hx : InRegion c b2 x) :
    ¬ InRegion c b1 x := by
  unfold Apart InRegion at *; omega

theorem Shape.region {c : Config} (hv : Valid c) {l : List Range} {m : Mem} (h : Shape c l m) {r : Range}
    (hr : r ∈ l) {x : Nat} (hx : InRegion c r.base x) : InRegion c r.base (m.resolve c.pg x) := by
  obtain ⟨col, off, hc, ho, rfl⟩ := region_col hv hx
  rcases h.inside r hr col off hc ho with e | ⟨hcow, _, e⟩
  · rw [e]; exact hx
  · rw [e]; exact col_in (initCol_lt hcow) ho

theorem rangeCreate_spec {c : Config} (hv : Valid c) {pool : Pool} {m : Mem} {env : RangeEnv} {r : Range} {m' : Mem}
    (hwf : m.WF) (hsh : Shape c pool.ranges m) (henv : EnvOK c pool.ranges m env)
    (h : (rangeCreate c pool m env).2 = some (r, m')) :
    NewRange c pool.ranges m r m' ∧ (c.maxRanges ≠ 0 → pool.nrRanges < c.maxRanges) := by
  unfold rangeCreate at h
  split at h
  · cases h
  rename_i hmax
  cases hb : env.base with
  | none => rw [hb] at h; cases h
  | some base =>
    rw [hb] at h
    dsimp only at h
    split at h
    · cases h
    split at h
    · cases h
    cases hrun : runCalls c env (initCalls c base) 0 (mapRange c base m) with
    | mk log res =>
      rw [hrun] at h
      cases res with
      | none => cases h
      | some m1 =>
        cases h
        obtain ⟨hal, hpos, htop, hap, hfresh⟩ := henv.fresh base hb
        have hf : Frame c.pg (InRegion c base) (mapRange c base m) m' :=
          runCalls_frame hv henv.cb (initCalls_addr hv) hrun
        have hwf0 := mapRange_wf hv hal hwf hfresh
        have hshape0 : ∀ r : Range, r.base = base → Shape c (r :: pool.ranges) (mapRange c base m) := by
          intro r hrb
          refine ⟨fun r' hr' col off hc ho => ?_, fun x hx r' hr' => ?_⟩
          · rcases List.mem_cons.1 hr' with e | hr'
            · rw [e, hrb, mapRange_resolve_in hv hal hc ho]
              split
              · rename_i h; exact Or.inr ⟨h.1, h.2, rfl⟩
              · exact Or.inl rfl
            · have hout := (hap r' hr').not_in (col_in (base := r'.base) hc ho)
              rw [mapRange_resolve_out hv hal hout]
              exact hsh.inside r' hr' col off hc ho
          · have hxout : ¬ InRegion c base x := by
              have := hx r List.mem_cons_self; rwa [hrb] at this
            rw [mapRange_resolve_out hv hal hxout]
            rcases List.mem_cons.1 hr' with e | hr'
            · rw [e, hrb]; exact hfresh x hxout
            · exact hsh.outside x (fun r'' hr'' => hx r'' (List.mem_cons_of_mem _ hr'')) r' hr'
        refine ⟨?_, ?_⟩
        · refine ⟨?_, rfl, ?_, hap, hf.wf hwf0, (hshape0 _ rfl).frame hf, ?_, fun r' hr' x hx => ?_⟩
          · exact { al := hal, pos := hpos, top := htop, nu := Nat.zero_le _, nud := Nat.dvd_zero _
                    init_eq := rfl, bm := by dsimp only; cases c.robust <;> rfl, hdr := rfl, maddr := rfl
                    mlen := rfl, can := fun hc => by dsimp only; rw [hc]; rfl }
          · intro bm hbm k
            dsimp only at hbm
            split at hbm
            · cases hbm; rw [bitTest_eq]; simp
            · cases hbm
          · intro r' hr' x hx
            have hout := (hap r' hr').not_in hx
            have hrout := (hap r' hr').not_in (hsh.region hv hr' hx)
            rw [hf.rd hwf0 x hout (by rw [mapRange_resolve_out hv hal hout]; exact hrout),
              mapRange_read_out hv hal hout hrout]
          · have := hf.res x
            rwa [mapRange_resolve_out hv hal ((hap r' hr').not_in hx)] at this
        · intro h0
          omega

/-- Adding a fresh range keeps the invariant. -/
theorem Inv.addRange {c : Config} (hv : Valid c) {uaf : Bool} {s : State} {L F : List Nat} (h : Inv c uaf s L F)
    {r : Range} {m' : Mem} (hn : NewRange c s.pool.ranges s.mem r m')
    (hmax : c.maxRanges ≠ 0 → s.pool.nrRanges < c.maxRanges)
    (hfull : ∀ r ∈ s.pool.ranges, r.nextUnused = c.stride) :
    Inv c uaf { s with mem := m', pool := { s.pool with ranges := r :: s.pool.ranges, nrRanges := s.pool.nrRanges + 1 } } L F := by
  have h8 := hv.item_ge
  have hlen := ncpu_le_nCols c
  have hregion : ∀ p, Slot c s.pool.ranges p → ∀ col o, col < c.nCols → o < c.itemLen →
      m'.read c.pg (p + c.stride * col + o) = s.mem.read c.pg (p + c.stride * col + o) := by
    rintro p ⟨r', hr', k, hk, rfl⟩ col o hc ho
    rw [show r'.base + k * c.itemLen + c.stride * col + o = r'.base + c.stride * col + (k * c.itemLen + o) by omega]
    exact hn.keep r' hr' _ (col_in hc (by omega))
  have hpos : 0 < rangeLen c := by
    rw [rangeLen_eq]
    have := hv.ncpu_pos
    exact Nat.mul_pos hv.stride_pos (by omega)
  have hne : ∀ r' ∈ s.pool.ranges, r.base ≠ r'.base := by
    intro r' hr'
    have := hn.apart r' hr'
    unfold Apart at this
    omega
  have hranges : RangesInv c (r :: s.pool.ranges) := by
    refine ⟨fun x hx => ?_, ?_, fun x hx y hy hxy => ?_⟩
    · rcases List.mem_cons.1 hx with rfl | hx
      · exact hn.inv
      · exact h.ranges.each x hx
    · rw [List.map_cons, List.nodup_cons]
      refine ⟨?_, h.ranges.nodup⟩
      intro hm
      obtain ⟨r', hr', e⟩ := List.mem_map.1 hm
      exact hne r' hr' e.symm
    · rcases List.mem_cons.1 hx with e1 | hx <;> rcases List.mem_cons.1 hy with e2 | hy
      · exact absurd (by rw [e1, e2]) hxy
      · rw [e1]; exact hn.apart y hy
      · rw [e2]; exact Or.symm (hn.apart x hx)
      · exact h.ranges.apart x hx y hy hxy
  refine { wf := hn.wf, ranges := hranges, shape := hn.shape, mapped := h.mapped
           nr := by dsimp only; rw [h.nr, List.length_cons]
           maxr := fun h0 => by have := hmax h0; have := h.nr; dsimp only; rw [List.length_cons]; omega
           full := hfull
           chain := h.chain.congr fun q hq j hj => hregion q (h.slotF hq) _ _ hv.flCol_lt (by omega)
           nodup := h.nodup
           used := ?_, bits := ?_, poison := ?_ }
  · intro p
    rw [← h.used p]
    constructor
    · rintro ⟨r', hr', k, hk, e⟩
      rcases List.mem_cons.1 hr' with rfl | hr'
      · rw [hn.nu] at hk; omega
      · exact ⟨r', hr', k, hk, e⟩
    · rintro ⟨r', hr', k, hk, e⟩
      exact ⟨r', List.mem_cons_of_mem _ hr', k, hk, e⟩
  · intro hu v hpv p hp col o hb
    rw [← h.poison hu v hpv p hp col o hb]
    exact hregion p (h.slotF hp) col o hb.col_lt hb.2.1
  · intro r' hr' bm hbm k
    rcases List.mem_cons.1 hr' with rfl | hr'
    · rw [hn.empty bm hbm k, hn.nu]; simp
    · exact h.bits r' hr' bm hbm k

end Verif.Mempool
