import Verif.Proofs.BlockGraph

/-! # Levels, strides, and the enumeration of blocks -/

namespace Verif.BGraph

open Verif.Axis Verif.Spec

variable {d : Nat}

/-- The larger of the two contexts. -/
def mctx (g : BGraph d) (i : Fin d) : Int := max (g.cl i) (g.cu i)

theorem s_noconf (g : BGraph d) (hc : g.conflict = false) (i : Fin d) : g.s i = g.w i := by
  simp [s, levelStride, hc, w]

/-- The rounded total size along an axis. -/
def rounded (g : BGraph d) (i : Fin d) : Int :=
  if g.fit = .valid then g.t i - (g.t i).fmod (g.w i)
  else g.t i + ((-g.t i).fmod (g.w i)).fmod (g.w i)

theorem s_conf (g : BGraph d) (hc : g.conflict = true) (i : Fin d) :
    g.s i = min (((g.mctx i + g.w i - 1).fdiv (g.w i) + 1) * g.w i) (g.rounded i) := by
  have h1 : ∀ i, (Roi.lo g.blockWrite - Roi.lo g.blockRead).get i = g.cl i := by
    intro i; simp [cl]
  have h2 : ∀ i, (Roi.hi g.blockRead - Roi.hi g.blockWrite).get i = g.cu i := by
    intro i; simp [cu]
  unfold s levelStride rounded mctx
  rw [if_neg (by simp [hc])]
  cases hf : g.fit <;>
    simp only [Coord.get_min, Coord.get_mul, Coord.get_add, Coord.get_floorDiv, Coord.get_sub,
      Vec.get_const, Coord.get_max, h1, h2, Coord.get_mod, Coord.get_neg, w, t,
      if_true, reduceCtorEq, if_false]

theorem strideOK (g : BGraph d) (h : g.Wf) (i : Fin d) : StrideOK (g.w i) (g.s i) (g.u i) := by
  have hw := h.wpos i
  have ht := h.tnn i
  cases hc : g.conflict with
  | false =>
    have hs := g.s_noconf hc i
    refine ⟨hw, by rw [hs], by omega, fun _ => by omega, fun _ => by omega⟩
  | true =>
    have hctx := h.ctx hc i
    have hm : 0 ≤ g.mctx i := by unfold mctx; omega
    obtain ⟨r1, r2⟩ := stride_raw (m := g.mctx i) hw
    have hs := g.s_conf hc i
    by_cases hf : g.fit = .valid
    · obtain ⟨d1, d2, d3, d4⟩ := round_down hw ht
      have hr : g.rounded i = g.t i - (g.t i).fmod (g.w i) := by simp [rounded, hf]
      rw [← hr] at d1 d2 d3 d4
      have hu := g.u_valid hf i
      refine ⟨hw, ?_, by omega, ?_, ?_⟩
      · rw [hs]; rcases min_choice (((g.mctx i + g.w i - 1).fdiv (g.w i) + 1) * g.w i)
          (g.rounded i) with h | h <;> rw [h] <;> assumption
      · intro hu0
        have : 0 < g.rounded i := by
          by_contra hcon
          omega
        omega
      · intro hu0
        omega
    · obtain ⟨d1, d2, d3, d4⟩ := round_up hw ht
      have hr : g.rounded i = g.t i + ((-g.t i).fmod (g.w i)).fmod (g.w i) := by
        simp [rounded, hf]
      rw [← hr] at d1 d2 d3 d4
      have hu := g.u_other hf i
      refine ⟨hw, ?_, by omega, ?_, ?_⟩
      · rw [hs]; rcases min_choice (((g.mctx i + g.w i - 1).fdiv (g.w i) + 1) * g.w i)
          (g.rounded i) with h | h <;> rw [h] <;> assumption
      · intro hu0
        omega
      · intro hu0
        omega

/-- In conflict mode the stride separates conflicting blocks, unless the volume is smaller. -/
theorem stride_sep (g : BGraph d) (h : g.Wf) (hc : g.conflict = true) (i : Fin d) :
    g.mctx i + g.w i ≤ g.s i ∨ g.u i ≤ g.s i := by
  have hw := h.wpos i
  have ht := h.tnn i
  obtain ⟨r1, r2⟩ := stride_raw (m := g.mctx i) hw
  have hs := g.s_conf hc i
  by_cases hf : g.fit = .valid
  · obtain ⟨d1, d2, d3, d4⟩ := round_down hw ht
    have hr : g.rounded i = g.t i - (g.t i).fmod (g.w i) := by simp [rounded, hf]
    rw [← hr] at d1 d2 d3 d4
    have hu := g.u_valid hf i
    omega
  · obtain ⟨d1, d2, d3, d4⟩ := round_up hw ht
    have hr : g.rounded i = g.t i + ((-g.t i).fmod (g.w i)).fmod (g.w i) := by
      simp [rounded, hf]
    rw [← hr] at d1 d2 d3 d4
    have hu := g.u_other hf i
    omega

/-- In conflict mode, no room means stride zero. -/
theorem stride_zero (g : BGraph d) (h : g.Wf) (hc : g.conflict = true) (i : Fin d)
    (hu0 : g.u i ≤ 0) : g.s i = 0 := by
  have hw := h.wpos i
  have ht := h.tnn i
  have hctx := h.ctx hc i
  have hm : 0 ≤ g.mctx i := by unfold mctx; omega
  obtain ⟨r1, r2⟩ := stride_raw (m := g.mctx i) hw
  have hs := g.s_conf hc i
  by_cases hf : g.fit = .valid
  · obtain ⟨d1, d2, d3, d4⟩ := round_down hw ht
    have hr : g.rounded i = g.t i - (g.t i).fmod (g.w i) := by simp [rounded, hf]
    rw [← hr] at d1 d2 d3 d4
    have hu := g.u_valid hf i
    have : g.rounded i = 0 := by
      by_contra hne
      have := dvd_lt (dvd_zero (g.w i)) d1 (by omega)
      omega
    omega
  · obtain ⟨d1, d2, d3, d4⟩ := round_up hw ht
    have hr : g.rounded i = g.t i + ((-g.t i).fmod (g.w i)).fmod (g.w i) := by
      simp [rounded, hf]
    rw [← hr] at d1 d2 d3 d4
    have hu := g.u_other hf i
    have : g.rounded i = 0 := by
      by_contra hne
      have := dvd_lt (dvd_zero (g.w i)) d1 (by omega)
      omega
    omega

theorem mem_levelOffsets (g : BGraph d) (h : g.Wf) (lo : Coord d) :
    lo ∈ g.levelOffsets ↔ ∀ i, 0 ≤ lo.get i ∧ lo.get i < g.s i ∧ g.w i ∣ lo.get i := by
  unfold levelOffsets
  rw [List.mem_reverse, mem_vecProduct]
  refine forall_congr' fun i => ?_
  rw [Vec.get_zipWith]
  exact (mem_pyRange (h.wpos i)).trans (by simp [s, w])

theorem nodup_levelOffsets (g : BGraph d) (h : g.Wf) : g.levelOffsets.Nodup := by
  unfold levelOffsets
  rw [List.nodup_reverse]
  apply nodup_vecProduct
  intro i
  rw [Vec.get_zipWith]
  exact nodup_pyRange (h.wpos i)

/-- If there is a level, all strides are positive. -/
theorem s_pos_of_level (g : BGraph d) (h : g.Wf) {lo : Coord d} (hlo : lo ∈ g.levelOffsets)
    (i : Fin d) : 0 < g.s i := by
  have := (g.mem_levelOffsets h lo).1 hlo i
  omega

/-- Offsets of the blocks of one level. -/
theorem mem_levelBlockOffsets (g : BGraph d) (h : g.Wf) {level : Nat} {lo : Coord d}
    (hl : g.levelOffsets[level]? = some lo) :
    ∃ os : List (Coord d), g.levelBlockOffsets level = .ok (os.map (fun o => o + (g.totalRead.lo - g.blockRead.lo)))
      ∧ os.Nodup
      ∧ (∀ o, o ∈ os ↔ ∀ i, lo.get i ≤ o.get i ∧ o.get i < g.u i ∧ g.s i ∣ o.get i - lo.get i)
      ∧ os.length = ((Vec.zipWith (fun (a : Int × Int) (b : Int) => pyRange a.1 a.2 b)
          (Vec.zipWith Prod.mk lo (g.totalWrite.shape + Vec.const d 1 - g.roundingTerm))
          g.levelStride).toList.map List.length).prod := by
  have hmem : lo ∈ g.levelOffsets := List.mem_of_getElem? hl
  unfold levelBlockOffsets
  rw [hl]
  refine ⟨_, rfl, ?_, ?_, length_vecProduct _⟩
  · apply nodup_vecProduct
    intro i
    simp only [Vec.get_zipWith]
    exact nodup_pyRange (g.s_pos_of_level h hmem i)
  · intro o
    rw [mem_vecProduct]
    refine forall_congr' fun i => ?_
    have hs := g.s_pos_of_level h hmem i
    simp only [Vec.get_zipWith]
    rw [mem_pyRange (by exact hs)]
    simp [s, u, t]

theorem mapM_ok {α β : Type} (f : α → Except PyErr β) (k : α → β) :
    ∀ l : List α, (∀ a ∈ l, f a = .ok (k a)) → l.mapM f = .ok (l.map k)
  | [], _ => rfl
  | a :: l, h => by
    rw [List.mapM_cons, h a List.mem_cons_self,
      mapM_ok f k l (fun x hx => h x (List.mem_cons_of_mem _ hx))]
    rfl

/-- The blocks of one level: never an error, and exactly the admissible grid offsets of the
residue class of the level. -/
theorem levelBlocks_spec (g : BGraph d) (h : g.Wf) {level : Nat} {lo : Coord d}
    (hl : g.levelOffsets[level]? = some lo) :
    ∃ os : List (Coord d), g.levelBlocks level = .ok (os.map g.blk) ∧ os.Nodup
      ∧ (∀ o, o ∈ os ↔ ∀ i, lo.get i ≤ o.get i ∧ o.get i < g.u i ∧ g.s i ∣ o.get i - lo.get i)
      ∧ os.length = ((Vec.zipWith (fun (a : Int × Int) (b : Int) => pyRange a.1 a.2 b)
          (Vec.zipWith Prod.mk lo (g.totalWrite.shape + Vec.const d 1 - g.roundingTerm))
          g.levelStride).toList.map List.length).prod := by
  obtain ⟨os, h1, h2, h3, h4⟩ := g.mem_levelBlockOffsets h hl
  have hmem : lo ∈ g.levelOffsets := List.mem_of_getElem? hl
  have hlo := (g.mem_levelOffsets h lo).1 hmem
  refine ⟨os, ?_, h2, h3, h4⟩
  unfold levelBlocks
  rw [h1]
  change List.mapM _ _ = _
  rw [List.mapM_map]
  apply mapM_ok
  intro o ho
  simp only [Function.comp]
  rw [g.raw_eq h]
  have : g.included (g.raw o) = true := by
    rw [g.included_raw h]
    intro i
    have h5 := (h3 o).1 ho i
    have h6 := hlo i
    exact ⟨by omega, h5.2.1⟩
  rw [if_pos this]
  rfl

/-- Offsets of one level are grid offsets. -/
theorem grid_of_level (g : BGraph d) (h : g.Wf) {lo o : Coord d} (hlo : lo ∈ g.levelOffsets)
    (ho : ∀ i, lo.get i ≤ o.get i ∧ o.get i < g.u i ∧ g.s i ∣ o.get i - lo.get i) : g.Grid o := by
  intro i
  have h5 := ho i
  have h6 := (g.mem_levelOffsets h lo).1 hlo i
  refine ⟨by omega, h5.2.1, ?_⟩
  have h7 := dvd_trans (g.strideOK h i).dvd h5.2.2
  have : o.get i = (o.get i - lo.get i) + lo.get i := by ring
  rw [this]
  exact dvd_add h7 h6.2.2

/-- The residue of a grid offset is a level offset. -/
theorem residue_level (g : BGraph d) (h : g.Wf) {o : Coord d} (ho : g.Grid o) :
    o.mod g.levelStride ∈ g.levelOffsets := by
  rw [g.mem_levelOffsets h]
  intro i
  have h1 := ho i
  have ok := g.strideOK h i
  have hs := ok.pos (by omega)
  rw [Coord.get_mod]
  change 0 ≤ (o.get i).fmod (g.s i) ∧ (o.get i).fmod (g.s i) < g.s i ∧ g.w i ∣ (o.get i).fmod (g.s i)
  rw [fmod_eq hs]
  refine ⟨Int.emod_nonneg _ (by omega), Int.emod_lt_of_pos _ hs, ?_⟩
  rw [Int.emod_def]
  exact dvd_sub h1.2.2 (Dvd.dvd.mul_right ok.dvd _)

/-- `o` lies in the residue class of `lo` iff `o % stride = lo`. -/
theorem residue_iff (g : BGraph d) (h : g.Wf) {o lo : Coord d} (ho : g.Grid o)
    (hlo : lo ∈ g.levelOffsets) :
    o.mod g.levelStride = lo ↔ ∀ i, g.s i ∣ o.get i - lo.get i := by
  have hl := (g.mem_levelOffsets h lo).1 hlo
  rw [Vec.ext_iff_get]
  refine forall_congr' fun i => ?_
  have hs := (g.strideOK h i).pos (by have := ho i; omega)
  rw [Coord.get_mod]
  change (o.get i).fmod (g.s i) = _ ↔ _
  rw [fmod_eq hs]
  have h1 := hl i
  constructor
  · intro h2
    rw [← h2]
    exact Int.dvd_self_sub_emod
  · intro h2
    have h3 := Int.emod_nonneg (o.get i) (by omega : g.s i ≠ 0)
    have h4 := Int.emod_lt_of_pos (o.get i) hs
    refine eq_of_dvd_sub (ls := g.s i) ?_ (by omega) (by omega)
    have h5 : g.s i ∣ o.get i - o.get i % g.s i := Int.dvd_self_sub_emod
    have : o.get i % g.s i - lo.get i = (o.get i - lo.get i) - (o.get i - o.get i % g.s i) := by ring
    rw [this]
    exact dvd_sub h2 h5

/-- The level index of a grid offset. -/
def lvl (g : BGraph d) (o : Coord d) : Nat := g.levelOffsets.idxOf (o.mod g.levelStride)

theorem lvl_get (g : BGraph d) (h : g.Wf) {o : Coord d} (ho : g.Grid o) :
    g.levelOffsets[g.lvl o]? = some (o.mod g.levelStride) := by
  unfold lvl
  exact List.getElem?_idxOf (g.residue_level h ho)

theorem lvl_lt (g : BGraph d) (h : g.Wf) {o : Coord d} (ho : g.Grid o) :
    g.lvl o < g.numLevels := by
  unfold lvl numLevels
  exact List.idxOf_lt_length_of_mem (g.residue_level h ho)

theorem lvl_eq_iff (g : BGraph d) (h : g.Wf) {o lo : Coord d} {k : Nat} (ho : g.Grid o)
    (hk : g.levelOffsets[k]? = some lo) :
    g.lvl o = k ↔ ∀ i, g.s i ∣ o.get i - lo.get i := by
  have hmem : lo ∈ g.levelOffsets := List.mem_of_getElem? hk
  rw [← g.residue_iff h ho hmem]
  constructor
  · intro hl
    have := g.lvl_get h ho
    rw [hl, hk] at this
    exact (Option.some.inj this).symm
  · intro heq
    unfold lvl
    rw [heq]
    have hk' : k < g.levelOffsets.length := (List.getElem?_eq_some_iff.1 hk).1
    have : g.levelOffsets[k] = lo := (List.getElem?_eq_some_iff.1 hk).2
    rw [← this]
    exact List.Nodup.idxOf_getElem (g.nodup_levelOffsets h) k hk'

/-- Membership in a level. -/
theorem level_mem_iff (g : BGraph d) (h : g.Wf) {o lo : Coord d} {k : Nat}
    (hk : g.levelOffsets[k]? = some lo) :
    (∀ i, lo.get i ≤ o.get i ∧ o.get i < g.u i ∧ g.s i ∣ o.get i - lo.get i) ↔
      g.Grid o ∧ g.lvl o = k := by
  have hmem : lo ∈ g.levelOffsets := List.mem_of_getElem? hk
  have hl := (g.mem_levelOffsets h lo).1 hmem
  constructor
  · intro ho
    have hg := g.grid_of_level h hmem ho
    exact ⟨hg, (g.lvl_eq_iff h hg hk).2 (fun i => (ho i).2.2)⟩
  · rintro ⟨hg, hlv⟩ i
    have hd := (g.lvl_eq_iff h hg hk).1 hlv i
    have h1 := hg i
    have h2 := hl i
    refine ⟨?_, h1.2.1, hd⟩
    by_contra hcon
    have := eq_of_dvd_sub (a := o.get i) (b := lo.get i) hd (by omega) (by omega)
    omega

/-- All blocks: no error, and exactly the grid offsets, each once. -/
theorem blocks_spec (g : BGraph d) (h : g.Wf) :
    ∃ os : List (Coord d), g.blocks = .ok (os.map g.blk) ∧ os.Nodup ∧ ∀ o, o ∈ os ↔ g.Grid o := by
  have hlev : ∀ k, ∃ os : List (Coord d), k < g.numLevels → g.levelBlocks k = .ok (os.map g.blk) ∧
      os.Nodup ∧ ∀ o, o ∈ os ↔ g.Grid o ∧ g.lvl o = k := by
    intro k
    by_cases hk : k < g.numLevels
    · have hk' : g.levelOffsets[k]? = some g.levelOffsets[k] := List.getElem?_eq_getElem hk
      obtain ⟨os, h1, h2, h3, _⟩ := g.levelBlocks_spec h hk'
      exact ⟨os, fun _ => ⟨h1, h2, fun o => (h3 o).trans (g.level_mem_iff h hk')⟩⟩
    · exact ⟨[], fun h => absurd h hk⟩
  choose f hf using hlev
  refine ⟨(List.range g.numLevels).flatMap f, ?_, ?_, ?_⟩
  · unfold blocks
    rw [mapM_ok g.levelBlocks (fun k => (f k).map g.blk) _
      (fun k hk => (hf k (List.mem_range.1 hk)).1)]
    change Except.ok _ = _
    congr 1
    rw [List.map_flatMap, List.flatMap]
  · rw [List.nodup_flatMap]
    refine ⟨fun k hk => (hf k (List.mem_range.1 hk)).2.1, ?_⟩
    refine List.Pairwise.imp_of_mem ?_ List.nodup_range
    intro a b ha hb hab
    simp only [Function.onFun, List.disjoint_left]
    intro o ho1 ho2
    have h1 := (((hf a (List.mem_range.1 ha)).2.2 o).1 ho1).2
    have h2 := (((hf b (List.mem_range.1 hb)).2.2 o).1 ho2).2
    exact hab (h1.symm.trans h2)
  · intro o
    simp only [List.mem_flatMap, List.mem_range]
    constructor
    · rintro ⟨k, hk, ho⟩
      exact (((hf k hk).2.2 o).1 ho).1
    · intro ho
      exact ⟨g.lvl o, g.lvl_lt h ho, ((hf _ (g.lvl_lt h ho)).2.2 o).2 ⟨ho, rfl⟩⟩

theorem grid_admissible (g : BGraph d) {o : Coord d} (ho : g.Grid o) :
    ∀ i, 0 ≤ o.get i ∧ o.get i < g.u i := fun i => ⟨(ho i).1, (ho i).2.1⟩

/-- Membership among the enumerated blocks. -/
theorem mem_blocks (g : BGraph d) (h : g.Wf) {bs : List (Block d)} (hb : g.blocks = .ok bs)
    (b : Block d) : b ∈ bs ↔ ∃ o, g.Grid o ∧ g.blk o = b := by
  obtain ⟨os, h1, _, h3⟩ := g.blocks_spec h
  rw [h1] at hb
  cases hb
  simp only [List.mem_map, h3]

theorem nodup_blocks (g : BGraph d) (h : g.Wf) {bs : List (Block d)} (hb : g.blocks = .ok bs) :
    bs.Nodup := by
  obtain ⟨os, h1, h2, h3⟩ := g.blocks_spec h
  rw [h1] at hb
  cases hb
  refine List.Nodup.map_on ?_ h2
  intro x hx y hy hxy
  exact g.blk_inj h (g.grid_admissible ((h3 x).1 hx)) (g.grid_admissible ((h3 y).1 hy)) hxy

/-- `_level` of an enumerated block. -/
theorem levelOf_blk (g : BGraph d) (h : g.Wf) (hc : g.ReadOK) {o : Coord d} (ho : g.Grid o) :
    g.levelOf (g.blk o) = .ok (g.lvl o) := by
  have hoff : g.blockOffset (g.blk o) = o := by
    apply Vec.ext_get; intro i
    simp only [blockOffset, Coord.get_sub, g.blk_read_off h hc o (g.grid_admissible ho) i]
    ring
  unfold levelOf
  rw [hoff]
  have hfun : (fun x => decide (o.mod g.levelStride = x)) = (fun x => x == o.mod g.levelStride) := by
    funext x
    by_cases hx : x = o.mod g.levelStride
    · simp [hx]
    · simp [hx, Ne.symm hx]
  have : g.levelOffsets.findIdx? (fun x => decide (o.mod g.levelStride = x)) = some (g.lvl o) := by
    rw [hfun, List.findIdx?_eq_some_iff_findIdx_eq]
    exact ⟨g.lvl_lt h ho, rfl⟩
  simp only [this]

end Verif.BGraph
