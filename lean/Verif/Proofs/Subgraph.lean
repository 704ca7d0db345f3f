import Verif.Proofs.Levels

/-! # `get_subgraph_blocks` -/

namespace Verif.BGraph

open Verif.Axis Verif.Spec

variable {d : Nat}

/-- Some axis rules out that the cell of the coordinate origin is a block whose grid line does
not pass through the origin (see `C12`: the empty intersection is placed at the origin). -/
def OriginSafe (g : BGraph d) : Prop :=
  ∃ i, 0 ≤ g.totalWrite.offset.get i ∨ g.totalWrite.offset.get i + g.t i + g.w i ≤ 0 ∨
    g.w i ∣ g.totalWrite.offset.get i

/-- The part of `get_subgraph_blocks` after the intersection. -/
def cellBlocks (g : BGraph d) (bg en : Coord d) : List (Block d) :=
  ((vecProduct (Vec.zipWith (fun (a : Int × Int) (s : Int) => pyRange a.1 a.2 s)
    (Vec.zipWith Prod.mk (bg.floorDiv g.blockWrite.shape * g.blockWrite.shape)
      (-((-en).floorDiv g.blockWrite.shape) * g.blockWrite.shape)) g.blockWrite.shape)).map
        g.blk).filter g.included

theorem raw_eq' (g : BGraph d) (h : g.Wf) (o : Coord d) :
    Block.new g.totalRead ((g.blockRead.shift (o + g.totalRead.offset)).shift (-g.blockRead.offset))
      ((g.blockWrite.shift (o + g.totalRead.offset)).shift (-g.blockRead.offset)) g.taskId
      = g.raw o := by
  unfold raw
  congr 1
  · simp only [Roi.shift, Roi.mk.injEq, and_true]
    apply Vec.ext_get; intro i
    simp only [Coord.get_add, Coord.get_neg]
    ring
  · simp only [Roi.shift, Roi.mk.injEq, and_true]
    apply Vec.ext_get; intro i
    simp only [Coord.get_add, Coord.get_neg, g.tw_off h i, cl]
    ring

theorem subgraph_eq (g : BGraph d) (h : g.Wf) (sub : Roi d) :
    g.subgraphBlocks sub false = g.cellBlocks
      ((sub.intersect g.totalWrite).lo - g.totalWrite.offset)
      ((sub.intersect g.totalWrite).hi - g.totalWrite.offset) := by
  unfold subgraphBlocks cellBlocks
  simp only [Bool.false_eq_true, if_false, List.map_map]
  congr 1
  apply List.map_congr_left
  intro o _
  simp only [Function.comp]
  rw [g.raw_eq' h]
  rfl

theorem mem_cells (g : BGraph d) (h : g.Wf) (bg en o : Coord d) :
    o ∈ vecProduct (Vec.zipWith (fun (a : Int × Int) (s : Int) => pyRange a.1 a.2 s)
      (Vec.zipWith Prod.mk (bg.floorDiv g.blockWrite.shape * g.blockWrite.shape)
        (-((-en).floorDiv g.blockWrite.shape) * g.blockWrite.shape)) g.blockWrite.shape) ↔
      ∀ i, g.w i ∣ o.get i ∧ bg.get i < o.get i + g.w i ∧ o.get i < en.get i := by
  rw [mem_vecProduct]
  refine forall_congr' fun i => ?_
  have hw := h.wpos i
  simp only [Vec.get_zipWith]
  rw [mem_pyRange (by exact hw)]
  simp only [Coord.get_mul, Coord.get_floorDiv, Coord.get_neg]
  change (bg.get i).fdiv (g.w i) * g.w i ≤ _ ∧ _ < -((-en.get i).fdiv (g.w i)) * g.w i ∧
    g.w i ∣ _ - (bg.get i).fdiv (g.w i) * g.w i ↔ _
  constructor
  · rintro ⟨h1, h2, h3⟩
    have h4 : g.w i ∣ o.get i := by
      have := dvd_add h3 (Dvd.intro_left ((bg.get i).fdiv (g.w i)) rfl)
      rwa [sub_add_cancel] at this
    exact ⟨h4, (aligned_iff hw h4).1 ⟨h1, h2⟩⟩
  · rintro ⟨h4, h5⟩
    obtain ⟨h1, h2⟩ := (aligned_iff hw h4).2 h5
    exact ⟨h1, h2, dvd_sub h4 (Dvd.intro_left _ rfl)⟩

/-- Query that meets the total write ROI. -/
theorem subgraph_meets (g : BGraph d) (h : g.Wf) (sub : Roi d)
    (hov : sub.intersects g.totalWrite = true) :
    (g.subgraphBlocks sub false).Nodup ∧
    ∀ b, b ∈ g.subgraphBlocks sub false ↔ ∃ o, g.Grid o ∧ b = g.blk o ∧
      ∀ i, max (sub.offset.get i) (g.totalWrite.offset.get i) <
          g.totalWrite.offset.get i + o.get i + g.w i ∧
        g.totalWrite.offset.get i + o.get i <
          min (sub.offset.get i + sub.shape.get i) (g.totalWrite.offset.get i + g.t i) := by
  have hlo : ∀ i, ((sub.intersect g.totalWrite).lo - g.totalWrite.offset).get i =
      max (sub.offset.get i) (g.totalWrite.offset.get i) - g.totalWrite.offset.get i := by
    intro i
    simp [Roi.intersect, hov, Roi.lo]
  have hhi : ∀ i, ((sub.intersect g.totalWrite).hi - g.totalWrite.offset).get i =
      min (sub.offset.get i + sub.shape.get i) (g.totalWrite.offset.get i + g.t i) -
        g.totalWrite.offset.get i := by
    intro i
    simp [Roi.intersect, hov, t]
  have hin : ∀ o : Coord d, (∀ i, g.w i ∣ o.get i ∧
      ((sub.intersect g.totalWrite).lo - g.totalWrite.offset).get i < o.get i + g.w i ∧
      o.get i < ((sub.intersect g.totalWrite).hi - g.totalWrite.offset).get i) →
      ∀ i, 0 ≤ o.get i ∧ o.get i < g.t i := by
    intro o ho i
    obtain ⟨h1, h2, h3⟩ := ho i
    rw [hlo] at h2
    rw [hhi] at h3
    constructor
    · by_contra hcon
      have := dvd_lt h1 (dvd_zero _) (by omega)
      omega
    · omega
  have hinc : ∀ o : Coord d, (∀ i, 0 ≤ o.get i ∧ o.get i < g.t i) →
      (g.included (g.blk o) = true ↔ ∀ i, 0 ≤ o.get i ∧ o.get i < g.u i) := by
    intro o ho
    by_cases hf : g.fit = .shrink
    · have hadm : ∀ i, 0 ≤ o.get i ∧ o.get i < g.u i := by
        intro i
        rw [u_other g (by simp [hf])]
        exact ho i
      simp only [included, hf, shrinkPossible]
      rw [Roi.containsPoint_iff]
      constructor
      · intro _; exact hadm
      · intro _ i
        rw [Roi.get_lo, (g.blk_write h o hadm).1 i]
        have := ho i
        simp only [t] at this
        omega
    · have : g.blk o = g.raw o := by
        unfold blk fitBlock
        split
        · rfl
        · rfl
        · rename_i hf'; exact absurd hf' hf
      rw [this]
      exact g.included_raw h o
  rw [g.subgraph_eq h]
  constructor
  · unfold cellBlocks
    rw [List.filter_map]
    refine List.Nodup.map_on ?_ ?_
    · intro x hx y hy hxy
      rw [List.mem_filter, mem_cells g h] at hx hy
      exact g.blk_inj h ((hinc x (hin x hx.1)).1 hx.2) ((hinc y (hin y hy.1)).1 hy.2) hxy
    · refine List.Nodup.filter _ (nodup_vecProduct _ ?_)
      intro i
      simp only [Vec.get_zipWith]
      exact nodup_pyRange (h.wpos i)
  · intro b
    unfold cellBlocks
    simp only [List.mem_filter, List.mem_map, mem_cells g h]
    constructor
    · rintro ⟨⟨o, ho, rfl⟩, hi⟩
      have hadm := (hinc o (hin o ho)).1 hi
      refine ⟨o, fun i => ⟨(hadm i).1, (hadm i).2, (ho i).1⟩, rfl, ?_⟩
      intro i
      obtain ⟨_, h2, h3⟩ := ho i
      rw [hlo] at h2
      rw [hhi] at h3
      omega
    · rintro ⟨o, hg, rfl, hb⟩
      have hc : ∀ i, g.w i ∣ o.get i ∧
          ((sub.intersect g.totalWrite).lo - g.totalWrite.offset).get i < o.get i + g.w i ∧
          o.get i < ((sub.intersect g.totalWrite).hi - g.totalWrite.offset).get i := by
        intro i
        rw [hlo, hhi]
        have := hb i
        exact ⟨(hg i).2.2, by omega, by omega⟩
      exact ⟨⟨o, hc, rfl⟩, (hinc o (hin o hc)).2 (g.grid_admissible hg)⟩

/-- Query that misses the total write ROI. -/
theorem subgraph_misses (g : BGraph d) (h : g.Wf) (sub : Roi d) (hs : g.OriginSafe)
    (hov : sub.intersects g.totalWrite = false) : g.subgraphBlocks sub false = [] := by
  have hlo : ∀ i, ((sub.intersect g.totalWrite).lo - g.totalWrite.offset).get i =
      - g.totalWrite.offset.get i := by
    intro i
    simp [Roi.intersect, hov, Roi.lo]
  have hhi : ∀ i, ((sub.intersect g.totalWrite).hi - g.totalWrite.offset).get i =
      - g.totalWrite.offset.get i := by
    intro i
    simp [Roi.intersect, hov]
  rw [g.subgraph_eq h, List.eq_nil_iff_forall_not_mem]
  intro b hb
  unfold cellBlocks at hb
  simp only [List.mem_filter, List.mem_map, mem_cells g h] at hb
  obtain ⟨⟨o, ho, rfl⟩, hi⟩ := hb
  obtain ⟨j, hj⟩ := hs
  obtain ⟨h1, h2, h3⟩ := ho j
  rw [hlo] at h2
  rw [hhi] at h3
  have hw := h.wpos j
  -- in dimension j the cell is outside, and so is the origin
  have hout : o.get j + g.w j ≤ 0 ∨ g.t j ≤ o.get j := by
    rcases hj with hj | hj | hj
    · left
      have := dvd_lt h1 (dvd_zero _) (by omega)
      omega
    · right; omega
    · exfalso
      have := dvd_close h1 ((dvd_neg).2 hj) (by omega) (by omega)
      omega
  have horg : g.fit = .shrink → ¬ (g.totalWrite.offset.get j ≤ 0 ∧
      0 < g.totalWrite.offset.get j + g.t j) := by
    intro _
    rcases hj with hj | hj | hj
    · rcases hout with h' | h'
      · rintro ⟨h4, h5⟩
        omega
      · have := h.tnn j
        omega
    · have := h.wpos j
      omega
    · exfalso
      have := dvd_close h1 ((dvd_neg).2 hj) (by omega) (by omega)
      omega
  by_cases hf : g.fit = .shrink
  · simp only [included, hf, shrinkPossible, blk, fitBlock, shrinkBlock] at hi
    have hni : g.totalWrite.intersects (g.raw o).writeRoi = false := by
      rw [Bool.eq_false_iff, ne_eq, Roi.intersects_iff]
      rintro ⟨_, h5⟩
      have := h5 j
      simp only [raw, Block.new, Coord.get_add, w, t] at this hout
      omega
    simp only [Roi.intersect, hni, Roi.lo, Bool.false_eq_true, if_false] at hi
    rw [Roi.containsPoint_iff] at hi
    have := hi j
    rw [Vec.get_const] at this
    exact horg hf this
  · have : g.blk o = g.raw o := by
      unfold blk fitBlock
      split
      · rfl
      · rfl
      · rename_i hf'; exact absurd hf' hf
    rw [this, g.included_raw h] at hi
    have h4 := hi j
    have h5 := g.u_le_t h j
    omega

theorem subgraph_read (g : BGraph d) (sub : Roi d) :
    g.subgraphBlocks sub true =
      g.subgraphBlocks (sub.grow (ctxLo g.blockRead g.blockWrite) (ctxHi g.blockRead g.blockWrite))
        false := by
  simp [subgraphBlocks]

/-- A box has a voxel iff it is nonempty along each axis. -/
theorem exists_voxel (a b : Fin d → Int) :
    (∃ p : Coord d, ∀ i, a i ≤ p.get i ∧ p.get i < b i) ↔ ∀ i, a i < b i := by
  constructor
  · rintro ⟨p, hp⟩ i
    have := hp i
    omega
  · intro h
    refine ⟨Vec.ofFn a, fun i => ?_⟩
    rw [Vec.get_ofFn]
    exact ⟨le_refl _, h i⟩

theorem overlap_iff (r s : Roi d) :
    Overlap r s ↔ ∀ i, max (r.offset.get i) (s.offset.get i) <
      min (r.offset.get i + r.shape.get i) (s.offset.get i + s.shape.get i) := by
  rw [← exists_voxel]
  unfold Overlap InRoi
  refine exists_congr fun p => ?_
  rw [← forall_and]
  refine forall_congr' fun i => ?_
  omega

theorem intersects_of_overlap {r s : Roi d} (h : Overlap r s) : r.intersects s = true := by
  rw [overlap_iff] at h
  rw [Roi.intersects_iff]
  constructor <;> intro i <;> have := h i <;> omega

theorem overlap_of_intersects {r s : Roi d} (hr : ∀ i, 0 ≤ r.shape.get i)
    (hs : ∀ i, 0 ≤ s.shape.get i) (h : r.intersects s = true) : Overlap r s := by
  rw [Roi.intersects_iff] at h
  rw [overlap_iff]
  intro i
  have h1 := h.1 i
  have h2 := h.2 i
  have h3 := hr i
  have h4 := hs i
  omega

/-- The three-way meeting of a block's write ROI, the query and the total write ROI. -/
def Meets (g : BGraph d) (b : Block d) (sub : Roi d) : Prop :=
  ∃ p : Coord d, InRoi p b.writeRoi ∧ InRoi p sub ∧ InRoi p g.totalWrite

theorem meets_iff (g : BGraph d) (h : g.Wf) {o : Coord d} (ho : g.Grid o) (sub : Roi d) :
    g.Meets (g.blk o) sub ↔ (∀ i, max (sub.offset.get i) (g.totalWrite.offset.get i) <
          g.totalWrite.offset.get i + o.get i + g.w i ∧
        g.totalWrite.offset.get i + o.get i <
          min (sub.offset.get i + sub.shape.get i) (g.totalWrite.offset.get i + g.t i)) ∧
        ∀ i, max (sub.offset.get i) (g.totalWrite.offset.get i) <
          min (sub.offset.get i + sub.shape.get i) (g.totalWrite.offset.get i + g.t i) := by
  have hw := g.blk_write h o (g.grid_admissible ho)
  have e := exists_voxel
    (fun i => max (max (sub.offset.get i) (g.totalWrite.offset.get i))
      (g.totalWrite.offset.get i + o.get i))
    (fun i => min (min (sub.offset.get i + sub.shape.get i) (g.totalWrite.offset.get i + g.t i))
      (g.totalWrite.offset.get i + o.get i + (g.blk o).writeRoi.shape.get i))
  have e2 : g.Meets (g.blk o) sub ↔ ∃ p : Coord d, ∀ i,
      max (max (sub.offset.get i) (g.totalWrite.offset.get i))
        (g.totalWrite.offset.get i + o.get i) ≤ p.get i ∧
      p.get i < min (min (sub.offset.get i + sub.shape.get i)
        (g.totalWrite.offset.get i + g.t i))
        (g.totalWrite.offset.get i + o.get i + (g.blk o).writeRoi.shape.get i) := by
    unfold Meets InRoi
    refine exists_congr fun p => ?_
    rw [← forall_and, ← forall_and]
    refine forall_congr' fun i => ?_
    rw [hw.1 i]
    simp only [t]
    omega
  rw [e2, e, ← forall_and]
  refine forall_congr' fun i => ?_
  have h1 := ho i
  have h2 := g.u_le_t h i
  have h3 := h.wpos i
  have h4 := hw.2 i
  split at h4 <;> omega

/-- Exactness of `get_subgraph_blocks(sub)`. -/
theorem subgraph_exact (g : BGraph d) (h : g.Wf) (sub : Roi d) (hsub : ∀ i, 0 ≤ sub.shape.get i)
    (hs : Overlap sub g.totalWrite ∨ g.OriginSafe) :
    (g.subgraphBlocks sub false).Nodup ∧
    ∀ b, b ∈ g.subgraphBlocks sub false ↔ ∃ o, g.Grid o ∧ b = g.blk o ∧ g.Meets b sub := by
  by_cases hov : sub.intersects g.totalWrite = true
  · obtain ⟨h1, h2⟩ := g.subgraph_meets h sub hov
    refine ⟨h1, fun b => ?_⟩
    rw [h2]
    refine exists_congr fun o => ?_
    refine and_congr_right fun hg => and_congr_right fun hb => ?_
    rw [hb, g.meets_iff h hg]
    have := (overlap_iff _ _).1 (overlap_of_intersects hsub h.tnn hov)
    exact ⟨fun h => ⟨h, this⟩, fun h => h.1⟩
  · have hov' : sub.intersects g.totalWrite = false := by simpa using hov
    have hno : ¬ Overlap sub g.totalWrite := fun h => hov (intersects_of_overlap h)
    have hs' : g.OriginSafe := by
      rcases hs with h | h
      · exact absurd h hno
      · exact h
    rw [g.subgraph_misses h sub hs' hov']
    refine ⟨List.nodup_nil, fun b => ?_⟩
    simp only [List.not_mem_nil, false_iff]
    rintro ⟨o, _, _, p, _, h1, h2⟩
    exact hno ⟨p, h1, h2⟩

/-- The cells looked at by a query that misses the total write ROI: those included are blocks of the task. -/
theorem miss_grid (g : BGraph d) (h : g.Wf) {o : Coord d}
    (ho : ∀ i, g.w i ∣ o.get i ∧ - g.totalWrite.offset.get i < o.get i + g.w i ∧
      o.get i < - g.totalWrite.offset.get i) (hi : g.included (g.blk o) = true) : g.Grid o := by
  by_cases hf : g.fit = .shrink
  · have hbox : ∀ i, 0 < o.get i + g.w i ∧ o.get i < g.t i := by
      by_cases hni : g.totalWrite.intersects (g.raw o).writeRoi = true
      · rw [Roi.intersects_iff] at hni
        intro i
        have := hni.2 i
        simp only [raw, Block.new, Coord.get_add] at this
        simp only [w, t]
        omega
      · have hni : g.totalWrite.intersects (g.raw o).writeRoi = false := by simpa using hni
        simp only [included, hf, shrinkPossible, blk, fitBlock, shrinkBlock] at hi
        simp only [Roi.intersect, hni, Roi.lo, Bool.false_eq_true, if_false] at hi
        rw [Roi.containsPoint_iff] at hi
        intro i
        have h1 := hi i
        rw [Vec.get_const] at h1
        obtain ⟨_, h2, h3⟩ := ho i
        simp only [t]
        omega
    intro i
    obtain ⟨h1, h2⟩ := hbox i
    have hd := (ho i).1
    refine ⟨?_, ?_, hd⟩
    · by_contra hcon
      have := dvd_lt hd (dvd_zero _) (by omega)
      omega
    · rw [u_other g (by simp [hf])]
      exact h2
  · have : g.blk o = g.raw o := by
      unfold blk fitBlock
      split
      · rfl
      · rfl
      · rename_i hf'; exact absurd hf' hf
    rw [this, g.included_raw h] at hi
    exact fun i => ⟨(hi i).1, (hi i).2, (ho i).1⟩

/-- Whatever the query, the answer consists of blocks of the task. -/
theorem subgraph_sub (g : BGraph d) (h : g.Wf) {sub : Roi d} {rr : Bool} {b : Block d}
    (hb : b ∈ g.subgraphBlocks sub rr) : ∃ o, g.Grid o ∧ b = g.blk o := by
  have key : ∀ sub : Roi d, b ∈ g.subgraphBlocks sub false → ∃ o, g.Grid o ∧ b = g.blk o := by
    intro sub hb
    by_cases hov : sub.intersects g.totalWrite = true
    · obtain ⟨o, h1, h2, _⟩ := ((g.subgraph_meets h sub hov).2 b).1 hb
      exact ⟨o, h1, h2⟩
    · have hov : sub.intersects g.totalWrite = false := by simpa using hov
      have hlo : ∀ i, ((sub.intersect g.totalWrite).lo - g.totalWrite.offset).get i =
          - g.totalWrite.offset.get i := by
        intro i
        simp [Roi.intersect, hov, Roi.lo]
      have hhi : ∀ i, ((sub.intersect g.totalWrite).hi - g.totalWrite.offset).get i =
          - g.totalWrite.offset.get i := by
        intro i
        simp [Roi.intersect, hov]
      rw [g.subgraph_eq h] at hb
      unfold cellBlocks at hb
      simp only [List.mem_filter, List.mem_map, mem_cells g h, hlo, hhi] at hb
      obtain ⟨⟨o, ho, rfl⟩, hi⟩ := hb
      exact ⟨o, g.miss_grid h ho hi, rfl⟩
  cases rr
  · exact key sub hb
  · rw [g.subgraph_read] at hb
    exact key _ hb

end Verif.BGraph
