import Verif.Props.Geometry

/-! # C112: block ids of computations with different total ROIs -/

namespace Verif

open BGraph

variable {d : Nat}

/-- The number in the id of a block is determined by the index of the block along each axis. -/
theorem BGraph.idNum_index (g : BGraph d) (h : g.Wf) (hc : ∀ i, 0 ≤ g.cl i) {o : Coord d} (ho : g.Grid o) :
    ∃ c : Coord d, (g.blk o).idNum = cantorNumber c ∧ ∀ i, 0 ≤ c.get i ∧ c.get i = (g.cl i + o.get i) / g.w i := by
  refine ⟨_, g.blk_idNum o, fun i => ?_⟩
  have e : (((Roi.mk (g.totalWrite.offset + o) g.blockWrite.shape).offset - g.totalRead.offset).truncDiv
      (Roi.mk (g.totalWrite.offset + o) g.blockWrite.shape).shape).get i = (g.cl i + o.get i) / g.w i := by
    simp only [Coord.get_truncDiv, Coord.get_sub, Coord.get_add, g.tw_off h i]
    have h1 := ho i
    have h2 := hc i
    rw [show g.totalRead.offset.get i + g.cl i + o.get i - g.totalRead.offset.get i = g.cl i + o.get i by ring]
    exact Int.tdiv_eq_ediv_of_nonneg (by omega)
  refine ⟨?_, e⟩
  rw [e]
  exact Int.ediv_nonneg (by have := hc i; have := ho i; omega) (le_of_lt (h.wpos i))

namespace Props

variable {g g' : BGraph d} {bs bs' : List (Block d)} {a b : Block d}

/-- C112: two tasks with the same id and the same read and write ROI, but different total ROIs.  A block of the one and a
block of the other have the same id exactly if they begin at the same place relative to the total ROI. -/
theorem C112_relative (h : g.Wf) (h' : g'.Wf) (hid : g'.taskId = g.taskId) (hr : g'.blockRead = g.blockRead)
    (hw : g'.blockWrite = g.blockWrite) (hc : ∀ i, g.blockRead.offset.get i ≤ g.blockWrite.offset.get i)
    (hbs : g.blocks = .ok bs) (hbs' : g'.blocks = .ok bs') (ha : a ∈ bs) (hb : b ∈ bs') :
    a.blockId = b.blockId ↔
      ∀ i, a.writeRoi.offset.get i - g.totalRead.offset.get i = b.writeRoi.offset.get i - g'.totalRead.offset.get i := by
  obtain ⟨o, ho, rfl⟩ := (g.mem_blocks h hbs a).1 ha
  obtain ⟨p, hp, rfl⟩ := (g'.mem_blocks h' hbs' b).1 hb
  have hcl : ∀ i, g'.cl i = g.cl i := fun i => by unfold cl; rw [hr, hw]
  have hww : ∀ i, g'.w i = g.w i := fun i => by unfold w; rw [hw]
  have hc1 : ∀ i, 0 ≤ g.cl i := fun i => by have := hc i; unfold cl; omega
  have hc2 : ∀ i, 0 ≤ g'.cl i := fun i => by rw [hcl]; exact hc1 i
  obtain ⟨c, e1, e2⟩ := g.idNum_index h hc1 ho
  obtain ⟨c', f1, f2⟩ := g'.idNum_index h' hc2 hp
  have hoff : ∀ i, (g.blk o).writeRoi.offset.get i - g.totalRead.offset.get i = g.cl i + o.get i := fun i => by
    rw [(g.blk_write h o (fun i => ⟨(ho i).1, (ho i).2.1⟩)).1 i, g.tw_off h i]
    ring
  have hoff' : ∀ i, (g'.blk p).writeRoi.offset.get i - g'.totalRead.offset.get i = g.cl i + p.get i := fun i => by
    rw [(g'.blk_write h' p (fun i => ⟨(hp i).1, (hp i).2.1⟩)).1 i, g'.tw_off h' i, hcl i]
    ring
  have hids : (g.blk o).blockId = (g'.blk p).blockId ↔ cantorNumber c = cantorNumber c' := by
    unfold Block.blockId
    rw [blk_taskId, blk_taskId, hid, e1, f1]
    exact ⟨fun h => (Prod.mk.inj h).2, fun h => by rw [h]⟩
  rw [hids]
  simp only [hoff, hoff']
  constructor
  · intro heq i
    have h1 := cantorNumber_inj (fun i => (e2 i).1) (fun i => (f2 i).1) heq
    have h2 : c.get i = c'.get i := by rw [h1]
    rw [(e2 i).2, (f2 i).2, hcl i, hww i] at h2
    obtain ⟨k, hk⟩ := (ho i).2.2
    obtain ⟨m, hm⟩ := (hp i).2.2
    rw [hww i] at hm
    have hpos := h.wpos i
    rw [hk, hm, Int.add_mul_ediv_left _ _ (by omega), Int.add_mul_ediv_left _ _ (by omega)] at h2
    have : k = m := by omega
    rw [hk, hm, this]
  · intro heq
    have : c = c' := by
      apply Vec.ext_get
      intro i
      rw [(e2 i).2, (f2 i).2, hcl i, hww i, heq i]
    rw [this]

/-- C112, partial: if the total ROIs begin at the same place (one of them may be larger), ids name the same places. -/
theorem C112_same_begin_partial (h : g.Wf) (h' : g'.Wf) (hid : g'.taskId = g.taskId) (hr : g'.blockRead = g.blockRead)
    (hw : g'.blockWrite = g.blockWrite) (hc : ∀ i, g.blockRead.offset.get i ≤ g.blockWrite.offset.get i)
    (hbegin : g'.totalRead.offset = g.totalRead.offset)
    (hbs : g.blocks = .ok bs) (hbs' : g'.blocks = .ok bs') (ha : a ∈ bs) (hb : b ∈ bs') :
    a.blockId = b.blockId ↔ a.writeRoi.offset = b.writeRoi.offset := by
  rw [C112_relative h h' hid hr hw hc hbs hbs' ha hb, hbegin]
  constructor
  · intro he
    apply Vec.ext_get
    intro i
    have := he i
    omega
  · intro he i
    rw [he]

/-- C112, otherwise: if the total ROIs begin at different places, no id names the same place in both. -/
theorem C112_other_begin (h : g.Wf) (h' : g'.Wf) (hid : g'.taskId = g.taskId) (hr : g'.blockRead = g.blockRead)
    (hw : g'.blockWrite = g.blockWrite) (hc : ∀ i, g.blockRead.offset.get i ≤ g.blockWrite.offset.get i)
    (hbegin : g'.totalRead.offset ≠ g.totalRead.offset)
    (hbs : g.blocks = .ok bs) (hbs' : g'.blocks = .ok bs') (ha : a ∈ bs) (hb : b ∈ bs')
    (hab : a.blockId = b.blockId) : a.writeRoi.offset ≠ b.writeRoi.offset := by
  intro he
  refine hbegin (Vec.ext_get fun i => ?_)
  have := (C112_relative h h' hid hr hw hc hbs hbs' ha hb).1 hab i
  rw [he] at this
  omega

/-- C112, partial: if the total ROI only grows at its end and blocks are not shrunk to fit, each block of the smaller
computation is, with the same id, a block of the larger one. -/
theorem C112_kept_partial (h : g.Wf) (h' : g'.Wf) (hid : g'.taskId = g.taskId) (hr : g'.blockRead = g.blockRead)
    (hw : g'.blockWrite = g.blockWrite) (hf : g'.fit = g.fit) (hs : g.fit ≠ .shrink)
    (hbegin : g'.totalRead.offset = g.totalRead.offset)
    (hgrow : ∀ i, g.totalRead.shape.get i ≤ g'.totalRead.shape.get i)
    (hbs : g.blocks = .ok bs) (hbs' : g'.blocks = .ok bs') (ha : a ∈ bs) : a ∈ bs' := by
  obtain ⟨o, ho, rfl⟩ := (g.mem_blocks h hbs a).1 ha
  have hww : ∀ i, g'.w i = g.w i := fun i => by unfold w; rw [hw]
  have hcl : ∀ i, g'.cl i = g.cl i := fun i => by unfold cl; rw [hr, hw]
  have hcu : ∀ i, g'.cu i = g.cu i := fun i => by unfold cu; rw [hr, hw]
  have htw : g'.totalWrite.offset = g.totalWrite.offset := by
    apply Vec.ext_get
    intro i
    rw [g.tw_off h i, g'.tw_off h' i, hbegin, hcl i]
  have hrt : g'.roundingTerm = g.roundingTerm := by unfold roundingTerm; rw [hf, hw]
  refine (g'.mem_blocks h' hbs' _).2 ⟨o, fun i => ?_, ?_⟩
  · obtain ⟨h1, h2, h3⟩ := ho i
    refine ⟨h1, lt_of_lt_of_le h2 ?_, by rw [hww]; exact h3⟩
    unfold u
    rw [g.tw_shape h i, g'.tw_shape h' i, hcl, hcu, hrt]
    have := hgrow i
    omega
  · have hraw : g'.raw o = g.raw o := by
      unfold raw Block.new Block.computeId
      rw [hid, hr, hw, hbegin, htw]
    unfold blk fitBlock
    rw [hf, hraw]
    cases hfit : g.fit with
    | valid => rfl
    | overhang => rfl
    | shrink => exact absurd hfit hs

namespace BlockIds

/-- The task of the tests, with another total ROI. -/
def total (f : Fit) (x y : Int) : BGraph 1 := Ex.mk 0 (Ex.r1 0 10) (Ex.r1 3 7) true f (Ex.r1 x y)

end BlockIds

open BlockIds

/-- C112 is false: a total ROI that was `[0,41)` and is now `[-4,41)`.  The block that writes `[3,7)` and the block that
writes `[-1,3)` have the same id. -/
theorem C112_false : ∃ (g g' : BGraph 1) (bs bs' : List (Block 1)) (a b : Block 1), g.Wf ∧ g'.Wf ∧
    g'.taskId = g.taskId ∧ g'.blockRead = g.blockRead ∧ g'.blockWrite = g.blockWrite ∧ g'.fit = g.fit ∧
    g.totalRead = Ex.r1 0 41 ∧ g'.totalRead = Ex.r1 (-4) 41 ∧ g.blocks = .ok bs ∧ g'.blocks = .ok bs' ∧ a ∈ bs ∧ b ∈ bs' ∧
    a.blockId = b.blockId ∧ a.writeRoi = Ex.r1 3 7 ∧ b.writeRoi = Ex.r1 (-1) 3 := by
  refine ⟨total .valid 0 41, total .valid (-4) 41, _, _, (total .valid 0 41).blk (Ex.c1 0), (total .valid (-4) 41).blk (Ex.c1 0), ?_, ?_, rfl, rfl,
    rfl, rfl, rfl, rfl, rfl, rfl, ?_⟩
  · refine BGraph.wf_of_init (Ex.mk_init _ _ _ _ _ _ (by decide)) (by decide) ?_
    change ∀ i, 0 ≤ (Ex.tw (Ex.r1 0 41) (Ex.r1 0 10) (Ex.r1 3 7)).shape.get i
    decide
  · refine BGraph.wf_of_init (Ex.mk_init _ _ _ _ _ _ (by decide)) (by decide) ?_
    change ∀ i, 0 ≤ (Ex.tw (Ex.r1 (-4) 41) (Ex.r1 0 10) (Ex.r1 3 7)).shape.get i
    decide
  · decide +kernel

/-- C112 is false also if the total ROI only grows at its end, if blocks are shrunk to fit.  The total ROI was `[0,41)` and
is now `[0,42)`.  The last block wrote `[35,38)`; the block of the same id is to write `[35,39)`. -/
theorem C112_false_shrink : ∃ (g g' : BGraph 1) (bs bs' : List (Block 1)) (a b : Block 1), g.Wf ∧ g'.Wf ∧
    g'.taskId = g.taskId ∧ g'.blockRead = g.blockRead ∧ g'.blockWrite = g.blockWrite ∧ g'.fit = g.fit ∧
    g.totalRead = Ex.r1 0 41 ∧ g'.totalRead = Ex.r1 0 42 ∧ g.blocks = .ok bs ∧ g'.blocks = .ok bs' ∧ a ∈ bs ∧ b ∈ bs' ∧
    a.blockId = b.blockId ∧ a.writeRoi = Ex.r1 35 38 ∧ b.writeRoi = Ex.r1 35 39 := by
  refine ⟨total .shrink 0 41, total .shrink 0 42, _, _, (total .shrink 0 41).blk (Ex.c1 32), (total .shrink 0 42).blk (Ex.c1 32),
    ?_, ?_, rfl, rfl, rfl, rfl, rfl, rfl, rfl, rfl, ?_⟩
  · refine BGraph.wf_of_init (Ex.mk_init _ _ _ _ _ _ (by decide)) (by decide) ?_
    change ∀ i, 0 ≤ (Ex.tw (Ex.r1 0 41) (Ex.r1 0 10) (Ex.r1 3 7)).shape.get i
    decide
  · refine BGraph.wf_of_init (Ex.mk_init _ _ _ _ _ _ (by decide)) (by decide) ?_
    change ∀ i, 0 ≤ (Ex.tw (Ex.r1 0 42) (Ex.r1 0 10) (Ex.r1 3 7)).shape.get i
    decide
  · decide +kernel

/-- For `C112_relative`, `C112_same_begin_partial` and `C112_kept_partial`: the total ROI `[0,41)` was enlarged to `[0,53)`. -/
example : ∃ bs bs' a, (total .valid 0 41).blocks = .ok bs ∧ (total .valid 0 53).blocks = .ok bs' ∧ a ∈ bs ∧ a ∈ bs' ∧
    a.writeRoi = Ex.r1 7 11 := by
  refine ⟨_, _, (total .valid 0 41).blk (Ex.c1 4), rfl, rfl, ?_⟩
  decide +kernel

end Props

end Verif
