import Verif.Spec.TaskSpec
import Verif.Proofs.Deps
import Verif.Proofs.Counts
import Verif.Proofs.Cantor
import Verif.Proofs.Subgraph
import Verif.Props.Examples1

/-! # Claims about the blocks of one task (C01 - C12) -/

namespace Verif.Props

open Verif Verif.Spec Verif.BGraph Verif.Axis

variable {d : Nat}

/-- The concrete geometries have blocks: 5×5 (overhang, shrink) and 20 (valid) in 2-D, and 9 or
8 in 1-D; none of the theorems below is vacuous on them. -/
example : (Ex.g2 .shrink).blocks.toOption.map List.length = some 25 := by decide +kernel
example : (Ex.g2 .valid).blocks.toOption.map List.length = some 20 := by decide +kernel
example : (Ex.g1 .overhang).blocks.toOption.map List.length = some 9 := by decide +kernel
example : (Ex.g1 .valid).blocks.toOption.map List.length = some 8 := by decide +kernel

/-! ## C05: counts -/

/-- `level_blocks` never reaches its `RuntimeError("Unreachable!")`. -/
theorem C05_enumeration_ok (g : BGraph d) (h : g.Wf) : ∃ bs, g.blocks = .ok bs := by
  obtain ⟨os, h1, _⟩ := g.blocks_spec h
  exact ⟨_, h1⟩

/-- No block is enumerated twice, and `num_blocks` is the number of enumerated blocks. -/
theorem C05_num_blocks (g : BGraph d) (h : g.Wf) {bs : List (Block d)} (hbs : g.blocks = .ok bs) :
    bs.Nodup ∧ g.numBlocks = .ok (bs.length : Int) :=
  ⟨g.nodup_blocks h hbs, g.numBlocks_eq h hbs⟩

/-- If the task has a level, `num_roots` is the number of blocks the root generator yields. -/
theorem C05_num_roots (g : BGraph d) (h : g.Wf) (hr : g.ReadOK) (hl : 0 < g.numLevels) :
    ∃ rs, g.rootGen = .ok rs ∧ rs.Nodup ∧ g.numRoots = .ok (rs.length : Int) := by
  obtain ⟨os, h1, h2, h3, h4⟩ := g.numLevelBlocks_spec h hl
  have hfit : (os.map g.blk).map g.fitBlock = os.map g.blk := by
    rw [List.map_map]
    apply List.map_congr_left
    intro o ho
    exact g.fit_blk h hr o (g.grid_admissible ((h3 o).1 ho).1)
  refine ⟨os.map g.blk, ?_, ?_, ?_⟩
  · unfold rootGen
    rw [h1]
    change Except.ok _ = _
    rw [hfit]
  · refine List.Nodup.map_on ?_ h2
    intro x hx y hy hxy
    exact g.blk_inj h (g.grid_admissible ((h3 x).1 hx).1) (g.grid_admissible ((h3 y).1 hy).1) hxy
  · unfold numRoots
    rw [h4, List.length_map]

/-- A task without levels has no blocks (`num_roots` then raises, see C50). -/
theorem C05_no_levels (g : BGraph d) (hl : g.numLevels = 0) : g.blocks = .ok [] := by
  unfold blocks
  rw [hl]
  rfl

example : (Ex.g2 .shrink).numRoots = .ok 4 ∧ (Ex.g2 .shrink).numBlocks = .ok 25 := by
  decide +kernel

/-- If the total ROI is smaller than the context in two dimensions (excluded by `Wf`), the
product of two negative counts is positive: `num_roots` is 1 although there is no block, and the
root generator is exhausted at once. -/
theorem C05_needs_nonnegative_size :
    (Ex.mk 0 (Ex.r2 0 3 0 3) (Ex.r2 1 2 1 2) false .overhang (Ex.r2 0 1 0 1)).numRoots = .ok 1 ∧
    (Ex.mk 0 (Ex.r2 0 3 0 3) (Ex.r2 1 2 1 2) false .overhang (Ex.r2 0 1 0 1)).rootGen = .ok [] := by
  decide +kernel

/-! ## C01: disjoint writes -/

theorem C01_disjoint (g : BGraph d) (h : g.Wf) {bs : List (Block d)} (hbs : g.blocks = .ok bs)
    {a b : Block d} (ha : a ∈ bs) (hb : b ∈ bs) (hne : a ≠ b) :
    ¬ Overlap a.writeRoi b.writeRoi := by
  obtain ⟨o, ho, rfl⟩ := (g.mem_blocks h hbs a).1 ha
  obtain ⟨p, hp, rfl⟩ := (g.mem_blocks h hbs b).1 hb
  rintro ⟨x, hx1, hx2⟩
  apply hne
  congr 1
  apply Vec.ext_get; intro i
  have h1 := hx1 i
  have h2 := hx2 i
  have w1 := g.blk_write h o (g.grid_admissible ho)
  have w2 := g.blk_write h p (g.grid_admissible hp)
  rw [w1.1 i, w1.2 i] at h1
  rw [w2.1 i, w2.2 i] at h2
  refine dvd_close (ho i).2.2 (hp i).2.2 ?_ ?_ <;> split at h1 <;> omega

example : ∃ bs a b, (Ex.g2 .shrink).blocks = .ok bs ∧ a ∈ bs ∧ b ∈ bs ∧ a ≠ b ∧
    ¬ Overlap a.writeRoi b.writeRoi := by
  have hw := Ex.g2_wf .shrink
  obtain ⟨bs, hbs⟩ := C05_enumeration_ok _ hw
  have h0 : (Ex.g2 .shrink).Grid (Ex.c2 0 0) := by decide +kernel
  have h1 : (Ex.g2 .shrink).Grid (Ex.c2 8 8) := by decide +kernel
  have m0 := (BGraph.mem_blocks _ hw hbs _).2 ⟨_, h0, rfl⟩
  have m1 := (BGraph.mem_blocks _ hw hbs _).2 ⟨_, h1, rfl⟩
  have hne : (Ex.g2 .shrink).blk (Ex.c2 0 0) ≠ (Ex.g2 .shrink).blk (Ex.c2 8 8) := by
    decide +kernel
  exact ⟨bs, _, _, hbs, m0, m1, hne, C01_disjoint _ hw hbs m0 m1 hne⟩

/-! ## C02: coverage -/

/-- overhang / shrink: every voxel of the total write ROI is written by exactly one block. -/
theorem C02_cover (g : BGraph d) (h : g.Wf) (hf : g.fit ≠ .valid) {bs : List (Block d)}
    (hbs : g.blocks = .ok bs) (p : Coord d) (hp : InRoi p g.totalWrite) :
    ∃! b, b ∈ bs ∧ InRoi p b.writeRoi := by
  let o : Coord d := Vec.ofFn (fun i =>
    (p.get i - g.totalWrite.offset.get i) - (p.get i - g.totalWrite.offset.get i) % g.w i)
  have ho : ∀ i, o.get i = (p.get i - g.totalWrite.offset.get i) -
      (p.get i - g.totalWrite.offset.get i) % g.w i := fun i => Vec.get_ofFn _ i
  have hg : g.Grid o := by
    intro i
    have hw := h.wpos i
    have h1 := hp i
    have h2 := Int.emod_nonneg (p.get i - g.totalWrite.offset.get i) (by omega : g.w i ≠ 0)
    have h3 := Int.emod_lt_of_pos (p.get i - g.totalWrite.offset.get i) hw
    have hd : g.w i ∣ o.get i := by rw [ho]; exact Int.dvd_self_sub_emod
    rw [g.u_other hf]
    refine ⟨?_, ?_, hd⟩
    · by_contra hcon
      have := dvd_lt hd (dvd_zero _) (by omega)
      rw [ho] at this
      omega
    · rw [ho]; simp only [t]; omega
  have hin : InRoi p (g.blk o).writeRoi := by
    intro i
    have w1 := g.blk_write h o (g.grid_admissible hg)
    have hw := h.wpos i
    have h1 := hp i
    have h2 := Int.emod_nonneg (p.get i - g.totalWrite.offset.get i) (by omega : g.w i ≠ 0)
    have h3 := Int.emod_lt_of_pos (p.get i - g.totalWrite.offset.get i) hw
    rw [w1.1 i, w1.2 i]
    have h4 := ho i
    have h5 : g.t i = g.totalWrite.shape.get i := rfl
    split <;> omega
  refine ⟨g.blk o, ⟨(g.mem_blocks h hbs _).2 ⟨o, hg, rfl⟩, hin⟩, ?_⟩
  rintro b ⟨hb, hpb⟩
  by_contra hne
  exact C01_disjoint g h hbs hb ((g.mem_blocks h hbs _).2 ⟨o, hg, rfl⟩) hne ⟨p, hpb, hin⟩

/-- valid: a voxel is written iff its whole grid cell fits, and then by exactly one block. -/
theorem C02_cover_valid (g : BGraph d) (h : g.Wf) (hf : g.fit = .valid) {bs : List (Block d)}
    (hbs : g.blocks = .ok bs) (p : Coord d) :
    (∃! b, b ∈ bs ∧ InRoi p b.writeRoi) ↔ ∃ k, InCell g k p ∧ CellFits g k := by
  have hu := g.u_valid hf
  have hns : g.fit ≠ .shrink := by rw [hf]; decide
  constructor
  · rintro ⟨b, ⟨hb, hpb⟩, _⟩
    obtain ⟨o, ho, rfl⟩ := (g.mem_blocks h hbs b).1 hb
    have w1 := g.blk_write h o (g.grid_admissible ho)
    have hk : ∀ i, ∃ k, o.get i = g.w i * k := fun i => (ho i).2.2
    choose k hk using hk
    refine ⟨Vec.ofFn k, ?_, ?_⟩ <;> intro i <;> rw [Vec.get_ofFn]
    · have h1 := hpb i
      rw [w1.1 i, w1.2 i, if_neg hns, hk i] at h1
      change _ + k i * g.w i ≤ _ ∧ _ < _ + (k i + 1) * g.w i
      constructor <;> nlinarith
    · have h1 := ho i
      have hw := h.wpos i
      rw [hk i, hu i] at h1
      change 0 ≤ k i ∧ (k i + 1) * g.w i ≤ g.t i
      constructor
      · by_contra hcon
        have : g.w i * k i < 0 := Int.mul_neg_of_pos_of_neg hw (by omega)
        omega
      · nlinarith
  · rintro ⟨k, hc, hfit⟩
    let o : Coord d := Vec.ofFn (fun i => g.w i * k.get i)
    have ho : ∀ i, o.get i = g.w i * k.get i := fun i => Vec.get_ofFn _ i
    have hg : g.Grid o := by
      intro i
      have h1 := hfit i
      have hw := h.wpos i
      change 0 ≤ _ ∧ (k.get i + 1) * g.w i ≤ g.t i at h1
      rw [ho, hu]
      exact ⟨Int.mul_nonneg (le_of_lt hw) h1.1, by nlinarith, Dvd.intro _ rfl⟩
    have hin : InRoi p (g.blk o).writeRoi := by
      intro i
      have w1 := g.blk_write h o (g.grid_admissible hg)
      have h1 := hc i
      change _ + k.get i * g.w i ≤ _ ∧ _ < _ + (k.get i + 1) * g.w i at h1
      rw [w1.1 i, w1.2 i, if_neg hns, ho]
      constructor <;> nlinarith
    refine ⟨g.blk o, ⟨(g.mem_blocks h hbs _).2 ⟨o, hg, rfl⟩, hin⟩, ?_⟩
    rintro b ⟨hb, hpb⟩
    by_contra hne
    exact C01_disjoint g h hbs hb ((g.mem_blocks h hbs _).2 ⟨o, hg, rfl⟩) hne ⟨p, hpb, hin⟩

example : InRoi (Ex.c1 37) (Ex.g1 .shrink).totalWrite := by
  intro i; revert i; decide

example : InCell (Ex.g1 .valid) (Ex.c1 7) (Ex.c1 32) ∧ CellFits (Ex.g1 .valid) (Ex.c1 7) := by
  constructor <;> intro i <;> revert i <;> decide

/-- With fit = 'valid' and no voxel left over nothing is uncovered: if the write shape divides the
total write shape, 'valid' covers every voxel too. -/
theorem C02_cover_valid_exact (g : BGraph d) (h : g.Wf) (hf : g.fit = .valid)
    {bs : List (Block d)} (hbs : g.blocks = .ok bs) (hdiv : ∀ i, g.w i ∣ g.t i) (p : Coord d)
    (hp : InRoi p g.totalWrite) : ∃! b, b ∈ bs ∧ InRoi p b.writeRoi := by
  rw [C02_cover_valid g h hf hbs]
  refine ⟨Vec.ofFn (fun i => (p.get i - g.totalWrite.offset.get i) / g.w i), ?_, ?_⟩ <;> intro i <;>
    rw [Vec.get_ofFn]
  · have hw := h.wpos i
    have h1 := Int.lt_ediv_add_one_mul_self (p.get i - g.totalWrite.offset.get i) hw
    have h2 := Int.ediv_mul_le (p.get i - g.totalWrite.offset.get i) (by omega : g.w i ≠ 0)
    change _ + _ * g.w i ≤ _ ∧ _ < _ + _ * g.w i
    omega
  · have hw := h.wpos i
    have h1 := hp i
    obtain ⟨m, hm⟩ := hdiv i
    refine ⟨Int.ediv_nonneg (by omega) (le_of_lt hw), ?_⟩
    change (_ + 1) * g.w i ≤ g.t i
    have h3 : (p.get i - g.totalWrite.offset.get i) / g.w i < m := by
      rw [Int.ediv_lt_iff_lt_mul hw]
      change _ ∧ _ < _ + g.t i at h1
      have : g.t i = m * g.w i := by rw [hm]; ring
      omega
    have : ((p.get i - g.totalWrite.offset.get i) / g.w i + 1) * g.w i ≤ m * g.w i :=
      Int.mul_le_mul_of_nonneg_right (by omega) (le_of_lt hw)
    rw [hm]
    nlinarith

/-! ## C03: containment -/

theorem C03_within (g : BGraph d) (h : g.Wf) (hr : g.ReadOK) (hf : g.fit ≠ .overhang)
    {bs : List (Block d)} (hbs : g.blocks = .ok bs) {b : Block d} (hb : b ∈ bs) :
    Within b.writeRoi g.totalWrite ∧ Within b.readRoi g.totalRead := by
  obtain ⟨o, ho, rfl⟩ := (g.mem_blocks h hbs b).1 hb
  have w1 := g.blk_write h o (g.grid_admissible ho)
  have r1 := g.blk_read_off h hr o (g.grid_admissible ho)
  have hbr : ∀ i, g.blockRead.shape.get i = g.w i + g.cl i + g.cu i := by
    intro i; simp only [w, cl, cu]; ring
  constructor
  · intro p hp i
    have h1 := hp i
    have h2 := ho i
    rw [w1.1 i, w1.2 i] at h1
    have h5 : g.t i = g.totalWrite.shape.get i := rfl
    by_cases hv : g.fit = .valid
    · rw [g.u_valid hv] at h2
      split at h1 <;> omega
    · have hs : g.fit = .shrink := by
        cases hq : g.fit
        · exact absurd hq hv
        · exact absurd hq hf
        · rfl
      rw [if_pos hs] at h1
      omega
  · intro p hp i
    have h1 := hp i
    have h2 := ho i
    have h3 := g.tw_shape h i
    by_cases hv : g.fit = .valid
    · have e : (g.blk o).readRoi.shape.get i = g.blockRead.shape.get i := by
        simp [blk, fitBlock, hv, raw, Block.new]
      rw [r1 i, e, hbr] at h1
      rw [g.u_valid hv] at h2
      omega
    · have hs : g.fit = .shrink := by
        cases hq : g.fit
        · exact absurd hq hv
        · exact absurd hq hf
        · rfl
      have hc : g.CtxNonneg := by
        rcases hr with hr | hr
        · exact hr
        · exact absurd hs hr
      have r2 := g.blk_read h hc o (g.grid_admissible ho)
      rw [r2.1 i, r2.2 i, w1.2 i, if_pos hs] at h1
      omega

/-- Every block writes at least one voxel, and its write ROI begins in the total write ROI. -/
theorem C03_nonempty (g : BGraph d) (h : g.Wf) {bs : List (Block d)} (hbs : g.blocks = .ok bs)
    {b : Block d} (hb : b ∈ bs) :
    Spec.Inhabited b.writeRoi ∧ InRoi b.writeRoi.offset g.totalWrite := by
  obtain ⟨o, ho, rfl⟩ := (g.mem_blocks h hbs b).1 hb
  have w1 := g.blk_write h o (g.grid_admissible ho)
  have hlt : ∀ i, 0 ≤ o.get i ∧ o.get i < g.t i := by
    intro i
    have h1 := ho i
    have h2 := g.u_le_t h i
    omega
  constructor
  · refine ⟨(g.blk o).writeRoi.offset, fun i => ⟨le_refl _, ?_⟩⟩
    have h1 := hlt i
    have hw := h.wpos i
    rw [w1.2 i]
    split <;> omega
  · intro i
    have h1 := hlt i
    rw [w1.1 i]
    have h5 : g.t i = g.totalWrite.shape.get i := rfl
    omega

example : (Ex.g2 .shrink).fit ≠ .overhang ∧ (Ex.g2 .shrink).ReadOK :=
  ⟨by decide, readOK_of_conflict _ (Ex.g2_wf .shrink) rfl⟩

/-! ## C04: shrinking -/

/-- The context of every block is the context of the block definition. -/
theorem C04_context (g : BGraph d) (h : g.Wf) (hc : g.CtxNonneg) {bs : List (Block d)}
    (hbs : g.blocks = .ok bs) {b : Block d} (hb : b ∈ bs) (i : Fin d) :
    b.writeRoi.lo.get i - b.readRoi.lo.get i = g.blockWrite.lo.get i - g.blockRead.lo.get i ∧
    b.readRoi.hi.get i - b.writeRoi.hi.get i = g.blockRead.hi.get i - g.blockWrite.hi.get i := by
  obtain ⟨o, ho, rfl⟩ := (g.mem_blocks h hbs b).1 hb
  have w1 := g.blk_write h o (g.grid_admissible ho)
  have r1 := g.blk_read h hc o (g.grid_admissible ho)
  have h1 := g.tw_off h i
  simp only [Roi.get_lo, Roi.get_hi, w1.1 i, r1.1 i, r1.2 i, h1, cl, cu]
  constructor <;> ring

/-- Shrinking an already fitted block changes nothing. -/
theorem C04_idempotent (g : BGraph d) (h : g.Wf) (hr : g.ReadOK) {bs : List (Block d)}
    (hbs : g.blocks = .ok bs) {b : Block d} (hb : b ∈ bs) : g.fitBlock b = b := by
  obtain ⟨o, ho, rfl⟩ := (g.mem_blocks h hbs b).1 hb
  exact g.fit_blk h hr o (g.grid_admissible ho)

/-- The shrink blocks are the overhang blocks (same ids, same order), with write ROIs clipped to
the total write ROI voxel by voxel. -/
theorem C04_clip (g : BGraph d) (h : g.Wf) (hf : g.fit = .shrink) {bs os : List (Block d)}
    (hbs : g.blocks = .ok bs) (hos : ({ g with fit := .overhang } : BGraph d).blocks = .ok os)
    {b : Block d} (hb : b ∈ bs) :
    ∃ a ∈ os, a.blockId = b.blockId ∧
      ∀ p, InRoi p b.writeRoi ↔ InRoi p a.writeRoi ∧ InRoi p g.totalWrite := by
  set g' : BGraph d := { g with fit := .overhang } with hg'
  have h' : g'.Wf := ⟨h.wpos, h.tnn, h.tw, h.ctx⟩
  obtain ⟨o, ho, rfl⟩ := (g.mem_blocks h hbs b).1 hb
  have hu : ∀ i, g'.u i = g.u i := by
    intro i
    rw [g.u_other (by rw [hf]; decide), g'.u_other (fun hq => by cases hq)]
    rfl
  have ho' : g'.Grid o := by
    intro i
    have := ho i
    rw [← hu] at this
    exact this
  refine ⟨g'.blk o, (g'.mem_blocks h' hos _).2 ⟨o, ho', rfl⟩, ?_, ?_⟩
  · simp only [Block.blockId, blk_taskId, blk_idNum]
    rfl
  · intro p
    have w1 := g.blk_write h o (g.grid_admissible ho)
    have w2 := g'.blk_write h' o (g'.grid_admissible ho')
    unfold InRoi
    rw [← forall_and]
    refine forall_congr' fun i => ?_
    have e1 : g'.totalWrite = g.totalWrite := rfl
    have e2 : g'.w i = g.w i := rfl
    have e3 : g.t i = g.totalWrite.shape.get i := rfl
    have h1 := ho i
    rw [w1.1 i, w1.2 i, w2.1 i, w2.2 i, if_pos hf, if_neg (fun hq => by cases hq), e1, e2]
    omega

/-- `g1` with shrink: the last block is cut from 4 to 3 voxels. -/
example : ((Ex.g1 .shrink).blocks.toOption.map (·.map (fun b => b.writeRoi.shape.toList))) =
    some [[4], [4], [4], [4], [4], [4], [4], [4], [3]] := by decide +kernel

/-! ## C06: block ids -/

/-- Block ids identify blocks (the write ROI must not start before the read ROI). -/
theorem C06_block_id_partial (g : BGraph d) (h : g.Wf) (hc : ∀ i, 0 ≤ g.cl i)
    {bs : List (Block d)} (hbs : g.blocks = .ok bs) {a b : Block d} (ha : a ∈ bs) (hb : b ∈ bs) :
    a.blockId = b.blockId ↔ a = b := by
  constructor
  · intro heq
    obtain ⟨o, ho, rfl⟩ := (g.mem_blocks h hbs a).1 ha
    obtain ⟨p, hp, rfl⟩ := (g.mem_blocks h hbs b).1 hb
    have h1 : ((g.blk o).idNum) = (g.blk p).idNum := (Prod.mk.inj heq).2
    rw [g.idNum_inj h hc ho hp h1]
  · intro h; rw [h]

/-- In conflict mode the hypothesis is always met. -/
theorem C06_block_id_conflict (g : BGraph d) (h : g.Wf) (hc : g.conflict = true)
    {bs : List (Block d)} (hbs : g.blocks = .ok bs) {a b : Block d} (ha : a ∈ bs) (hb : b ∈ bs) :
    a.blockId = b.blockId ↔ a = b :=
  C06_block_id_partial g h (fun i => (h.ctx hc i).1) hbs ha hb

/-- Block ids carry the task id, so blocks of different tasks never share an id. -/
theorem C06_task (g g' : BGraph d) (h : g.Wf) (h' : g'.Wf) {bs bs' : List (Block d)}
    (hbs : g.blocks = .ok bs) (hbs' : g'.blocks = .ok bs') {a b : Block d} (ha : a ∈ bs)
    (hb : b ∈ bs') (hid : a.blockId = b.blockId) : g.taskId = g'.taskId := by
  obtain ⟨o, ho, rfl⟩ := (g.mem_blocks h hbs a).1 ha
  obtain ⟨p, hp, rfl⟩ := (g'.mem_blocks h' hbs' b).1 hb
  have := (Prod.mk.inj hid).1
  rwa [blk_taskId, blk_taskId] at this

/-- A task whose write ROI starts before its read ROI (allowed with read_write_conflict=False). -/
def negCtx : BGraph 1 := Ex.mk 0 (Ex.r1 3 5) (Ex.r1 0 2) false .valid (Ex.r1 0 6)

/-- The claim is false without the hypothesis: the truncating division maps the indices -3/2 and
-1/2, and 1/2 to -1, 0, 0. -/
theorem C06_false_negative_context :
    ∃ bs a b, negCtx.blocks = .ok bs ∧ a ∈ bs ∧ b ∈ bs ∧ a ≠ b ∧ a.blockId = b.blockId := by
  refine ⟨_, negCtx.blk (Ex.c1 2), negCtx.blk (Ex.c1 4), rfl, ?_⟩
  decide +kernel

example : ∀ i, 0 ≤ (Ex.g2 .shrink).cl i := fun i => ((Ex.g2_wf .shrink).ctx rfl i).1

/-! ## C08: upstream and downstream -/

/-- For blocks of the task, `upstream` and `downstream` return without error, list only blocks of
the task, each once. -/
theorem C08_closed (g : BGraph d) (h : g.Wf) (hr : g.ReadOK) {bs : List (Block d)}
    (hbs : g.blocks = .ok bs) {b : Block d} (hb : b ∈ bs) :
    ∃ us ds, g.upstream b = .ok us ∧ g.downstream b = .ok ds ∧ us.Nodup ∧ ds.Nodup ∧
      (∀ a ∈ us, a ∈ bs) ∧ ∀ a ∈ ds, a ∈ bs := by
  obtain ⟨o, ho, rfl⟩ := (g.mem_blocks h hbs b).1 hb
  obtain ⟨us, u1, u2, u3⟩ := g.upstream_spec h hr ho
  obtain ⟨ds, d1, d2, d3⟩ := g.downstream_spec h hr ho
  refine ⟨us, ds, u1, d1, u2, d2, ?_, ?_⟩
  · intro a ha
    obtain ⟨p, hp, _, rfl⟩ := (u3 a).1 ha
    exact (g.mem_blocks h hbs _).2 ⟨p, hp, rfl⟩
  · intro a ha
    obtain ⟨p, hp, _, rfl⟩ := (d3 a).1 ha
    exact (g.mem_blocks h hbs _).2 ⟨p, hp, rfl⟩

/-- `b ∈ downstream(a)` iff `a ∈ upstream(b)`. -/
theorem C08_inverse (g : BGraph d) (h : g.Wf) (hr : g.ReadOK) {bs : List (Block d)}
    (hbs : g.blocks = .ok bs) {a b : Block d} (ha : a ∈ bs) (hb : b ∈ bs)
    {us ds : List (Block d)} (hus : g.upstream b = .ok us) (hds : g.downstream a = .ok ds) :
    b ∈ ds ↔ a ∈ us := by
  obtain ⟨p, hp, rfl⟩ := (g.mem_blocks h hbs a).1 ha
  obtain ⟨o, ho, rfl⟩ := (g.mem_blocks h hbs b).1 hb
  obtain ⟨us', u1, _, u3⟩ := g.upstream_spec h hr ho
  obtain ⟨ds', d1, _, d3⟩ := g.downstream_spec h hr hp
  rw [u1] at hus; cases hus
  rw [d1] at hds; cases hds
  rw [u3, d3]
  constructor
  · rintro ⟨o', ho', hd, heq⟩
    have := g.blk_inj h (g.grid_admissible ho) (g.grid_admissible ho') heq
    subst this
    exact ⟨p, hp, hd, rfl⟩
  · rintro ⟨p', hp', hd, heq⟩
    have := g.blk_inj h (g.grid_admissible hp) (g.grid_admissible hp') heq
    subst this
    exact ⟨o, ho, hd, rfl⟩

/-- Non-trivial: in `g1`, block 0 and block 1 are neighbours in the dependency graph. -/
example : ((Ex.g1 .shrink).upstream ((Ex.g1 .shrink).blk (Ex.c1 8))).toOption.map
    (·.map Block.idNum) = some [1, 3] := by decide +kernel

/-- Without `ReadOK` (negative upper context, fit = 'shrink'): the read ROI of the last block is
cut to nothing, is placed at the origin, and `_level` raises. -/
theorem C08_false_shrunk_read :
    let g := Ex.mk 0 (Ex.r1 0 1) (Ex.r1 0 4) false .shrink (Ex.r1 5 7)
    ∃ bs b, g.blocks = .ok bs ∧ b ∈ bs ∧ g.downstream b = .error .notImplemented := by
  intro g
  refine ⟨_, g.blk (Ex.c1 4), rfl, ?_⟩
  decide +kernel

/-! ## C07: conflicting blocks are ordered -/

theorem up_iff (g : BGraph d) (h : g.Wf) (hr : g.ReadOK) {p o : Coord d} (hp : g.Grid p)
    (ho : g.Grid o) : Up g (g.blk p) (g.blk o) ↔ g.Dep p o := by
  obtain ⟨us, u1, _, u3⟩ := g.upstream_spec h hr ho
  constructor
  · rintro ⟨us', h1, h2⟩
    rw [u1] at h1; cases h1
    obtain ⟨p', hp', hd, heq⟩ := (u3 _).1 h2
    have := g.blk_inj h (g.grid_admissible hp) (g.grid_admissible hp') heq
    subst this
    exact hd
  · intro hd
    exact ⟨us, u1, (u3 _).2 ⟨p, hp, hd, rfl⟩⟩

theorem before_of_gdep (g : BGraph d) (h : g.Wf) (hr : g.ReadOK) {p q : Coord d}
    (hpq : Relation.TransGen g.GDep p q) : Before g (g.blk p) (g.blk q) := by
  induction hpq with
  | single hd => exact Relation.TransGen.single ((up_iff g h hr hd.1 hd.2.1).2 hd.2.2)
  | tail _ hd ih => exact Relation.TransGen.tail ih ((up_iff g h hr hd.1 hd.2.1).2 hd.2.2)

/-- Two different blocks of which one reads what the other writes are ordered by the (transitive)
dependencies. -/
theorem C07_conflict_ordered (g : BGraph d) (h : g.Wf) (hc : g.conflict = true)
    {bs : List (Block d)} (hbs : g.blocks = .ok bs) {a b : Block d} (ha : a ∈ bs) (hb : b ∈ bs)
    (hne : a ≠ b) (hov : Overlap a.readRoi b.writeRoi) : Before g a b ∨ Before g b a := by
  obtain ⟨p, hp, rfl⟩ := (g.mem_blocks h hbs a).1 ha
  obtain ⟨q, hq, rfl⟩ := (g.mem_blocks h hbs b).1 hb
  have hr := g.readOK_of_conflict h hc
  have hpq : p ≠ q := fun h => hne (by rw [h])
  rcases g.close_ordered h hc hp hq hpq (g.overlap_close h hc hp hq hov) with h1 | h1
  · exact Or.inl (before_of_gdep g h hr h1)
  · exact Or.inr (before_of_gdep g h hr h1)

example : ∃ a b, a ≠ b ∧ Overlap a.readRoi b.writeRoi ∧
    a = (Ex.g2 .shrink).blk (Ex.c2 2 2) ∧ b = (Ex.g2 .shrink).blk (Ex.c2 4 4) := by
  refine ⟨_, _, ?_, ?_, rfl, rfl⟩
  · decide +kernel
  · rw [overlap_iff]; intro i; revert i; decide +kernel

/-! ## C09: acyclic (within a task; pipelines in `Props/Pipeline`) -/

theorem before_grid (g : BGraph d) (h : g.Wf) (hr : g.ReadOK) {o : Coord d} (ho : g.Grid o)
    {a : Block d} (hab : Before g a (g.blk o)) : ∃ p, g.Grid p ∧ a = g.blk p ∧ g.lvl p < g.lvl o := by
  induction hab using Relation.TransGen.head_induction_on with
  | single hu =>
    obtain ⟨us, u1, _, u3⟩ := g.upstream_spec h hr ho
    obtain ⟨us', h1, h2⟩ := hu
    rw [u1] at h1; cases h1
    obtain ⟨p, hp, hd, rfl⟩ := (u3 _).1 h2
    exact ⟨p, hp, rfl, by have := hd.2.1; omega⟩
  | head hu _ ih =>
    obtain ⟨q, hq, rfl, hlt⟩ := ih
    obtain ⟨us, u1, _, u3⟩ := g.upstream_spec h hr hq
    obtain ⟨us', h1, h2⟩ := hu
    rw [u1] at h1; cases h1
    obtain ⟨p, hp, hd, rfl⟩ := (u3 _).1 h2
    exact ⟨p, hp, rfl, by have := hd.2.1; omega⟩

theorem C09_acyclic_task (g : BGraph d) (h : g.Wf) (hr : g.ReadOK) {bs : List (Block d)}
    (hbs : g.blocks = .ok bs) {a : Block d} (ha : a ∈ bs) : ¬ Before g a a := by
  obtain ⟨o, ho, rfl⟩ := (g.mem_blocks h hbs a).1 ha
  intro hb
  obtain ⟨p, hp, heq, hlt⟩ := before_grid g h hr ho hb
  have := g.blk_inj h (g.grid_admissible ho) (g.grid_admissible hp) heq
  subst this
  omega

/-! ## C10: roots -/

/-- The root generator yields exactly the blocks without upstream blocks. -/
theorem C10_roots (g : BGraph d) (h : g.Wf) (hr : g.ReadOK) (hl : 0 < g.numLevels)
    {bs rs : List (Block d)} (hbs : g.blocks = .ok bs) (hrs : g.rootGen = .ok rs) (b : Block d) :
    b ∈ rs ↔ b ∈ bs ∧ g.upstream b = .ok [] := by
  obtain ⟨os, h1, h2, h3, h4⟩ := g.numLevelBlocks_spec h hl
  have hfit : (os.map g.blk).map g.fitBlock = os.map g.blk := by
    rw [List.map_map]
    apply List.map_congr_left
    intro o ho
    exact g.fit_blk h hr o (g.grid_admissible ((h3 o).1 ho).1)
  have hrs' : g.rootGen = .ok (os.map g.blk) := by
    unfold rootGen
    rw [h1]
    change Except.ok _ = _
    rw [hfit]
  rw [hrs'] at hrs; cases hrs
  rw [List.mem_map]
  constructor
  · rintro ⟨o, ho, rfl⟩
    have ho' := (h3 o).1 ho
    refine ⟨(g.mem_blocks h hbs _).2 ⟨o, ho'.1, rfl⟩, ?_⟩
    obtain ⟨us, u1, _, u3⟩ := g.upstream_spec h hr ho'.1
    rw [u1]
    congr 1
    rw [List.eq_nil_iff_forall_not_mem]
    intro a ha
    obtain ⟨p, _, hd, _⟩ := (u3 a).1 ha
    have := hd.2.1
    omega
  · rintro ⟨hb, hup⟩
    obtain ⟨o, ho, rfl⟩ := (g.mem_blocks h hbs b).1 hb
    refine ⟨o, (h3 o).2 ⟨ho, ?_⟩, rfl⟩
    by_contra hne
    cases hc : g.conflict with
    | false => exact hne (g.lvl_noconf h hc ho)
    | true =>
      obtain ⟨p, hp, hd⟩ := g.has_upstream h hc ho (by omega)
      obtain ⟨us, u1, _, u3⟩ := g.upstream_spec h hr ho
      rw [u1] at hup
      have : us = [] := Except.ok.inj hup
      have hm := (u3 (g.blk p)).2 ⟨p, hp, hd, rfl⟩
      rw [this] at hm
      cases hm

/-- A task has a level as soon as it has a block. -/
theorem C10_has_level (g : BGraph d) (h : g.Wf) {bs : List (Block d)} (hbs : g.blocks = .ok bs)
    (hne : bs ≠ []) : 0 < g.numLevels := by
  obtain ⟨b, hb⟩ := List.exists_mem_of_ne_nil bs hne
  obtain ⟨o, ho, rfl⟩ := (g.mem_blocks h hbs b).1 hb
  have := g.lvl_lt h ho
  omega

/-- From every block a root can be reached by going upstream. -/
theorem C10_reached (g : BGraph d) (h : g.Wf) (hr : g.ReadOK) {bs rs : List (Block d)}
    (hbs : g.blocks = .ok bs) (hrs : g.rootGen = .ok rs) {b : Block d} (hb : b ∈ bs) :
    ∃ r ∈ rs, r = b ∨ Before g r b := by
  have hl : 0 < g.numLevels := C10_has_level g h hbs (List.ne_nil_of_mem hb)
  obtain ⟨o, ho, rfl⟩ := (g.mem_blocks h hbs b).1 hb
  suffices ∀ n, ∀ o, g.Grid o → g.lvl o = n → ∃ r ∈ rs, r = g.blk o ∨ Before g r (g.blk o) from
    this _ o ho rfl
  intro n
  induction n with
  | zero =>
    intro o ho hlv
    refine ⟨g.blk o, ?_, Or.inl rfl⟩
    rw [C10_roots g h hr hl hbs hrs]
    refine ⟨(g.mem_blocks h hbs _).2 ⟨o, ho, rfl⟩, ?_⟩
    obtain ⟨us, u1, _, u3⟩ := g.upstream_spec h hr ho
    rw [u1]
    congr 1
    rw [List.eq_nil_iff_forall_not_mem]
    intro a ha
    obtain ⟨p, _, hd, _⟩ := (u3 a).1 ha
    have := hd.2.1
    omega
  | succ n ih =>
    intro o ho hlv
    cases hc : g.conflict with
    | false => have := g.lvl_noconf h hc ho; omega
    | true =>
      obtain ⟨p, hp, hd⟩ := g.has_upstream h hc ho (by omega)
      obtain ⟨r, hrm, hrp⟩ := ih p hp (by have := hd.2.1; omega)
      refine ⟨r, hrm, Or.inr ?_⟩
      have hup := (up_iff g h hr hp ho).2 hd
      rcases hrp with rfl | hrp
      · exact Relation.TransGen.single hup
      · exact Relation.TransGen.tail hrp hup

example : 0 < (Ex.g2 .shrink).numLevels := by decide +kernel

/-! ## C11: no conflicts, no dependencies -/

theorem C11_no_conflict (g : BGraph d) (h : g.Wf) (hr : g.ReadOK) (hc : g.conflict = false)
    {bs : List (Block d)} (hbs : g.blocks = .ok bs) {b : Block d} (hb : b ∈ bs) :
    g.upstream b = .ok [] ∧ g.downstream b = .ok [] ∧
      ∃ rs, g.rootGen = .ok rs ∧ b ∈ rs := by
  have hl : 0 < g.numLevels := C10_has_level g h hbs (List.ne_nil_of_mem hb)
  obtain ⟨rs, hrs, _, _⟩ := C05_num_roots g h hr hl
  have hb' := hb
  obtain ⟨o, ho, rfl⟩ := (g.mem_blocks h hbs b).1 hb
  obtain ⟨us, u1, _, u3⟩ := g.upstream_spec h hr ho
  obtain ⟨ds, d1, _, d3⟩ := g.downstream_spec h hr ho
  have e1 : us = [] := by
    rw [List.eq_nil_iff_forall_not_mem]
    intro a ha
    obtain ⟨p, _, hd, _⟩ := (u3 a).1 ha
    have h9 := hd.1
    rw [hc] at h9
    cases h9
  have e2 : ds = [] := by
    rw [List.eq_nil_iff_forall_not_mem]
    intro a ha
    obtain ⟨p, _, hd, _⟩ := (d3 a).1 ha
    have h9 := hd.1
    rw [hc] at h9
    cases h9
  rw [e1] at u1
  rw [e2] at d1
  exact ⟨u1, d1, rs, hrs, (C10_roots g h hr hl hbs hrs _).2 ⟨hb', u1⟩⟩

example : (Ex.g3 .overhang).conflict = false ∧ (Ex.g3 .overhang).ReadOK ∧
    (Ex.g3 .overhang).blocks.toOption.map List.length = some 25 :=
  ⟨rfl, Or.inl (Ex.g3_ctx _), by decide +kernel⟩

/-! ## C12: sub-ROI queries -/

/-- `get_subgraph_blocks(sub)` returns exactly the blocks whose write ROI meets `sub` inside the
total write ROI, each once, if `sub` meets the total write ROI or the origin is safe. -/
theorem C12_subgraph_partial (g : BGraph d) (h : g.Wf) (sub : Roi d)
    (hsub : ∀ i, 0 ≤ sub.shape.get i) (hs : Overlap sub g.totalWrite ∨ g.OriginSafe)
    {bs : List (Block d)} (hbs : g.blocks = .ok bs) :
    (g.subgraphBlocks sub false).Nodup ∧
    ∀ b, b ∈ g.subgraphBlocks sub false ↔ b ∈ bs ∧
      ∃ p, InRoi p b.writeRoi ∧ InRoi p sub ∧ InRoi p g.totalWrite := by
  obtain ⟨h1, h2⟩ := g.subgraph_exact h sub hsub hs
  refine ⟨h1, fun b => ?_⟩
  rw [h2, g.mem_blocks h hbs]
  constructor
  · rintro ⟨o, ho, rfl, hm⟩
    exact ⟨⟨o, ho, rfl⟩, hm⟩
  · rintro ⟨⟨o, ho, rfl⟩, hm⟩
    exact ⟨o, ho, rfl, hm⟩

/-- The returned blocks cover the queried part of the volume (fit ≠ 'valid'), which is what the
docstring promises. -/
theorem C12_covers (g : BGraph d) (h : g.Wf) (hf : g.fit ≠ .valid) (sub : Roi d)
    (hsub : ∀ i, 0 ≤ sub.shape.get i) (p : Coord d) (h1 : InRoi p sub)
    (h2 : InRoi p g.totalWrite) : ∃ b ∈ g.subgraphBlocks sub false, InRoi p b.writeRoi := by
  obtain ⟨bs, hbs⟩ := C05_enumeration_ok g h
  obtain ⟨b, ⟨hb, hpb⟩, _⟩ := C02_cover g h hf hbs p h2
  exact ⟨b, ((C12_subgraph_partial g h sub hsub (Or.inl ⟨p, h1, h2⟩) hbs).2 b).2
    ⟨hb, p, hpb, h1, h2⟩, hpb⟩

/-- A task whose total write ROI contains the origin, off the grid. -/
def offOrigin : BGraph 1 := Ex.mk 0 (Ex.r1 0 2) (Ex.r1 0 2) true .overhang (Ex.r1 (-1) 5)

/-- The claim is false in general: a query far outside the volume returns the block at the
origin, because the empty intersection is placed there. -/
theorem C12_false_outside :
    ∃ b ∈ offOrigin.subgraphBlocks (Ex.r1 10 12) false,
      ¬ Overlap b.writeRoi (Ex.r1 10 12) := by
  refine ⟨offOrigin.blk (Ex.c1 0), by decide +kernel, ?_⟩
  rw [overlap_iff]
  decide +kernel

example : (Ex.g1 .shrink).OriginSafe := ⟨0, Or.inl (by decide +kernel)⟩

end Verif.Props
