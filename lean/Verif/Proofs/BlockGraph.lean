import Verif.Spec.Wf
import Verif.Spec.Voxel
import Verif.Proofs.Axis

/-! # The blocks of a task, characterised by their grid offset -/

namespace Verif.BGraph

open Verif.Axis Verif.Spec

variable {d : Nat}

theorem wf_of_init {taskId : Nat} {br bw : Roi d} {c : Bool} {f : Fit} {tr tw : Option (Roi d)}
    {g : BGraph d} (h : init taskId br bw c f tr tw = .ok g) (hw : ∀ i, 0 < bw.shape.get i)
    (ht : ∀ i, 0 ≤ g.totalWrite.shape.get i) : g.Wf := by
  have key : ∀ tr' tw' : Roi d,
      tw' = tr'.grow (-(bw.lo - br.lo)) (-(br.hi - bw.hi)) →
      (if (c && !br.containsRoi bw) = true then (.error .assertion : Except PyErr (BGraph d))
        else .ok ⟨taskId, br, bw, c, f, tr', tw'⟩) = .ok g → g.Wf := by
    intro tr' tw' htw h
    split at h
    · cases h
    · rename_i hc
      cases h
      refine ⟨hw, ht, htw, ?_⟩
      intro hconf i
      simp only [Bool.and_eq_true, Bool.not_eq_true', not_and, Bool.not_eq_false] at hc
      have hcon := hc hconf
      have hne : bw.isEmpty = false := by
        rw [Bool.eq_false_iff, ne_eq, Roi.isEmpty_iff]
        rintro ⟨j, hj⟩
        have := hw j
        omega
      simp only [Roi.containsRoi, hne, Bool.false_eq_true, if_false, Bool.and_eq_true,
        Roi.containsPoint_iff, Coord.get_sub, Vec.get_const, Roi.get_hi, Roi.get_lo] at hcon
      have h1 := hcon.1 i
      have h2 := hcon.2 i
      simp only [cl, cu]
      omega
  unfold init at h
  cases tr with
  | none =>
    cases tw with
    | none => cases h
    | some tw =>
      refine key _ _ ?_ h
      have h1 : ∀ (r : Roi d) (a b : Coord d), r = (r.grow a b).grow (-a) (-b) := by
        intro r a b
        cases r with
        | mk o s =>
          simp only [Roi.grow, Roi.mk.injEq]
          constructor <;> (apply Vec.ext_get; intro i; simp <;> ring)
      exact h1 _ _ _
  | some tr =>
    cases tw with
    | none => exact key _ _ rfl h
    | some tw =>
      simp only at h
      split at h
      · exact key _ _ rfl h
      · cases h

/-- The grid: offsets of blocks relative to the total write ROI. -/
def Grid (g : BGraph d) (o : Coord d) : Prop :=
  ∀ i, 0 ≤ o.get i ∧ o.get i < g.u i ∧ g.w i ∣ o.get i

instance decGrid (g : BGraph d) (o : Coord d) : Decidable (g.Grid o) :=
  inferInstanceAs (Decidable (∀ i, 0 ≤ o.get i ∧ o.get i < g.u i ∧ g.w i ∣ o.get i))

/-- The block at offset `o` before fitting. -/
def raw (g : BGraph d) (o : Coord d) : Block d :=
  Block.new g.totalRead ⟨g.totalRead.offset + o, g.blockRead.shape⟩
    ⟨g.totalWrite.offset + o, g.blockWrite.shape⟩ g.taskId

/-- The block at offset `o`. -/
def blk (g : BGraph d) (o : Coord d) : Block d := g.fitBlock (g.raw o)

theorem tw_off (g : BGraph d) (h : g.Wf) (i : Fin d) :
    g.totalWrite.offset.get i = g.totalRead.offset.get i + g.cl i := by
  rw [h.tw]
  simp [Roi.grow, cl]
  ring

theorem tw_shape (g : BGraph d) (h : g.Wf) (i : Fin d) :
    g.t i = g.totalRead.shape.get i - g.cl i - g.cu i := by
  unfold t
  rw [h.tw]
  simp only [Roi.grow, cl, cu, Coord.get_add, Coord.get_neg, Coord.get_sub, Roi.get_lo, Roi.get_hi]
  ring

theorem raw_eq (g : BGraph d) (h : g.Wf) (o : Coord d) :
    Block.new g.totalRead (g.blockRead.shift (o + (g.totalRead.lo - g.blockRead.lo)))
      (g.blockWrite.shift (o + (g.totalRead.lo - g.blockRead.lo))) g.taskId = g.raw o := by
  unfold raw
  congr 1
  · simp only [Roi.shift, Roi.mk.injEq, and_true]
    apply Vec.ext_get; intro i
    simp; ring
  · simp only [Roi.shift, Roi.mk.injEq, and_true]
    apply Vec.ext_get; intro i
    simp only [Coord.get_add, Coord.get_sub, Roi.get_lo, g.tw_off h i, cl]
    ring

theorem rt_get (g : BGraph d) (i : Fin d) :
    g.roundingTerm.get i = if g.fit = .valid then g.w i else 1 := by
  unfold roundingTerm w
  cases g.fit <;> simp

theorem u_valid (g : BGraph d) (hf : g.fit = .valid) (i : Fin d) : g.u i = g.t i + 1 - g.w i := by
  simp [u, rt_get, hf]

theorem u_other (g : BGraph d) (hf : g.fit ≠ .valid) (i : Fin d) : g.u i = g.t i := by
  simp [u, rt_get, hf]

theorem u_le_t (g : BGraph d) (h : g.Wf) (i : Fin d) : g.u i ≤ g.t i := by
  have := h.wpos i
  by_cases hf : g.fit = .valid
  · rw [u_valid g hf]; omega
  · rw [u_other g hf]

/-- The inclusion test, for a block at offset `o`. -/
theorem included_raw (g : BGraph d) (h : g.Wf) (o : Coord d) :
    g.included (g.raw o) = true ↔ ∀ i, 0 ≤ o.get i ∧ o.get i < g.u i := by
  have hne : (Roi.mk (g.totalWrite.offset + o) g.blockWrite.shape).isEmpty = false := by
    rw [Bool.eq_false_iff, ne_eq, Roi.isEmpty_iff]
    rintro ⟨j, hj⟩
    have := h.wpos j
    simp only [w] at this
    simp only at hj
    omega
  have pt : g.totalWrite.containsPoint (g.totalWrite.offset + o) = true ↔
      ∀ i, 0 ≤ o.get i ∧ o.get i < g.t i := by
    rw [Roi.containsPoint_iff]
    refine forall_congr' fun i => ?_
    simp only [Coord.get_add, t]
    omega
  unfold included
  split
  · rename_i hf
    simp only [raw, Block.new, Roi.containsRoi, hne, Bool.false_eq_true, if_false,
      Bool.and_eq_true, Roi.lo]
    rw [pt, Roi.containsPoint_iff, ← forall_and]
    refine forall_congr' fun i => ?_
    have := h.wpos i
    rw [u_valid g hf]
    simp only [Coord.get_sub, Roi.get_hi, Vec.get_const, Coord.get_add, t, w] at this ⊢
    omega
  · rename_i hf
    simp only [raw, Block.new, Roi.lo]
    rw [pt]
    refine forall_congr' fun i => ?_
    rw [u_other g (by simp [hf])]
  · rename_i hf
    simp only [shrinkPossible, raw, Block.new, Roi.lo]
    rw [pt]
    refine forall_congr' fun i => ?_
    rw [u_other g (by simp [hf])]

/-- The write ROI of the block at an admissible offset. -/
theorem blk_write (g : BGraph d) (h : g.Wf) (o : Coord d)
    (ho : ∀ i, 0 ≤ o.get i ∧ o.get i < g.u i) :
    (∀ i, (g.blk o).writeRoi.offset.get i = g.totalWrite.offset.get i + o.get i) ∧
    (∀ i, (g.blk o).writeRoi.shape.get i =
      if g.fit = .shrink then min (g.w i) (g.t i - o.get i) else g.w i) := by
  unfold blk fitBlock
  split
  · rename_i hf
    simp [raw, Block.new, hf, w]
  · rename_i hf
    simp [raw, Block.new, hf, w]
  · rename_i hf
    have hu : ∀ i, g.u i = g.t i := fun i => u_other g (by simp [hf]) i
    have hint : g.totalWrite.intersects ⟨g.totalWrite.offset + o, g.blockWrite.shape⟩ = true := by
      rw [Roi.intersects_iff]
      constructor <;> intro i
      · have := h.wpos i
        have := ho i
        rw [hu] at this
        simp only [w, t] at *
        omega
      · have := h.wpos i
        have := ho i
        rw [hu] at this
        simp only [w, t, Coord.get_add] at *
        omega
    simp only [shrinkBlock, raw, Block.new, Roi.intersect, hint, if_true, hf]
    constructor <;> intro i
    · have := ho i
      simp only [Coord.get_max, Roi.get_lo, Coord.get_add]
      omega
    · have := ho i
      simp only [Coord.get_max, Coord.get_min, Coord.get_sub, Roi.get_hi, Roi.get_lo,
        Coord.get_add, w, t]
      omega

/-- The read ROI of the block at an admissible offset (nonnegative context). -/
theorem blk_read (g : BGraph d) (h : g.Wf) (hc : g.CtxNonneg) (o : Coord d)
    (ho : ∀ i, 0 ≤ o.get i ∧ o.get i < g.u i) :
    (∀ i, (g.blk o).readRoi.offset.get i = g.totalRead.offset.get i + o.get i) ∧
    (∀ i, (g.blk o).readRoi.shape.get i =
      (g.blk o).writeRoi.shape.get i + g.cl i + g.cu i) := by
  have hbr : ∀ i, g.blockRead.shape.get i = g.w i + g.cl i + g.cu i := by
    intro i; simp only [w, cl, cu]; ring
  have hwr := g.blk_write h o ho
  constructor <;> intro i
  · unfold blk fitBlock
    split
    · simp [raw, Block.new]
    · simp [raw, Block.new]
    · rename_i hf
      have hu : ∀ i, g.u i = g.t i := fun i => u_other g (by simp [hf]) i
      have hint : g.totalRead.intersects ⟨g.totalRead.offset + o, g.blockRead.shape⟩ = true := by
        rw [Roi.intersects_iff]
        constructor <;> intro i <;>
        · have h1 := h.wpos i
          have h2 := ho i
          have h3 := hc i
          have h4 := hbr i
          have h5 := g.tw_shape h i
          rw [hu] at h2
          simp only [Coord.get_add]
          omega
      simp only [shrinkBlock, raw, Block.new, Roi.intersect, hint, if_true]
      have := ho i
      simp only [Coord.get_max, Roi.get_lo, Coord.get_add]
      omega
  · rw [hwr.2 i]
    unfold blk fitBlock
    split
    · rename_i hf
      simp [raw, Block.new, hf, hbr]
    · rename_i hf
      simp [raw, Block.new, hf, hbr]
    · rename_i hf
      have hu : ∀ i, g.u i = g.t i := fun i => u_other g (by simp [hf]) i
      have hint : g.totalRead.intersects ⟨g.totalRead.offset + o, g.blockRead.shape⟩ = true := by
        rw [Roi.intersects_iff]
        constructor <;> intro i <;>
        · have h1 := h.wpos i
          have h2 := ho i
          have h3 := hc i
          have h4 := hbr i
          have h5 := g.tw_shape h i
          rw [hu] at h2
          simp only [Coord.get_add]
          omega
      simp only [shrinkBlock, raw, Block.new, Roi.intersect, hint, if_true, hf]
      have h2 := ho i
      have h4 := hbr i
      have h5 := g.tw_shape h i
      simp only [Coord.get_max, Coord.get_min, Coord.get_sub, Roi.get_hi, Roi.get_lo,
        Coord.get_add]
      omega

/-- The read ROI starts at the grid offset. -/
theorem blk_read_off (g : BGraph d) (h : g.Wf) (hc : g.ReadOK) (o : Coord d)
    (ho : ∀ i, 0 ≤ o.get i ∧ o.get i < g.u i) (i : Fin d) :
    (g.blk o).readRoi.offset.get i = g.totalRead.offset.get i + o.get i := by
  rcases hc with hc | hc
  · exact (g.blk_read h hc o ho).1 i
  · unfold blk fitBlock
    split
    · simp [raw, Block.new]
    · simp [raw, Block.new]
    · rename_i hf; exact absurd hf hc

theorem readOK_of_conflict (g : BGraph d) (h : g.Wf) (hc : g.conflict = true) : g.ReadOK :=
  Or.inl (h.ctx hc)

theorem blk_taskId (g : BGraph d) (o : Coord d) : (g.blk o).taskId = g.taskId := by
  unfold blk fitBlock
  split <;> rfl

theorem blk_idNum (g : BGraph d) (o : Coord d) : (g.blk o).idNum = (g.raw o).idNum := by
  unfold blk fitBlock
  split <;> rfl

theorem blk_inj (g : BGraph d) (h : g.Wf) {o p : Coord d}
    (ho : ∀ i, 0 ≤ o.get i ∧ o.get i < g.u i) (hp : ∀ i, 0 ≤ p.get i ∧ p.get i < g.u i)
    (heq : g.blk o = g.blk p) : o = p := by
  apply Vec.ext_get; intro i
  have h1 := (g.blk_write h o ho).1 i
  have h2 := (g.blk_write h p hp).1 i
  rw [heq] at h1
  omega

/-- Fitting twice is fitting once (`root_gen` fits an already fitted block). -/
theorem fit_blk (g : BGraph d) (h : g.Wf) (hc : g.ReadOK) (o : Coord d)
    (ho : ∀ i, 0 ≤ o.get i ∧ o.get i < g.u i) : g.fitBlock (g.blk o) = g.blk o := by
  unfold fitBlock
  split
  · rfl
  · rfl
  · rename_i hf
    have hc : g.CtxNonneg := by
      rcases hc with hc | hc
      · exact hc
      · exact absurd hf hc
    have hu : ∀ i, g.u i = g.t i := fun i => u_other g (by simp [hf]) i
    have hw := g.blk_write h o ho
    have hr := g.blk_read h hc o ho
    simp only [hf, if_true] at hw
    have i1 : g.totalWrite.intersects (g.blk o).writeRoi = true := by
      rw [Roi.intersects_iff]
      constructor <;> intro i <;>
      · have h1 := h.wpos i
        have h2 := ho i
        have h3 := hw.1 i
        have h4 := hw.2 i
        rw [hu] at h2
        simp only [t] at *
        omega
    have i2 : g.totalRead.intersects (g.blk o).readRoi = true := by
      rw [Roi.intersects_iff]
      constructor <;> intro i <;>
      · have h1 := h.wpos i
        have h2 := ho i
        have h3 := hr.1 i
        have h4 := hr.2 i
        have h5 := hw.2 i
        have h6 := hc i
        have h7 := g.tw_shape h i
        rw [hu] at h2
        omega
    unfold shrinkBlock
    have e1 : g.totalWrite.intersect (g.blk o).writeRoi = (g.blk o).writeRoi := by
      unfold Roi.intersect
      rw [if_pos i1]
      cases hb : (g.blk o).writeRoi with
      | mk bo bs =>
        rw [hb] at hw
        simp only [Roi.mk.injEq]
        constructor <;> apply Vec.ext_get <;> intro i
        · have h3 := hw.1 i
          have h2 := ho i
          simp only [Coord.get_max, Roi.get_lo] at *
          omega
        · have h3 := hw.1 i
          have h4 := hw.2 i
          have h2 := ho i
          simp only [Coord.get_max, Coord.get_min, Coord.get_sub, Roi.get_lo, Roi.get_hi, t] at *
          omega
    have e2 : g.totalRead.intersect (g.blk o).readRoi = (g.blk o).readRoi := by
      unfold Roi.intersect
      rw [if_pos i2]
      cases hb : (g.blk o).readRoi with
      | mk bo bs =>
        rw [hb] at hr
        simp only [Roi.mk.injEq]
        constructor <;> apply Vec.ext_get <;> intro i
        · have h3 := hr.1 i
          have h2 := ho i
          simp only [Coord.get_max, Roi.get_lo] at *
          omega
        · have h3 := hr.1 i
          have h4 := hr.2 i
          have h5 := hw.2 i
          have h2 := ho i
          have h7 := g.tw_shape h i
          simp only [Coord.get_max, Coord.get_min, Coord.get_sub, Roi.get_lo, Roi.get_hi] at *
          omega
    rw [e1, e2]

end Verif.BGraph
