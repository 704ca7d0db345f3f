import Verif.Model.Expand
import Verif.Props.Examples1
import Verif.Spec.Voxel

/-! # C49: the grid functions return the smallest aligned cover -/

namespace Verif

open Spec

variable {d : Nat}

namespace Spec

/-- Both corners of the ROI lie on the grid through `o` with cells of the given shape. -/
def OnGrid (o shape : Coord d) (r : Roi d) : Prop :=
  ∀ i, (∃ k, r.offset.get i = o.get i + k * shape.get i) ∧
    ∃ k, r.offset.get i + r.shape.get i = o.get i + k * shape.get i

/-- The interval of `r` is part of the interval of `s` in every dimension (unlike `Within`, this also
says something if `r` is empty). -/
def Inside (r s : Roi d) : Prop :=
  ∀ i, s.offset.get i ≤ r.offset.get i ∧
    r.offset.get i + r.shape.get i ≤ s.offset.get i + s.shape.get i

/-- `c` is the smallest ROI on the grid around `r`. -/
structure SmallestCover (o shape : Coord d) (r c : Roi d) : Prop where
  aligned : OnGrid o shape c
  covers : Inside r c
  smallest : ∀ c', OnGrid o shape c' → Inside r c' → Inside c c'

theorem Inside.within {r s : Roi d} (h : Inside r s) : Within r s := by
  intro p hp i
  have h1 := h i
  have h2 := hp i
  omega

end Spec

private theorem floor_spec (a s : Int) (hs : 0 < s) :
    a.fdiv s * s ≤ a ∧ ∀ k, k * s ≤ a → k * s ≤ a.fdiv s * s := by
  rw [Int.fdiv_eq_ediv_of_nonneg _ hs.le]
  refine ⟨Int.ediv_mul_le _ hs.ne', fun k hk => ?_⟩
  exact Int.mul_le_mul_of_nonneg_right ((Int.le_ediv_iff_mul_le hs).2 hk) hs.le

private theorem ceil_spec (a s : Int) (hs : 0 < s) :
    a ≤ -((-a).fdiv s) * s ∧ ∀ k, a ≤ k * s → -((-a).fdiv s) * s ≤ k * s := by
  obtain ⟨h1, h2⟩ := floor_spec (-a) s hs
  refine ⟨by rw [neg_mul]; omega, fun k hk => ?_⟩
  have := h2 (-k) (by rw [neg_mul]; omega)
  rw [neg_mul] at this ⊢
  omega

@[simp] private theorem get_ceilDiv (a b : Coord d) (i : Fin d) :
    (a.ceilDiv b).get i = -((-(a.get i)).fdiv (b.get i)) := by
  simp [Coord.ceilDiv]

/-- C49 for `expand_roi_to_grid`.  The grid is the one of the write ROIs of the blocks: the first block
of a task with this total ROI writes at `total.begin + (write.begin - read.begin)`. -/
theorem C49_roi (sub total read write : Roi d) (hs : ∀ i, 0 < write.shape.get i) :
    SmallestCover (total.offset + (write.offset - read.offset)) write.shape sub
      (expandRoiToGrid sub total read write) := by
  refine ⟨fun i => ?_, fun i => ?_, fun c' hc hin i => ?_⟩
  · simp only [expandRoiToGrid, Coord.get_add, Coord.get_sub, Coord.get_mul, Coord.get_floorDiv,
      get_ceilDiv, Roi.get_lo, Roi.get_hi]
    generalize (_ : Int).fdiv (write.shape.get i) = k
    generalize -(_ : Int).fdiv (write.shape.get i) = l
    exact ⟨⟨k, by ring⟩, ⟨l, by ring⟩⟩
  · have h1 := (floor_spec (sub.offset.get i - (write.offset.get i + total.offset.get i - read.offset.get i))
      _ (hs i)).1
    have h2 := (ceil_spec (sub.offset.get i + sub.shape.get i -
      (write.offset.get i + total.offset.get i - read.offset.get i)) _ (hs i)).1
    simp only [expandRoiToGrid, Coord.get_add, Coord.get_sub, Coord.get_mul, Coord.get_floorDiv,
      get_ceilDiv, Roi.get_lo, Roi.get_hi]
    omega
  · obtain ⟨⟨k, hk⟩, ⟨l, hl⟩⟩ := hc i
    have hi := hin i
    have h1 := (floor_spec (sub.offset.get i - (write.offset.get i + total.offset.get i - read.offset.get i))
      _ (hs i)).2 k
    have h2 := (ceil_spec (sub.offset.get i + sub.shape.get i -
      (write.offset.get i + total.offset.get i - read.offset.get i)) _ (hs i)).2 l
    simp only [Coord.get_add, Coord.get_sub] at hk hl
    simp only [expandRoiToGrid, Coord.get_add, Coord.get_sub, Coord.get_mul, Coord.get_floorDiv,
      get_ceilDiv, Roi.get_lo, Roi.get_hi]
    generalize write.shape.get i = s at *
    generalize k * s = ks at *
    generalize l * s = ls at *
    omega

/-- C49 for `expand_write_roi_to_grid`: the grid goes through the origin. -/
theorem C49_write_roi (roi write : Roi d) (hs : ∀ i, 0 < write.shape.get i) :
    SmallestCover (Vec.const d 0) write.shape roi (expandWriteRoiToGrid roi write) := by
  have e : expandWriteRoiToGrid roi write =
      expandRoiToGrid roi ⟨Vec.const d 0, roi.shape⟩ ⟨write.offset, roi.shape⟩ write := by
    simp only [expandWriteRoiToGrid, expandRoiToGrid, Roi.mk.injEq]
    constructor <;> apply Vec.ext_get <;> intro i <;>
      simp only [Coord.get_add, Coord.get_sub, Coord.get_mul, Coord.get_floorDiv,
      get_ceilDiv, Roi.get_lo, Roi.get_hi, Vec.get_const, add_zero, sub_self, sub_zero, sub_mul]
  have e2 : (Vec.const d 0 : Coord d) + (write.offset - write.offset) = Vec.const d 0 := by
    apply Vec.ext_get; intro i; simp
  rw [e]
  have := C49_roi roi ⟨Vec.const d 0, roi.shape⟩ ⟨write.offset, roi.shape⟩ write hs
  rwa [e2] at this

/-- C49 for `expand_request_roi_to_grid`: the smallest cover on the grid of write ROIs, with the context
of a block added on both sides. -/
theorem C49_request_roi (req total read write : Roi d) (hs : ∀ i, 0 < write.shape.get i) :
    ∃ c, SmallestCover (total.offset + (write.offset - read.offset)) write.shape req c ∧
      ∀ i, (expandRequestRoiToGrid req total read write).offset.get i =
          c.offset.get i - (write.offset.get i - read.offset.get i) ∧
        (expandRequestRoiToGrid req total read write).offset.get i +
          (expandRequestRoiToGrid req total read write).shape.get i =
          c.offset.get i + c.shape.get i +
            (read.offset.get i + read.shape.get i - (write.offset.get i + write.shape.get i)) := by
  refine ⟨_, C49_roi req total read write hs, fun i => ?_⟩
  simp only [expandRequestRoiToGrid, expandRoiToGrid, Coord.get_add, Coord.get_sub, Coord.get_mul,
    Coord.get_floorDiv, get_ceilDiv, Roi.get_lo, Roi.get_hi]
  omega

/-- A smallest cover is unique, so `C49_roi` and `C49_write_roi` determine the results. -/
theorem C49_unique {o shape : Coord d} {r c c' : Roi d} (h : SmallestCover o shape r c)
    (h' : SmallestCover o shape r c') : c = c' := by
  have h1 := h.smallest c' h'.aligned h'.covers
  have h2 := h'.smallest c h.aligned h.covers
  cases c with
  | mk a b =>
    cases c' with
    | mk a' b' =>
      congr 1 <;> apply Vec.ext_get <;> intro i
      · have := h1 i; have := h2 i; simp only at *; omega
      · have := h1 i; have := h2 i; simp only at *; omega

/-- The voxels of the given ROI are voxels of the result. -/
theorem C49_voxels (sub total read write : Roi d) (hs : ∀ i, 0 < write.shape.get i) :
    Within sub (expandRoiToGrid sub total read write) ∧
      Within sub (expandWriteRoiToGrid sub write) :=
  ⟨(C49_roi sub total read write hs).covers.within, (C49_write_roi sub write hs).covers.within⟩

/-- Negative coordinates, a grid with an offset. -/
example : (∀ i, 0 < (Ex.r1 3 7).shape.get i) ∧
    expandRoiToGrid (Ex.r1 (-6) 2) (Ex.r1 (-20) 41) (Ex.r1 0 10) (Ex.r1 3 7) = Ex.r1 (-9) 3 ∧
    expandWriteRoiToGrid (Ex.r1 (-6) 2) (Ex.r1 3 7) = Ex.r1 (-8) 4 ∧
    expandRequestRoiToGrid (Ex.r1 (-6) 2) (Ex.r1 (-20) 41) (Ex.r1 0 10) (Ex.r1 3 7) =
      Ex.r1 (-12) 6 := by decide

end Verif
