import Verif.Geom.Roi

/-! # Vocabulary for geometric claims: voxels and overlap

Deliberately independent of the ROI operations used by the code. -/

namespace Verif.Spec

variable {d : Nat}

/-- A voxel lies in an ROI. -/
def InRoi (p : Coord d) (r : Roi d) : Prop :=
  ∀ i, r.offset.get i ≤ p.get i ∧ p.get i < r.offset.get i + r.shape.get i

/-- Two ROIs share a voxel. -/
def Overlap (r s : Roi d) : Prop := ∃ p : Coord d, InRoi p r ∧ InRoi p s

/-- Every voxel of `r` is a voxel of `s`. -/
def Within (r s : Roi d) : Prop := ∀ p : Coord d, InRoi p r → InRoi p s

/-- The ROI has a voxel. -/
def Inhabited (r : Roi d) : Prop := ∃ p : Coord d, InRoi p r

end Verif.Spec
