import Verif.Spec.Voxel
import Verif.Spec.Wf
import Mathlib.Logic.Relation

/-! # Vocabulary for claims about the blocks of one task -/

namespace Verif.Spec

variable {d : Nat}

/-- `a` is a direct upstream block of `b` (as reported by `upstream`). -/
def Up (g : BGraph d) (a b : Block d) : Prop := ∃ us, g.upstream b = .ok us ∧ a ∈ us

/-- `a` is transitively upstream of `b`. -/
def Before (g : BGraph d) : Block d → Block d → Prop := Relation.TransGen (Up g)

/-- Voxel `p` lies in the `k`-th cell of the write grid. -/
def InCell (g : BGraph d) (k p : Coord d) : Prop :=
  ∀ i, g.totalWrite.offset.get i + k.get i * g.blockWrite.shape.get i ≤ p.get i ∧
    p.get i < g.totalWrite.offset.get i + (k.get i + 1) * g.blockWrite.shape.get i

/-- The `k`-th cell lies completely in the total write ROI. -/
def CellFits (g : BGraph d) (k : Coord d) : Prop :=
  ∀ i, 0 ≤ k.get i ∧ (k.get i + 1) * g.blockWrite.shape.get i ≤ g.totalWrite.shape.get i

end Verif.Spec
