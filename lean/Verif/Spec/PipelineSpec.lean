import Verif.Model.Pipeline
import Verif.Spec.TaskSpec
import Verif.Spec.TaskTree
import Verif.Proofs.Subgraph

/-! # Vocabulary for claims about pipelines -/

namespace Verif

variable {d : Nat}

namespace BGraph

/-- All blocks write inside the total write ROI: boundary blocks do not overhang, or the write
shape divides the total write ROI. -/
def Inside (g : BGraph d) : Prop := g.fit ≠ .overhang ∨ ∀ i, g.w i ∣ g.t i

/-- Same context on both sides. -/
def Symmetric (g : BGraph d) : Prop := ∀ i, g.cl i = g.cu i

/-- Conditions on an upstream task `gx` and a dependent task `gy`. -/
def LinkOK (gx gy : BGraph d) : Prop :=
  gx.Inside ∧ gx.OriginSafe ∧ gy.Inside ∧ gy.OriginSafe ∧ gy.Symmetric ∧ gy.CtxNonneg

end BGraph

/-- A task whose parameters are in the range of the theorems: positive write shape, a total ROI with
room for the context, a read ROI that does not start after the write ROI, and, for `shrink`, does not
end before it. -/
structure TaskInfo.Regular (a : TaskInfo d) : Prop where
  wpos : ∀ i, 0 < a.writeRoi.shape.get i
  room : ∀ i, a.readRoi.shape.get i - a.writeRoi.shape.get i ≤ a.totalRoi.shape.get i
  lower : ∀ i, a.readRoi.offset.get i ≤ a.writeRoi.offset.get i
  upper : a.fit = .shrink → ∀ i, a.writeRoi.offset.get i + a.writeRoi.shape.get i ≤
    a.readRoi.offset.get i + a.readRoi.shape.get i

namespace Pipeline

/-- `b` is a block of the task with id `x`. -/
def BlockOf (p : Pipeline d) (x : Nat) (b : Block d) : Prop :=
  ∃ g bs, p.graphs x = some g ∧ g.blocks = .ok bs ∧ b ∈ bs

/-- `a` is reported as a direct upstream block of `b`. -/
def Up (p : Pipeline d) (a b : Block d) : Prop := ∃ us, p.upstream b = .ok us ∧ a ∈ us

/-- `b` is reported as a direct downstream block of `a`. -/
def Down (p : Pipeline d) (a b : Block d) : Prop := ∃ ds, p.downstream a = .ok ds ∧ b ∈ ds

/-- The geometries of the tasks taken one by one are in the range of the single-task theorems. -/
def Wf (p : Pipeline d) : Prop :=
  ∀ x g, p.graphs x = some g → g.Wf ∧ g.ReadOK ∧ ∀ i, 0 ≤ g.cl i

/-- Conditions under which the two directions of the cross-task links agree. -/
def Linked (p : Pipeline d) : Prop :=
  ∀ x y gx gy, x ∈ p.tg.ups y → p.graphs x = some gx → p.graphs y = some gy → gx.LinkOK gy

/-- Every block of a task with upstream tasks reads something that a block of an upstream task
writes. -/
def Fed (p : Pipeline d) : Prop :=
  ∀ y b, p.BlockOf y b → p.tg.ups y ≠ [] →
    ∃ x ∈ p.tg.ups y, ∃ a, p.BlockOf x a ∧ Spec.Overlap a.writeRoi b.readRoi

/-- Every task without upstream tasks has a level (see C50). -/
def RootLevels (p : Pipeline d) : Prop :=
  ∀ x g, p.tg.ups x = [] → p.graphs x = some g → 0 < g.numLevels

end Pipeline

end Verif
