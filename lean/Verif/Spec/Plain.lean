import Verif.Spec.PipelineSpec

/-! # Conditions on the parameters of tasks

Everything here speaks about what the user writes down when creating a `Task`: ROIs, `fit` and
`upstream_tasks`. -/

namespace Verif

variable {d : Nat}

namespace TaskInfo

/-- What the blocks of the task write together: the total ROI without the context. -/
def writes (a : TaskInfo d) : Roi d where
  offset := Vec.ofFn fun i => a.totalRoi.offset.get i + (a.writeRoi.offset.get i - a.readRoi.offset.get i)
  shape := Vec.ofFn fun i => a.totalRoi.shape.get i - (a.readRoi.shape.get i - a.writeRoi.shape.get i)

/-- The write shape divides the area that is written. -/
def Divides (a : TaskInfo d) : Prop := ∀ i, a.writeRoi.shape.get i ∣ a.writes.shape.get i

/-- The same context on both sides. -/
def Symmetric (a : TaskInfo d) : Prop :=
  ∀ i, a.writeRoi.offset.get i - a.readRoi.offset.get i =
    a.readRoi.offset.get i + a.readRoi.shape.get i - (a.writeRoi.offset.get i + a.writeRoi.shape.get i)

/-- A task without surprises: the write ROI of a block has voxels, the read ROI contains it and is not
larger than the total ROI, no block hangs over, and the written area starts at or above zero in some
dimension. -/
structure Plain (a : TaskInfo d) : Prop where
  wpos : ∀ i, 0 < a.writeRoi.shape.get i
  lower : ∀ i, a.readRoi.offset.get i ≤ a.writeRoi.offset.get i
  upper : ∀ i, a.writeRoi.offset.get i + a.writeRoi.shape.get i ≤
    a.readRoi.offset.get i + a.readRoi.shape.get i
  room : ∀ i, a.readRoi.shape.get i ≤ a.totalRoi.shape.get i
  inside : a.fit ≠ .overhang ∨ a.Divides
  origin : ∃ i, 0 ≤ a.writes.offset.get i

end TaskInfo

namespace Spec

/-- A pipeline without surprises: unique names, plain tasks, and every task with upstream tasks has the
same context on both sides and writes only where one of its upstream tasks writes, whose blocks leave no
remainder. -/
structure PlainTasks (tasks : List (Task d)) : Prop where
  unique : UniqueIds tasks
  plain : ∀ t, Required tasks t → t.info.Plain
  symmetric : ∀ t, Required tasks t → t.requires ≠ [] → t.info.Symmetric
  nested : ∀ t, Required tasks t → t.requires ≠ [] →
    ∃ u ∈ t.requires, Within t.info.writes u.info.writes ∧ (u.info.fit ≠ .valid ∨ u.info.Divides)

end Spec

end Verif
