import Verif.Spec.Plain

/-! # Thin tasks

Conditions on what the user writes down that keep the number of blocks one block directly waits for at or
below two. -/

namespace Verif

variable {d : Nat}

namespace TaskInfo

/-- In dimension `i` the task reads exactly what it writes. -/
def NoContext (a : TaskInfo d) (i : Fin d) : Prop :=
  a.readRoi.offset.get i = a.writeRoi.offset.get i ∧ a.readRoi.shape.get i = a.writeRoi.shape.get i

instance (a : TaskInfo d) (i : Fin d) : Decidable (a.NoContext i) := inferInstanceAs (Decidable (_ ∧ _))

/-- The blocks of the task do not wait for each other: no conflicts are declared, or there is no context. -/
def Solo (a : TaskInfo d) : Prop := a.conflict = false ∨ ∀ i, a.NoContext i

/-- Context in one dimension only. -/
def OneDim (a : TaskInfo d) : Prop := ∃ j, ∀ i, i ≠ j → a.NoContext i

/-- In dimension `i` every block of the task `b` reads inside one block of the upstream task `a`: no context,
and the grid of `b` refines the grid of `a`. -/
def Refines (a b : TaskInfo d) (i : Fin d) : Prop :=
  b.NoContext i ∧ b.writeRoi.shape.get i ∣ a.writeRoi.shape.get i ∧
    b.writeRoi.shape.get i ∣ b.writes.offset.get i - a.writes.offset.get i

instance (a b : TaskInfo d) (i : Fin d) : Decidable (a.Refines b i) :=
  inferInstanceAs (Decidable (_ ∧ _ ∧ _))

/-- Every block of `b` reads from at most two neighbouring blocks of `a`: the grids fit in all dimensions but
one, and there `b` reads at most one voxel more than `a` writes. -/
def Narrow (a b : TaskInfo d) : Prop :=
  ∃ j, b.readRoi.shape.get j ≤ a.writeRoi.shape.get j + 1 ∧ ∀ i, i ≠ j → a.Refines b i

end TaskInfo

namespace Spec

/-- A task whose blocks wait for at most two blocks each, told from its parameters and those of the tasks it
requires: context in one dimension (or no conflicts) and no upstream task; or no waiting inside the task and
one upstream task with a narrow link or two with fitting grids. -/
def ThinTask (t : Task d) : Prop :=
  (t.requires = [] ∧ (t.info.conflict = false ∨ t.info.OneDim)) ∨
  (∃ s, t.requires = [s] ∧ t.info.Solo ∧ s.info.Narrow t.info) ∨
  (∃ s s', t.requires = [s, s'] ∧ t.info.Solo ∧ (∀ i, s.info.Refines t.info i) ∧
    ∀ i, s'.info.Refines t.info i)

/-- All tasks of a pipeline are thin. -/
def ThinTasks (tasks : List (Task d)) : Prop := ∀ t, Required tasks t → ThinTask t

end Spec

end Verif
