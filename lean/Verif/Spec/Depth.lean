import Verif.Spec.PipelineSpec
import Verif.Spec.History
import Mathlib.Algebra.BigOperators.Fin

/-! # Vocabulary for claims about how many rounds a computation takes -/

namespace Verif.Spec

variable {d : Nat}

/-- The context of the blocks reaches at most `k i` neighbours far along axis `i`. -/
def Reaches (g : BGraph d) (k : Fin d → Nat) : Prop :=
  ∀ i, g.cl i ≤ k i * g.w i ∧ g.cu i ≤ k i * g.w i

/-- The context reaches exactly `k i` neighbours far. -/
def ReachesExactly (g : BGraph d) (k : Fin d → Nat) : Prop :=
  Reaches g k ∧ ∀ i, k i = 0 ∨ (k i - 1) * g.w i < g.cl i ∨ (k i - 1) * g.w i < g.cu i

/-- Number of blocks in a cube of one block and its neighbours on one side. -/
def cube (k : Fin d → Nat) : Nat := ∏ i, (k i + 1)

/-- The context that the user gives for a task reaches at most `k i` blocks far along axis `i`. -/
def _root_.Verif.TaskInfo.Reaches (a : TaskInfo d) (k : Fin d → Nat) : Prop :=
  ∀ i, a.writeRoi.offset.get i - a.readRoi.offset.get i ≤ k i * a.writeRoi.shape.get i ∧
    a.readRoi.offset.get i + a.readRoi.shape.get i - (a.writeRoi.offset.get i + a.writeRoi.shape.get i) ≤
      k i * a.writeRoi.shape.get i

/-- One round with enough workers: all blocks of the list are handed out before the first of them is given back. -/
def roundOf {N : Type} (ns : List N) : List (Ev N) := ns.map .hand ++ ns.map .good

end Verif.Spec
