import Verif.Spec.Graph

/-! # Counting blocks -/

namespace Verif.Spec

variable {N T K : Type}

/-- Number of blocks of task `t` with property `P`. -/
noncomputable def cnt (g : DGraph N T K) (t : T) (P : N → Prop) : Int :=
  (g.nodes.countP (fun n => @decide (g.task n = t ∧ P n) (Classical.propDecidable _)) : Int)

/-- Number of blocks with property `P`, of any task. -/
noncomputable def cntAll (g : DGraph N T K) (P : N → Prop) : Nat :=
  g.nodes.countP (fun n => @decide (P n) (Classical.propDecidable _))

end Verif.Spec
