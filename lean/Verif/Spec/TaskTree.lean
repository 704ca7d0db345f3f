import Verif.Model.TaskGraph
import Mathlib.Logic.Relation

/-! # Vocabulary for claims about task structures -/

namespace Verif.Spec

variable {α : Type}

/-- `s` is `t` or transitively required by `t`. -/
def Needs : TTree α → TTree α → Prop := Relation.ReflTransGen (fun t s => s ∈ t.requires)

/-- `s` is one of the given tasks or transitively required by one. -/
def Required (tasks : List (TTree α)) (s : TTree α) : Prop := ∃ t ∈ tasks, Needs t s

/-- Task ids are unique names: two required tasks with the same id are the same task. -/
def UniqueIds (tasks : List (TTree α)) : Prop :=
  ∀ s s', Required tasks s → Required tasks s' → s.id = s'.id → s = s'

end Verif.Spec
