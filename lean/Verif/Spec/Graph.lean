import Verif.Model.ReadySurface
import Mathlib.Logic.Relation

/-! # What the scheduler needs from a dependency graph

`GraphOK` collects the facts that the claims C06, C08, C09, C10, C13, C14 establish for the graphs
daisy builds (see `Props/SingleTask` and `Props/Pipeline`). -/

namespace Verif

variable {N T K : Type}

namespace Spec

/-- `a` is directly upstream of `b`. -/
def Edge (g : DGraph N T K) (a b : N) : Prop := a ∈ g.up b

/-- `a` is transitively upstream of `b`. -/
def Anc (g : DGraph N T K) : N → N → Prop := Relation.TransGen (Edge g)

end Spec

/-- A consistent finite acyclic dependency graph. -/
structure DGraph.OK (g : DGraph N T K) : Prop where
  nodes_nodup : g.nodes.Nodup
  up_mem : ∀ n ∈ g.nodes, ∀ m ∈ g.up n, m ∈ g.nodes
  down_mem : ∀ n ∈ g.nodes, ∀ m ∈ g.down n, m ∈ g.nodes
  up_nodup : ∀ n ∈ g.nodes, (g.up n).Nodup
  down_nodup : ∀ n ∈ g.nodes, (g.down n).Nodup
  dual : ∀ a ∈ g.nodes, ∀ b ∈ g.nodes, b ∈ g.down a ↔ a ∈ g.up b
  acyclic : ∃ rank : N → Nat, ∀ b ∈ g.nodes, ∀ a ∈ g.up b, rank a < rank b
  key_inj : ∀ a ∈ g.nodes, ∀ b ∈ g.nodes, g.key a = g.key b → a = b
  tasks_nodup : g.tasks.Nodup
  task_mem : ∀ n ∈ g.nodes, g.task n ∈ g.tasks
  total_eq : ∀ t ∈ g.tasks, ∃ l : List N, l.Nodup ∧ (∀ n, n ∈ l ↔ n ∈ g.nodes ∧ g.task n = t) ∧
    g.total t = l.length
  rootTasks_nodup : g.rootTasks.Nodup
  rootTasks_mem : ∀ t ∈ g.rootTasks, t ∈ g.tasks
  numRoots_eq : ∀ t ∈ g.rootTasks, g.numRoots t = (g.rootGen t).length
  rootGen_nodup : ∀ t ∈ g.rootTasks, (g.rootGen t).Nodup
  rootGen_mem : ∀ t ∈ g.rootTasks, ∀ n, n ∈ g.rootGen t ↔ n ∈ g.nodes ∧ g.task n = t ∧ g.up n = []
  other_tasks : ∀ n ∈ g.nodes, g.task n ∉ g.rootTasks → g.up n ≠ []

end Verif
