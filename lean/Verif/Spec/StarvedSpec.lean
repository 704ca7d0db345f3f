import Verif.Spec.History
import Mathlib.Data.Finset.Option

/-! # Graphs in which not every block can get ready -/

namespace Verif

variable {N T K : Type}

/-- A consistent dependency graph (`DGraph.OK`), except that blocks of dependent tasks may have no upstream blocks. -/
structure DGraph.Loose (g : DGraph N T K) : Prop where
  nodes_nodup : g.nodes.Nodup
  up_mem : ∀ n ∈ g.nodes, ∀ m ∈ g.up n, m ∈ g.nodes
  down_mem : ∀ n ∈ g.nodes, ∀ m ∈ g.down n, m ∈ g.nodes
  up_nodup : ∀ n ∈ g.nodes, (g.up n).Nodup
  down_nodup : ∀ n ∈ g.nodes, (g.down n).Nodup
  dual : ∀ a ∈ g.nodes, ∀ b ∈ g.nodes, b ∈ g.down a ↔ a ∈ g.up b
  acyclic : ∃ rank : N → Nat, ∀ b ∈ g.nodes, ∀ a ∈ g.up b, rank a < rank b
  key_inj : ∀ a ∈ g.nodes, ∀ b ∈ g.nodes, g.key a = g.key b → a = b
  tasks_nodup : g.tasks.Nodup
  task_mem : ∀ n ∈ g.nodes, g.task n ∈ g.tasks
  total_eq : ∀ t ∈ g.tasks, ∃ l : List N, l.Nodup ∧ (∀ n, n ∈ l ↔ n ∈ g.nodes ∧ g.task n = t) ∧ g.total t = l.length
  rootTasks_nodup : g.rootTasks.Nodup
  rootTasks_mem : ∀ t ∈ g.rootTasks, t ∈ g.tasks
  numRoots_eq : ∀ t ∈ g.rootTasks, g.numRoots t = (g.rootGen t).length
  rootGen_nodup : ∀ t ∈ g.rootTasks, (g.rootGen t).Nodup
  rootGen_mem : ∀ t ∈ g.rootTasks, ∀ n, n ∈ g.rootGen t ↔ n ∈ g.nodes ∧ g.task n = t ∧ g.up n = []

theorem DGraph.OK.loose {g : DGraph N T K} (h : g.OK) : g.Loose :=
  ⟨h.nodes_nodup, h.up_mem, h.down_mem, h.up_nodup, h.down_nodup, h.dual, h.acyclic, h.key_inj, h.tasks_nodup, h.task_mem,
    h.total_eq, h.rootTasks_nodup, h.rootTasks_mem, h.numRoots_eq, h.rootGen_nodup, h.rootGen_mem⟩

instance {g : DGraph N T K} : Coe g.OK g.Loose := ⟨DGraph.OK.loose⟩

namespace Spec

/-- A block of a task that requires others, without upstream blocks. -/
def Starved (g : DGraph N T K) (n : N) : Prop := n ∈ g.nodes ∧ g.up n = [] ∧ g.task n ∉ g.rootTasks

/-- The block or one of those before it is starved. -/
def Hungry (g : DGraph N T K) (n : N) : Prop := ∃ s, Starved g s ∧ (s = n ∨ Anc g s n)

end Spec
end Verif
