import Verif.Spec.History
import Verif.Spec.PipelineSpec
import Verif.Spec.ServerSpec
import Verif.Spec.SerialSpec
import Mathlib.Data.List.Perm.Basic

/-! # The same dependencies listed in another order

`DependencyGraph` keeps the tasks a task depends on in sets (`dependency_graph.py` 559-560) and iterates over these sets
when it lists the blocks a block depends on (578, 592); `BlockwiseDependencyGraph` makes a set of the blocks it found and a
list of the set (273, 301).  In which order Python iterates over a set of strings or of blocks depends on the hash seed of
the process.  The notions below say what may change from one process to the next; they do not mention the scheduler. -/

namespace Verif.Spec

variable {α N T K : Type}

/-- `x` stands before `y` in the list. -/
def Precedes (l : List α) (x y : α) : Prop := ∃ l₁ l₂ l₃, l = l₁ ++ x :: l₂ ++ y :: l₃

/-- One of the two nodes depends directly on the other. -/
def Linked (g : DGraph N T K) (x y : N) : Prop := x ∈ g.up y ∨ y ∈ g.up x

/-- The same graph, except that the lists of dependencies may be in another order. -/
structure Shuffled (g g' : DGraph N T K) : Prop where
  same : g' = { g with up := g'.up, down := g'.down }
  up : ∀ n ∈ g.nodes, (g.up n).Perm (g'.up n)
  down : ∀ n ∈ g.nodes, (g.down n).Perm (g'.down n)

/-- The same graph, and the lists keep the order of any two nodes of which one depends on the other, and of nodes of the
same task. -/
structure Reordered (g g' : DGraph N T K) : Prop extends Shuffled g g' where
  linked_up : ∀ n ∈ g.nodes, ∀ x y, Linked g x y → Precedes (g.up n) x y → Precedes (g'.up n) x y
  linked_down : ∀ n ∈ g.nodes, ∀ x y, Linked g x y → Precedes (g.down n) x y → Precedes (g'.down n) x y
  task_down : ∀ n ∈ g.nodes, ∀ x y, g.task x = g.task y → Precedes (g.down n) x y → Precedes (g'.down n) x y

variable {d : Nat}

/-- What a process with another hash seed sees of the pipeline: whenever the blocks upstream or downstream of a block are
listed, the sets of blocks and of tasks may be iterated over in any order.  Nothing else changes. -/
structure OtherSeed (p : Pipeline d) (g' : DGraph (Block d) Nat (Nat × Int)) : Prop where
  same : g' = { p.view with up := g'.up, down := g'.down }
  up : ∀ y b g us, p.BlockOf y b → p.graphs y = some g → g.upstream b = .ok us →
    ∃ us' xs l, us.Perm us' ∧ (p.tg.ups y).Perm xs ∧ p.extend b.readRoi false xs us' = .ok l ∧
      g'.up b = Pipeline.sortBlocks l
  down : ∀ y b g ds, p.BlockOf y b → p.graphs y = some g → g.downstream b = .ok ds →
    ∃ ds' xs l, ds.Perm ds' ∧ (p.tg.downs y).Perm xs ∧ p.extend b.writeRoi true xs ds' = .ok l ∧
      g'.down b = Pipeline.sortBlocks l

/-- No task requires another task both directly and through a third one that it requires. -/
def NoShortcut (tasks : List (Task d)) : Prop :=
  ∀ t, Required tasks t → ∀ u ∈ t.requires, ∀ v ∈ u.requires, ∀ w ∈ t.requires, w.id ≠ v.id

/-- The same happens outside the server, except that `set.pop` may take other elements. -/
def SamePops {S : Type} (k k' : Server.Tick N T S) : Prop := k' = { k with pick := k'.pick, pickLost := k'.pickLost }

/-- The same for the serial server. -/
def SamePop (k k' : SerTick N T) : Prop := k' = { k with pick := k'.pick }

end Verif.Spec
