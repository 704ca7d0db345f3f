import Verif.Py.Basic
import Mathlib.Data.List.Basic

/-! # Task structures: `Task.requires`, `DependencyGraph.__add_task`, flattening in `run_blockwise`

A task object is a tree: its id, its other attributes (`info`), and the task objects it requires
(`task.py` 168-170, 190-191).  A Python task object that is shared appears as equal subtrees; the
code looks at ids only, so the unfolding does not change its behaviour.  Simplification: cyclic
`upstream_tasks` (possible only by mutating the list after construction) are not representable. -/

namespace Verif

/-- `Task`, `task.py` 5-192. -/
inductive TTree (α : Type) where
  | node (id : Nat) (info : α) (requires : List (TTree α))

namespace TTree

variable {α : Type}

/-- `task.task_id` -/
def id : TTree α → Nat
  | node i _ _ => i
/-- the other attributes -/
def info : TTree α → α
  | node _ a _ => a
/-- `Task.requires`, `task.py` 190-191 -/
def requires : TTree α → List (TTree α)
  | node _ _ us => us

end TTree

/-- The dicts `task_map`, `upstream_tasks`, `downstream_tasks`, `dependency_graph.py` 559-561.
`ids` are the keys, in insertion order (the three dicts always have the same keys).  Sets of task
ids are duplicate-free lists. -/
structure TaskGraph (α : Type) where
  ids : List Nat
  taskMap : Nat → Option (TTree α)
  ups : Nat → List Nat
  downs : Nat → List Nat

namespace TaskGraph

variable {α : Type}

/-- Empty dicts, `dependency_graph.py` 559-561. -/
def empty : TaskGraph α := ⟨[], fun _ => none, fun _ => [], fun _ => []⟩

/-- `set.add`. -/
def setAdd (s : List Nat) (x : Nat) : List Nat := if x ∈ s then s else s ++ [x]

/-- `dependency_graph.py` 625-627. -/
def record (G : TaskGraph α) (t : TTree α) : TaskGraph α :=
  { ids := G.ids ++ [t.id]
    taskMap := fun x => if x = t.id then some t else G.taskMap x
    ups := fun x => if x = t.id then [] else G.ups x
    downs := fun x => if x = t.id then [] else G.downs x }

/-- `dependency_graph.py` 630-631: `a` is required by `b`. -/
def link (G : TaskGraph α) (b a : Nat) : TaskGraph α :=
  { G with
    ups := fun x => if x = b then setAdd (G.ups x) a else G.ups x
    downs := fun x => if x = a then setAdd (G.downs x) b else G.downs x }

mutual
/-- `DependencyGraph.__add_task`, `dependency_graph.py` 623-631. -/
def addTask (G : TaskGraph α) : TTree α → TaskGraph α
  | .node i a us => if i ∈ G.ids then G else addUps (G.record (.node i a us)) i us
/-- The loop over `task.requires()`, `dependency_graph.py` 628-631. -/
def addUps (G : TaskGraph α) (i : Nat) : List (TTree α) → TaskGraph α
  | [] => G
  | u :: us => addUps ((addTask G u).link i u.id) i us
end

/-- `DependencyGraph.__init__`, `dependency_graph.py` 558-563. -/
def build (tasks : List (TTree α)) : TaskGraph α := tasks.foldl addTask empty

/-- `root_tasks`, `dependency_graph.py` 603-608. -/
def rootTasks (G : TaskGraph α) : List Nat := G.ids.filter (fun t => (G.ups t).length = 0)

end TaskGraph

namespace Scheduler

variable {α : Type}

mutual
/-- `Scheduler.__init_task`, `scheduler.py` 162-169, restricted to the order of keys of
`task_map`. -/
def initTask (keys : List Nat) : TTree α → List Nat
  | .node i _ us => if i ∈ keys then keys else initTasks (keys ++ [i]) us
/-- The loop over `task.requires()`. -/
def initTasks (keys : List Nat) : List (TTree α) → List Nat
  | [] => keys
  | u :: us => initTasks (initTask keys u) us
end

end Scheduler

namespace Convenience

variable {α : Type}

mutual
/-- Number of objects in the unfolding of a task. -/
def size : TTree α → Nat
  | .node _ _ us => sizes us + 1
/-- Sum of `size`. -/
def sizes : List (TTree α) → Nat
  | [] => 0
  | u :: us => size u + sizes us
end

/-- The `while` loop of `run_blockwise`, `convenience.py` 27-34.  `seen` is `task_ids`, `acc` is
`all_tasks`. -/
def flattenLoop : Nat → List (TTree α) → List Nat → List (TTree α) → Except PyErr (List (TTree α))
  | 0, _ :: _, _, _ => .error .outOfFuel
  | _, [], _, acc => .ok acc
  | fuel + 1, t :: ts, seen, acc =>
    if t.id ∉ seen then flattenLoop fuel (ts ++ t.requires) (t.id :: seen) (acc ++ [t])
    else flattenLoop fuel (ts ++ t.requires) seen acc

/-- `run_blockwise`, `convenience.py` 25-36. -/
def flatten (tasks : List (TTree α)) : Except PyErr (List (TTree α)) :=
  flattenLoop (sizes tasks) tasks [] []

end Convenience

end Verif
