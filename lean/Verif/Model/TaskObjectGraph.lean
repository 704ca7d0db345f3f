import Verif.Model.TaskObjects

/-!
# `DependencyGraph.__add_task` and `Scheduler.__init_task` with task objects

The functions of `Model/TaskGraph` once more, for task objects instead of trees.  The depth of the recursion is bounded by
fuel (Python: by the recursion limit). -/

namespace Verif

/-- The dicts `task_map`, `upstream_tasks`, `downstream_tasks`, `dependency_graph.py` 559-561, as in `TaskGraph`. -/
structure ObjGraph (O : Type) where
  ids : List Nat
  taskMap : Nat → Option O
  ups : Nat → List Nat
  downs : Nat → List Nat

namespace ObjGraph

variable {O : Type}

/-- Empty dicts, `dependency_graph.py` 559-561. -/
def empty : ObjGraph O := ⟨[], fun _ => none, fun _ => [], fun _ => []⟩

/-- `dependency_graph.py` 625-627. -/
def record (G : ObjGraph O) (i : Nat) (t : O) : ObjGraph O :=
  { ids := G.ids ++ [i]
    taskMap := fun x => if x = i then some t else G.taskMap x
    ups := fun x => if x = i then [] else G.ups x
    downs := fun x => if x = i then [] else G.downs x }

/-- `dependency_graph.py` 630-631: `a` is required by `b`. -/
def link (G : ObjGraph O) (b a : Nat) : ObjGraph O :=
  { G with
    ups := fun x => if x = b then TaskGraph.setAdd (G.ups x) a else G.ups x
    downs := fun x => if x = a then TaskGraph.setAdd (G.downs x) b else G.downs x }

/-- The loop over `task.requires()`, `dependency_graph.py` 628-631, where `add` is the recursive call. -/
def addUps (ob : TaskObjs O) (add : ObjGraph O → O → Except PyErr (ObjGraph O)) (i : Nat) :
    List O → ObjGraph O → Except PyErr (ObjGraph O)
  | [], G => .ok G
  | u :: us, G =>
    match add G u with
    | .error e => .error e
    | .ok G' => addUps ob add i us (G'.link i (ob.tid u))

/-- `DependencyGraph.__add_task`, `dependency_graph.py` 623-631. -/
def addTask (ob : TaskObjs O) (heap : Nat → List O) : Nat → ObjGraph O → O → Except PyErr (ObjGraph O)
  | 0, _, _ => .error .outOfFuel
  | n + 1, G, t =>
    if ob.tid t ∈ G.ids then .ok G
    else addUps ob (addTask ob heap n) (ob.tid t) (heap (ob.ups t)) (G.record (ob.tid t) t)

/-- `DependencyGraph.__init__`, `dependency_graph.py` 558-563. -/
def build (ob : TaskObjs O) (heap : Nat → List O) (n : Nat) : List O → ObjGraph O → Except PyErr (ObjGraph O)
  | [], G => .ok G
  | t :: ts, G =>
    match addTask ob heap n G t with
    | .error e => .error e
    | .ok G' => build ob heap n ts G'

/-- The loop over `task.requires()`, `scheduler.py` 166-167. -/
def initUps (init : List Nat → O → Except PyErr (List Nat)) : List O → List Nat → Except PyErr (List Nat)
  | [], keys => .ok keys
  | u :: us, keys =>
    match init keys u with
    | .error e => .error e
    | .ok keys' => initUps init us keys'

/-- `Scheduler.__init_task`, `scheduler.py` 162-169, restricted to the order of keys of `task_map`. -/
def initTask (ob : TaskObjs O) (heap : Nat → List O) : Nat → List Nat → O → Except PyErr (List Nat)
  | 0, _, _ => .error .outOfFuel
  | n + 1, keys, t =>
    if ob.tid t ∈ keys then .ok keys else initUps (initTask ob heap n) (heap (ob.ups t)) (keys ++ [ob.tid t])

end ObjGraph
end Verif
