import Verif.Model.BlockGraph
import Verif.Model.TaskGraph
import Verif.Model.ReadySurface
import Mathlib.Data.List.Sort

/-! # `DependencyGraph`, daisy/dependency_graph.py:557-644

All tasks of a pipeline have the same dimension `d` (a `Coordinate` operation on different
dimensions raises in funlib). -/

namespace Verif

/-- The attributes of `Task` that the dependency graph and the scheduler use, `task.py` 141-170
(`process_function`, `check_function`, `init_callback_fn` are parameters of the models that call
them). -/
structure TaskInfo (d : Nat) where
  totalRoi : Roi d
  readRoi : Roi d
  writeRoi : Roi d
  conflict : Bool
  fit : Fit
  maxRetries : Int
  deriving DecidableEq

/-- `Task` with its upstream tasks. -/
abbrev Task (d : Nat) := TTree (TaskInfo d)

/-- `DependencyGraph`: the recorded task graph and `task_dependency_graphs`. -/
structure Pipeline (d : Nat) where
  tg : TaskGraph (TaskInfo d)
  graphs : Nat → Option (BGraph d)

namespace Pipeline

variable {d : Nat}

/-- `__add_task_dependency_graph`, dependency_graph.py:633-644. -/
def taskGraph (t : Task d) : Except PyErr (BGraph d) :=
  BGraph.init t.id t.info.readRoi t.info.writeRoi t.info.conflict t.info.fit (some t.info.totalRoi) none

/-- The loop over `task_map.values()`, dependency_graph.py:565-567, over the remaining keys. -/
def addGraphs (tg : TaskGraph (TaskInfo d)) :
    List Nat → (Nat → Option (BGraph d)) → Except PyErr (Nat → Option (BGraph d))
  | [], gs => .ok gs
  | x :: xs, gs =>
    match tg.taskMap x with
    | none => .error .keyError
    | some t =>
      match taskGraph t with
      | .error e => .error e
      | .ok g => addGraphs tg xs (fun y => if y = x then some g else gs y)

/-- `DependencyGraph.__init__`, dependency_graph.py:558-567. -/
def init (tasks : List (Task d)) : Except PyErr (Pipeline d) :=
  let tg := TaskGraph.build tasks
  match addGraphs tg tg.ids (fun _ => none) with
  | .error e => .error e
  | .ok gs => .ok ⟨tg, gs⟩

/-- `self.task_dependency_graphs[task_id]`. -/
def graphOf (p : Pipeline d) (x : Nat) : Except PyErr (BGraph d) :=
  match p.graphs x with
  | none => .error .keyError
  | some g => .ok g

/-- `num_blocks`, dependency_graph.py:573-574. -/
def numBlocks (p : Pipeline d) (x : Nat) : Except PyErr Int := do (← p.graphOf x).numBlocks

/-- The loop `for upstream_task in ...: upstream.extend(...)`, dependency_graph.py:578-583 and
592-597. -/
def extend (p : Pipeline d) (roi : Roi d) (readRoi : Bool) :
    List Nat → List (Block d) → Except PyErr (List (Block d))
  | [], acc => .ok acc
  | x :: xs, acc =>
    match p.graphOf x with
    | .error e => .error e
    | .ok g => extend p roi readRoi xs (acc ++ g.subgraphBlocks roi readRoi)

/-- `sorted(blocks, key=lambda b: b.block_id[1])`, dependency_graph.py:584-587 and 598-601. -/
def sortBlocks (bs : List (Block d)) : List (Block d) :=
  bs.insertionSort (fun a b => a.idNum ≤ b.idNum)

/-- `upstream`, dependency_graph.py:576-587. -/
def upstream (p : Pipeline d) (b : Block d) : Except PyErr (List (Block d)) := do
  let g ← p.graphOf b.taskId
  let us ← g.upstream b
  return sortBlocks (← p.extend b.readRoi false (p.tg.ups b.taskId) us)

/-- `downstream`, dependency_graph.py:589-601. -/
def downstream (p : Pipeline d) (b : Block d) : Except PyErr (List (Block d)) := do
  let g ← p.graphOf b.taskId
  let ds ← g.downstream b
  return sortBlocks (← p.extend b.writeRoi true (p.tg.downs b.taskId) ds)

/-- `num_roots`, dependency_graph.py:610-611. -/
def numRoots (p : Pipeline d) (x : Nat) : Except PyErr Int := do (← p.graphOf x).numRoots

/-- `root_gen`, dependency_graph.py:613-614. -/
def rootGen (p : Pipeline d) (x : Nat) : Except PyErr (List (Block d)) := do (← p.graphOf x).rootGen

/-- All blocks of all tasks (not a method; used to name the universe of blocks). -/
def blocks (p : Pipeline d) : Except PyErr (List (Block d)) := do
  return (← p.tg.ids.mapM (fun x => do (← p.graphOf x).blocks)).flatten

/-- The value of a call that succeeds; the default is used only where the call has been shown or
checked not to raise. -/
def okOr {β : Type} (x : Except PyErr β) (dflt : β) : β :=
  match x with
  | .ok v => v
  | .error _ => dflt

/-- `task.max_retries` of the task with a given id; -1 for unknown ids, which never occur. -/
def maxRetries (p : Pipeline d) (x : Nat) : Int :=
  match p.tg.taskMap x with
  | some t => t.info.maxRetries
  | none => -1

/-- The dependency graph as the scheduler sees it.  `upstream` and `downstream` are called while
the pipeline runs; `Proofs/Pipeline` shows that for the blocks of the pipeline they do not raise, so
that replacing an exception by `[]` is harmless.  The other values are checked by `dgraph`. -/
def view (p : Pipeline d) : DGraph (Block d) Nat (Nat × Int) where
  up := fun b => okOr (p.upstream b) []
  down := fun b => okOr (p.downstream b) []
  task := Block.taskId
  key := Block.blockId
  tasks := p.tg.ids
  total := fun t => okOr (p.numBlocks t) 0
  rootTasks := p.tg.rootTasks
  numRoots := fun t => okOr (p.numRoots t) 0
  rootGen := fun t => okOr (p.rootGen t) []
  maxRetries := p.maxRetries
  nodes := okOr p.blocks []

/-- What `Scheduler.__init__` evaluates (`scheduler.py` 38-59): `roots()`
(dependency_graph.py:616-621) and `num_blocks` of every task, any of which may raise; and the
exhaustion of the generators, which cannot raise (`C05_enumeration_ok`). -/
def dgraph (p : Pipeline d) : Except PyErr (DGraph (Block d) Nat (Nat × Int)) := do
  let _ ← p.tg.rootTasks.mapM p.numRoots
  let _ ← p.tg.rootTasks.mapM p.rootGen
  let _ ← p.tg.ids.mapM p.numBlocks
  let _ ← p.blocks
  return p.view

end Pipeline

end Verif
