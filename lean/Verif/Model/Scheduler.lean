import Verif.Model.ReadySurface
import Verif.Model.Block
import Mathlib.Data.Finset.Card

/-!
# Model of `daisy/task_state.py`, `daisy/processing_queue.py`, `daisy/scheduler.py`

`defaultdict`s and dicts over task ids are functions `T → _` (the insertion order is kept in
`DGraph.tasks` where it matters).  The state that a call leaves behind when it raises is not
represented: a raising call is `.error`.
-/

namespace Verif

/-- Update of a dict entry. -/
def upd {α β : Type} [DecidableEq α] (f : α → β) (a : α) (b : β) : α → β :=
  fun x => if x = a then b else f x

/-- `TaskState`, `task_state.py` 2-12. -/
structure TState where
  started : Bool
  total : Int
  ready : Int
  processing : Int
  completed : Int
  skipped : Int
  failed : Int
  orphaned : Int
  deriving DecidableEq, Repr

namespace TState

/-- `TaskState.__init__`. -/
def init : TState := ⟨false, 0, 0, 0, 0, 0, 0, 0⟩

/-- `pending_count`, `task_state.py` 15-24. -/
def pending (s : TState) : Int :=
  s.total - (s.ready + s.completed + s.failed + s.orphaned + s.processing)

/-- `is_done`, `task_state.py` 26-32. -/
def isDone (s : TState) : Bool := s.total - s.completed - s.failed - s.orphaned == 0

end TState

/-- `ProcessingQueue`, `processing_queue.py` 14-20.  `rootGen` is what the generator will still
yield; `block_retries` is a `defaultdict(int)`. -/
structure PQueue (N K : Type) where
  readyQueue : List N
  processing : Finset K
  retries : K → Int
  readyRoots : Int
  rootGen : List N

namespace PQueue

variable {N K : Type}

/-- `ProcessingQueue(num_roots, root_generator)`. -/
def init (numRoots : Int) (gen : List N) : PQueue N K := ⟨[], ∅, fun _ => 0, numRoots, gen⟩

/-- `num_ready`, `processing_queue.py` 22-24. -/
def numReady (q : PQueue N K) : Int := q.readyRoots + q.readyQueue.length

/-- `get_next`, `processing_queue.py` 26-34. -/
def getNext (q : PQueue N K) : Except PyErr (Option N × PQueue N K) :=
  if 0 < q.numReady then
    if 0 < q.readyRoots then
      match q.rootGen with
      | [] => .error .stopIteration
      | n :: gen => .ok (some n, { q with readyRoots := q.readyRoots - 1, rootGen := gen })
    else
      match q.readyQueue with
      | [] => .error .indexError
      | n :: rest => .ok (some n, { q with readyQueue := rest })
  else .ok (none, q)

end PQueue

/-- What a check function does when it is called. -/
inductive Check where
  | accept
  | reject
  | raises
  deriving DecidableEq, Repr

/-- State of a `Scheduler`. -/
structure Sched (N T K : Type) where
  rs : RS N
  states : T → TState
  queues : T → PQueue N K

namespace Sched

variable {N T K : Type} [DecidableEq N] [DecidableEq T] [DecidableEq K]

/-- Modify the state of one task. -/
def modState (st : Sched N T K) (t : T) (f : TState → TState) : Sched N T K :=
  { st with states := upd st.states t (f (st.states t)) }

/-- Modify the queue of one task. -/
def modQueue (st : Sched N T K) (t : T) (f : PQueue N K → PQueue N K) : Sched N T K :=
  { st with queues := upd st.queues t (f (st.queues t)) }

/-- `Scheduler.__init__`, `scheduler.py` 38-59, and `__init_task`, 162-169.
`dependency_graph.roots()` has been evaluated into `rootTasks`, `numRoots`, `rootGen`; the recursion
of `__init_task` over required tasks has been evaluated into the list `tasks`. -/
def init (g : DGraph N T K) : Sched N T K :=
  let st0 : Sched N T K := ⟨RS.init, fun _ => TState.init, fun _ => PQueue.init 0 []⟩
  let st1 := g.rootTasks.foldl (fun st t =>
    (st.modState t (fun s => { s with ready := s.ready + g.numRoots t })).modQueue t
      (fun _ => PQueue.init (g.numRoots t) (g.rootGen t))) st0
  g.tasks.foldl (fun st t => st.modState t (fun s => { s with total := g.total t })) st1

/-- The keys of `task_states` in insertion order: first the root tasks, `scheduler.py` 52-53, then the
others as `__init_task` (162-169) gets to them. -/
def stateKeys (g : DGraph N T K) : List T := g.rootTasks ++ g.tasks.filter (fun t => t ∉ g.rootTasks)

/-- `get_ready_tasks`, `scheduler.py` 61-69 (task ids instead of tasks). -/
def getReadyTasks (g : DGraph N T K) (st : Sched N T K) : List T :=
  (stateKeys g).filter (fun t => 0 < (st.states t).ready)

/-- `__queue_ready_block` with `index=None`, `scheduler.py` 171-176. -/
def queueReadyBlock (g : DGraph N T K) (st : Sched N T K) (n : N) : Sched N T K :=
  (st.modQueue (g.task n) (fun q => { q with readyQueue := q.readyQueue ++ [n] })).modState (g.task n)
    (fun s => { s with ready := s.ready + 1 })

/-- `__remove_from_processing_blocks`, `scheduler.py` 178-180. -/
def removeFromProcessing (g : DGraph N T K) (st : Sched N T K) (n : N) :
    Except PyErr (Sched N T K) :=
  if g.key n ∈ (st.queues (g.task n)).processing then
    .ok ((st.modQueue (g.task n) (fun q => { q with processing := q.processing.erase (g.key n) })).modState
      (g.task n) (fun s => { s with processing := s.processing - 1 }))
  else .error .keyError

/-- `__update_ready_queue`, `scheduler.py` 182-188; the dict it returns is `updatedKeys`. -/
def updateReadyQueue (g : DGraph N T K) (st : Sched N T K) (ns : List N) : Sched N T K :=
  ns.foldl (fun st n => st.queueReadyBlock g n) st

/-- `for orphan in orphans: self.task_states[orphan.task_id].orphaned_count += 1`,
`scheduler.py` 149-150; the order of iteration does not matter. -/
def countOrphans (g : DGraph N T K) (st : Sched N T K) (orphans : Finset N) : Sched N T K :=
  { st with states := fun t =>
      { st.states t with
        orphaned := (st.states t).orphaned + ((orphans.filter (fun o => g.task o = t)).card : Int) } }

/-- `release_block`, `scheduler.py` 110-160.  `status` is `block.status`; `pick` is the oracle for
`set.pop` in `mark_failure`. -/
def releaseBlock (g : DGraph N T K) (pick : Nat → Finset N → N) (st : Sched N T K) (n : N)
    (status : BlockStatus) : Except PyErr (Sched N T K) :=
  match st.removeFromProcessing g n with
  | .error e => .error e
  | .ok st1 =>
    match status with
    | .success =>
      match st1.rs.markSuccess g n with
      | .error e => .error e
      | .ok (newBlocks, rs') =>
        .ok ((({ st1 with rs := rs' }).modState (g.task n)
          (fun s => { s with completed := s.completed + 1 })).updateReadyQueue g newBlocks)
    | .failed =>
      if g.maxRetries (g.task n) ≤ (st1.queues (g.task n)).retries (g.key n) then
        match st1.rs.markFailure g pick n with
        | .error e => .error e
        | .ok (orphans, rs') =>
          .ok ((({ st1 with rs := rs' }).modState (g.task n)
            (fun s => { s with failed := s.failed + 1 })).countOrphans g orphans)
      else
        .ok ((st1.queueReadyBlock g n).modQueue (g.task n)
          (fun q => { q with retries := upd q.retries (g.key n) (q.retries (g.key n) + 1) }))
    | _ => .error .runtimeError

/-- The local variable `orphans` of `release_block` (`scheduler.py` 144-147): the blocks it reports as
orphaned; empty in the branches that do not compute it. -/
def orphansOf (g : DGraph N T K) (pick : Nat → Finset N → N) (st : Sched N T K) (n : N)
    (status : BlockStatus) : Finset N :=
  match st.removeFromProcessing g n with
  | .error _ => ∅
  | .ok st1 =>
    match status with
    | .failed =>
      if g.maxRetries (g.task n) ≤ (st1.queues (g.task n)).retries (g.key n) then
        match st1.rs.markFailure g pick n with
        | .error _ => ∅
        | .ok (orphans, _) => orphans
      else ∅
    | _ => ∅

/-- The keys, in insertion order, of the dict that `__update_ready_queue` returns,
`scheduler.py` 182-188. -/
def updatedKeys (g : DGraph N T K) (ns : List N) : List T :=
  ns.foldl (fun ks n => if g.task n ∈ ks then ks else ks ++ [g.task n]) []

/-- The keys of the dict that `release_block` returns, `scheduler.py` 134-156 (empty if it raises).
The value under key `t` is the object `task_states[t]` itself, that is `states t` of the state that
`releaseBlock` leaves behind. -/
def updatedTasks (g : DGraph N T K) (st : Sched N T K) (n : N) (status : BlockStatus) : List T :=
  match st.removeFromProcessing g n with
  | .error _ => []
  | .ok st1 =>
    match status with
    | .success =>
      match st1.rs.markSuccess g n with
      | .error _ => []
      | .ok (newBlocks, _) => updatedKeys g newBlocks
    | .failed =>
      if g.maxRetries (g.task n) ≤ (st1.queues (g.task n)).retries (g.key n) then []
      else [g.task n]
    | _ => []

/-- `__precheck`, `scheduler.py` 190-200: an exception of the check function counts as `False`; a
task without check function is represented by `Check.reject`. -/
def precheck : Check → Bool
  | .accept => true
  | .reject => false
  | .raises => false

/-- `acquire_block`, `scheduler.py` 71-108.  `chk k n` is what the check function does at its `k`-th
call (on block `n`).  The first component of the result lists the skipped blocks in order.  The
`pick` oracle of the nested `release_block` is never consulted (the status is SUCCESS). -/
def acquireLoop (g : DGraph N T K) (t : T) :
    Nat → (Nat → N → Check) → Nat → Sched N T K → List N →
      Except PyErr (List N × Option N × Sched N T K)
  | 0, _, _, _, _ => .error .outOfFuel
  | fuel + 1, chk, k, st, skips =>
    match (st.queues t).getNext with
    | .error e => .error e
    | .ok (none, q) => .ok (skips, none, st.modQueue t (fun _ => q))
    | .ok (some n, q) =>
      let st1 := (st.modQueue t (fun _ => q)).modState t
        (fun s => { s with ready := s.ready - 1, processing := s.processing + 1 })
      if precheck (chk k n) then
        let st2 := (st1.modState t (fun s => { s with skipped := s.skipped + 1 })).modQueue t
          (fun q => { q with processing := insert (g.key n) q.processing })
        match st2.releaseBlock g (fun _ _ => n) n .success with
        | .error e => .error e
        | .ok st3 => acquireLoop g t fuel chk (k + 1) st3 (skips ++ [n])
      else
        .ok (skips, some n, (st1.modState t (fun s => { s with started := true })).modQueue t
          (fun q => { q with processing := insert (g.key n) q.processing }))

/-- `acquire_block` with enough fuel for its `while True` loop. -/
def acquireBlock (g : DGraph N T K) (chk : Nat → N → Check) (st : Sched N T K) (t : T) :
    Except PyErr (List N × Option N × Sched N T K) :=
  acquireLoop g t (g.nodes.length + 1) chk 0 st []

end Sched
end Verif
