import Verif.Py.Basic

/-!
# Model of `daisy/worker.py`, `daisy/worker_pool.py` and `daisy/task_worker_pools.py`

Processes are modelled by whether they run or have exited, and with which code.  Not modelled: failure to
start a process, the contents of worker processes (see `Model/Client`), log files, the lock of a pool (all
calls are made by the thread of the server). -/

namespace Verif

/-- A process, as seen through `is_alive()` and `exitcode`. -/
inductive WProc where
  | running
  | exited (code : Int)
  deriving DecidableEq, Repr

/-- `Worker`, `worker.py` 40-51: `proc` is `self.process` (`None` after the worker was stopped or reaped). -/
structure Worker where
  id : Nat
  proc : Option WProc
  deriving DecidableEq, Repr

/-- `WorkerPool`, `worker_pool.py` 32-41.  The dict `workers` is a list in insertion order; the keys are the
ids of the workers. -/
structure Pool where
  workers : List Worker
  errors : List PyErr
  deriving DecidableEq, Repr

namespace Pool

/-- `self.workers[worker.worker_id] = worker`. -/
def put (ws : List Worker) (w : Worker) : List Worker :=
  if ws.any (fun v => v.id = w.id) then ws.map (fun v => if v.id = w.id then w else v) else ws ++ [w]

/-- `n` new workers; `next` is the counter of `Worker.get_next_id` (`worker.py` 33-38). -/
def newWorkers (next : Nat) (n : Nat) : List Worker :=
  (List.range n).map (fun i : Nat => ⟨next + i, some .running⟩)

/-- `_start_workers`, `worker_pool.py` 138-144, also `inc_num_workers`, 72-73.  The result contains the new
value of the counter. -/
def start (p : Pool) (next : Nat) (n : Nat) : Pool × Nat :=
  ({ p with workers := (newWorkers next n).foldl put p.workers }, next + n)

/-- `list(...)[-n:]`. -/
def lastN {α : Type} (l : List α) (n : Nat) : List α := if n = 0 then l else l.drop (l.length - n)

/-- `_stop_workers`, `worker_pool.py` 146-155.  The second result are the ids of the stopped workers. -/
def stopN (p : Pool) (n : Nat) : Pool × List Nat :=
  let sentenced := lastN (p.workers.map (·.id)) n
  ({ p with workers := p.workers.filter (fun w => w.id ∉ sentenced) }, sentenced)

/-- `set_num_workers`, `worker_pool.py` 43-70. -/
def setNum (p : Pool) (next : Nat) (n : Nat) : Pool × Nat :=
  if p.workers.length < n then p.start next (n - p.workers.length)
  else if n < p.workers.length then ((p.stopN (p.workers.length - n)).1, next)
  else (p, next)

/-- `stop(worker_id)`, `worker_pool.py` 75-89. -/
def stop (p : Pool) (id : Nat) : Pool :=
  if p.workers.any (fun w => w.id = id) then { p with workers := p.workers.filter (fun w => w.id ≠ id) } else p

/-- `check_for_errors`, `worker_pool.py` 91-103.  The exception of the worker is raised inside of the `try` statement
that catches `queue.Empty`. -/
def checkErrors (p : Pool) : Except PyErr Pool :=
  match p.errors with
  | [] => .ok p
  | e :: r => if e = .queueEmpty then .ok { p with errors := r } else .error e

/-- The worker has failed: `worker.process is not None`, it is not alive, and its exit code is not zero. -/
def failed (w : Worker) : Bool :=
  match w.proc with
  | some (.exited c) => c ≠ 0
  | _ => false

/-- `worker.process = None` for processes that have ended, `worker_pool.py` 131. -/
def forget (w : Worker) : Worker :=
  match w.proc with
  | some (.exited _) => { w with proc := none }
  | _ => w

/-- `reap_dead_workers`, `worker_pool.py` 105-136, with the number of removed workers. -/
def reap (p : Pool) : Pool × Nat :=
  let dead := (p.workers.filter failed).map (·.id)
  ({ p with workers := (p.workers.map forget).filter (fun w => w.id ∉ dead) }, dead.length)

end Pool

/-- `TaskWorkerPools`, `task_worker_pools.py` 10-24, with the counter of worker ids.  `failure_counts` is total:
a missing entry is 0 (it is set to 0 before it is used, 55-59). -/
structure Pools (T : Type) where
  pools : List (T × Pool)
  next : Nat
  counts : T → Nat → Nat

namespace Pools

variable {T : Type} [DecidableEq T]

/-- `TaskWorkerPools.__init__`. -/
def init (tasks : List T) : Pools T := ⟨tasks.map (fun t => (t, ⟨[], []⟩)), 0, fun _ _ => 0⟩

/-- `self.worker_pools[task_id]`. -/
def get (ps : Pools T) (t : T) : Option Pool := (ps.pools.find? (fun e => e.1 = t)).map (·.2)

/-- The loop of `recruit_workers`, `task_worker_pools.py` 26-34, over the pools.  `ready` are the keys of `tasks`,
`num` is `task.num_workers`. -/
def recruitLoop (num : T → Nat) (ready : List T) : List (T × Pool) → Nat → List (T × Pool) × Nat
  | [], next => ([], next)
  | (t, p) :: r, next =>
    if t ∈ ready then
      let (p', next') := p.setNum next (num t)
      let (r', next'') := recruitLoop num ready r next'
      ((t, p') :: r', next'')
    else
      let (r', next') := recruitLoop num ready r next
      ((t, p) :: r', next')

/-- `recruit_workers`, `task_worker_pools.py` 26-34. -/
def recruit (num : T → Nat) (ready : List T) (ps : Pools T) : Pools T :=
  let (l, next) := recruitLoop num ready ps.pools ps.next
  { ps with pools := l, next := next }

/-- `stop`, `task_worker_pools.py` 36-39, which calls `set_num_workers(0)`. -/
def stopAll (ps : Pools T) : Pools T :=
  { ps with pools := ps.pools.map (fun e => (e.1, (e.2.setNum ps.next 0).1)) }

/-- The loop of `check_worker_health`, `task_worker_pools.py` 41-49. -/
def healthLoop : List (T × Pool) → Nat → Except PyErr (List (T × Pool) × Nat)
  | [], next => .ok ([], next)
  | (t, p) :: r, next =>
    match p.checkErrors with
    | .error e => .error e
    | .ok p =>
      let (p1, reaped) := p.reap
      let (p2, next') := if 0 < reaped then p1.start next reaped else (p1, next)
      match healthLoop r next' with
      | .error e => .error e
      | .ok (r', next'') => .ok ((t, p2) :: r', next'')

/-- `check_worker_health`, `task_worker_pools.py` 41-49. -/
def health (ps : Pools T) : Except PyErr (Pools T) :=
  match healthLoop ps.pools ps.next with
  | .error e => .error e
  | .ok (l, next) => .ok { ps with pools := l, next := next }

/-- `on_block_failure`, `task_worker_pools.py` 51-71, for the worker `id` of task `t`. -/
def onBlockFailure (maxFailures : Nat) (ps : Pools T) (t : T) (id : Nat) : Except PyErr (Pools T) :=
  let n := ps.counts t id + 1
  if maxFailures < n then
    let counts := fun t' i => if t' = t ∧ i = id then 0 else ps.counts t' i
    match ps.get t with
    | none => .error .keyError
    | some p =>
      let (p', next) := (p.stop id).start ps.next 1
      .ok ⟨ps.pools.map (fun e => if e.1 = t then (t, p') else e), next, counts⟩
  else .ok { ps with counts := fun t' i => if t' = t ∧ i = id then n else ps.counts t' i }

/-- The process of a worker ends (not something daisy does). -/
def exit (ps : Pools T) (t : T) (id : Nat) (code : Int) : Pools T :=
  let f : Worker → Worker := fun w =>
    if w.id = id ∧ w.proc = some .running then ⟨w.id, some (.exited code)⟩ else w
  { ps with pools := ps.pools.map (fun e => if e.1 = t then (t, ⟨e.2.workers.map f, e.2.errors⟩) else e) }

/-- A worker puts an exception into the error queue of its pool, `worker.py` 104-106. -/
def report (ps : Pools T) (t : T) (e : PyErr) : Pools T :=
  { ps with pools := ps.pools.map (fun x => if x.1 = t then (t, { x.2 with errors := x.2.errors ++ [e] }) else x) }

end Pools
end Verif
