import Verif.Py.Basic

/-!
# Worker processes and the operating system

`worker.py`, `worker_pool.py`, `task_worker_pools.py` and `Server.run_blockwise` (`server.py` 41-70) once more, with the
processes of the operating system as part of the state and with failures to start a process.  What an exception leaves
behind matters here, so every function returns the state also if it raises.

Simplifications: worker ids are new, so that `self.workers.update` appends; the lock of a pool is left out (all calls are
made by the thread of the server); `Process.terminate` followed by `join` ends the process (it does not ignore SIGTERM);
the error queue of a pool is an argument of `check_worker_health`. -/

namespace Verif

/-- A `Worker`, `worker.py` 40-51: its id, and whether `self.process` is not `None`. -/
structure PWorker where
  id : Nat
  proc : Bool
  deriving DecidableEq, Repr

/-- The pools of the tasks (dicts in insertion order), the counter of worker ids (`worker.py` 30-38), and the processes:
`none` if the worker with this id has none, `some none` if it runs, `some (some c)` if it has ended with exit code `c`. -/
structure PWorld (T : Type) where
  pools : List (T × List PWorker)
  next : Nat
  os : Nat → Option (Option Int)

/-- Whether a function raised, and the state that it leaves behind. -/
structure PRes (α : Type) where
  err : Option PyErr
  val : α

/-- What starting the process of the worker with this id raises, if anything. -/
abbrev StartFails := Nat → Option PyErr

namespace PWorld

variable {T : Type} [DecidableEq T]

/-- Set an entry of the process table. -/
def setOs (os : Nat → Option (Option Int)) (id : Nat) (x : Option Int) : Nat → Option (Option Int) :=
  fun i => if i = id then some x else os i

/-- The list comprehension in `_start_workers`, `worker_pool.py` 140-143: `Worker(...)` takes an id and starts the process
(`worker.py` 40-51, 61-69).  The result are the new workers, or the exception. -/
def spawn (fail : StartFails) : Nat → Nat → (Nat → Option (Option Int)) →
    Except PyErr (List PWorker) × Nat × (Nat → Option (Option Int))
  | 0, next, os => (.ok [], next, os)
  | n + 1, next, os =>
    match fail next with
    | some e => (.error e, next + 1, os)
    | none =>
      match spawn fail n (next + 1) (setOs os next none) with
      | (.error e, next', os') => (.error e, next', os')
      | (.ok ws, next', os') => (.ok (⟨next, true⟩ :: ws), next', os')

/-- The state of one pool and of everything that is shared. -/
structure One where
  workers : List PWorker
  next : Nat
  os : Nat → Option (Option Int)

/-- `_start_workers`, `worker_pool.py` 138-144: the workers are stored after all of them were started. -/
def start (fail : StartFails) (x : One) (n : Nat) : PRes One :=
  match spawn fail n x.next x.os with
  | (.error e, next, os) => ⟨some e, ⟨x.workers, next, os⟩⟩
  | (.ok ws, next, os) => ⟨none, ⟨x.workers ++ ws, next, os⟩⟩

/-- `Process.terminate` and `join`, `worker.py` 77-84. -/
def terminate (os : Nat → Option (Option Int)) (id : Nat) : Nat → Option (Option Int) :=
  if os id = some none then setOs os id (some (-15)) else os

/-- `worker.stop()` and `del self.workers[worker_id]`, `worker.py` 71-84, `worker_pool.py` 87-89 and 152-155. -/
def stopOne (x : One) (id : Nat) : One :=
  match x.workers.find? (fun w => w.id = id) with
  | none => x
  | some w => ⟨x.workers.filter (fun v => v.id ≠ id), x.next, if w.proc then terminate x.os id else x.os⟩

/-- `_stop_workers`, `worker_pool.py` 146-155; `n` is positive. -/
def stopLast (x : One) (n : Nat) : One :=
  ((x.workers.map (·.id)).drop (x.workers.length - n)).foldl stopOne x

/-- `set_num_workers`, `worker_pool.py` 43-70. -/
def setNum (fail : StartFails) (x : One) (n : Nat) : PRes One :=
  if x.workers.length < n then start fail x (n - x.workers.length)
  else if n < x.workers.length then ⟨none, stopLast x (x.workers.length - n)⟩
  else ⟨none, x⟩

/-- The process of the worker has ended, `worker_pool.py` 115. -/
def ended (os : Nat → Option (Option Int)) (w : PWorker) : Option Int :=
  if w.proc then (os w.id).getD none else none

/-- `reap_dead_workers`, `worker_pool.py` 105-136, with the number of removed workers. -/
def reap (x : One) : One × Nat :=
  let dead := (x.workers.filter (fun w => match ended x.os w with | some c => c ≠ 0 | none => false)).map (·.id)
  (⟨(x.workers.map (fun w => if (ended x.os w).isSome then { w with proc := false } else w)).filter
    (fun w => w.id ∉ dead), x.next, x.os⟩, dead.length)

/-- The second half of one pass of the loop of `check_worker_health`, `task_worker_pools.py` 44-49. -/
def replaceDead (fail : StartFails) (x : One) : PRes One :=
  if 0 < (reap x).2 then start fail (reap x).1 (reap x).2 else ⟨none, (reap x).1⟩

/-- One pass of the loop of `check_worker_health`, `task_worker_pools.py` 42-49.  `reported` is the first exception that
the worker processes have put into the error queue; `queue.Empty` is swallowed (`worker_pool.py` 91-103). -/
def healthOne (fail : StartFails) (reported : Option PyErr) (x : One) : PRes One :=
  match reported with
  | some e => if e = .queueEmpty then replaceDead fail x else ⟨some e, x⟩
  | none => replaceDead fail x

/-- `for task_id, worker_pool in self.worker_pools.items(): ...` with a body `f`, until it raises. -/
def each (f : T → One → PRes One) : List (T × List PWorker) → Nat → (Nat → Option (Option Int)) → PRes (PWorld T)
  | [], next, os => ⟨none, ⟨[], next, os⟩⟩
  | (t, ws) :: r, next, os =>
    match f t ⟨ws, next, os⟩ with
    | ⟨some e, y⟩ => ⟨some e, ⟨(t, y.workers) :: r, y.next, y.os⟩⟩
    | ⟨none, y⟩ =>
      match each f r y.next y.os with
      | ⟨e, w⟩ => ⟨e, ⟨(t, y.workers) :: w.pools, w.next, w.os⟩⟩

/-- `recruit_workers`, `task_worker_pools.py` 26-34. -/
def recruit (fail : StartFails) (num : T → Nat) (ready : List T) (w : PWorld T) : PRes (PWorld T) :=
  each (fun t x => if t ∈ ready then setNum fail x (num t) else ⟨none, x⟩) w.pools w.next w.os

/-- `stop`, `task_worker_pools.py` 36-39, `worker_pool.py` 79-81. -/
def stopAll (fail : StartFails) (w : PWorld T) : PRes (PWorld T) :=
  each (fun _ x => setNum fail x 0) w.pools w.next w.os

/-- `check_worker_health`, `task_worker_pools.py` 41-49. -/
def health (fail : StartFails) (reported : T → Option PyErr) (w : PWorld T) : PRes (PWorld T) :=
  each (fun t x => healthOne fail (reported t) x) w.pools w.next w.os

/-- The end of `on_block_failure`, `task_worker_pools.py` 68-71, if the worker `id` of task `t` failed too often.  (For
unknown tasks nothing happens here; that case is in `Pools.onBlockFailure`.) -/
def restart (fail : StartFails) (t : T) (id : Nat) (w : PWorld T) : PRes (PWorld T) :=
  each (fun t' x => if t' = t then start fail (stopOne x id) 1 else ⟨none, x⟩) w.pools w.next w.os

/-- The process of a worker ends by itself. -/
def exit (id : Nat) (code : Int) (w : PWorld T) : PWorld T :=
  if w.os id = some none then { w with os := setOs w.os id (some code) } else w

/-- `TaskWorkerPools.__init__`, `task_worker_pools.py` 10-24. -/
def init (tasks : List T) : PWorld T := ⟨tasks.map (fun t => (t, [])), 0, fun _ => none⟩

/-- What happens during the event loop. -/
inductive PEv (T : Type) where
  | recruit (ready : List T)
  | health (reported : T → Option PyErr)
  | restart (t : T) (id : Nat)
  | exit (id : Nat) (code : Int)

/-- One event of the event loop. -/
def step (fail : StartFails) (num : T → Nat) (w : PWorld T) : PEv T → PRes (PWorld T)
  | .recruit ready => w.recruit fail num ready
  | .health reported => w.health fail reported
  | .restart t id => w.restart fail t id
  | .exit id code => ⟨none, w.exit id code⟩

/-- `Server.run_blockwise`, `server.py` 57-70: workers are recruited before the `try` statement; the event loop ends
after the events `es` or with an exception, and the pools are stopped (61-63).  `raised` is the exception that ends the
event loop for another reason, if any. -/
def loop (fail : StartFails) (num : T → Nat) : List (PEv T) → Option PyErr → PWorld T → PRes (PWorld T)
  | [], raised, w =>
    match w.stopAll fail with
    | ⟨some e, w'⟩ => ⟨some e, w'⟩
    | ⟨none, w'⟩ => ⟨raised, w'⟩
  | e :: es, raised, w =>
    match w.step fail num e with
    | ⟨some e', w'⟩ =>
      match w'.stopAll fail with
      | ⟨some e'', w''⟩ => ⟨some e'', w''⟩
      | ⟨none, w''⟩ => ⟨some e', w''⟩
    | ⟨none, w'⟩ => loop fail num es raised w'

/-- `Server.run_blockwise`, `server.py` 47-70. -/
def runBlockwise (fail : StartFails) (num : T → Nat) (served ready : List T) (es : List (PEv T))
    (raised : Option PyErr) : PRes (PWorld T) :=
  match (init served).recruit fail num ready with
  | ⟨some e, w⟩ => ⟨some e, w⟩
  | ⟨none, w⟩ => loop fail num es raised w

end PWorld
end Verif
