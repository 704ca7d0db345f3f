import Verif.Model.Raised
import Verif.Model.System

/-!
# What becomes of an exception that ends a worker process

`Worker._spawn_wrapper` (`worker.py` 86-113) puts the exception of a spawn function into the error queue of its pool, a
`multiprocessing.Queue` (`worker_pool.py` 41).  A thread of the worker process pickles what was put into the queue and
writes it to a pipe; the process does not exit before this thread has ended.  `check_for_errors` (`worker_pool.py`
91-103) reads from the pipe and unpickles. -/

namespace Verif

variable {T : Type} [DecidableEq T]

/-- The number of exceptions in the error queue of the pool of a task.  Without a pool there is no worker either. -/
def Pools.unread (ps : Pools T) (t : T) : Nat :=
  match ps.get t with
  | none => 0
  | some p => p.errors.length

/-- `self.error_queue.put(e, timeout=1)`, `worker.py` 101-108, for a queue with `unread` exceptions in it: what
`check_for_errors` gets, if anything.  `fate e` is what becomes of exception `e`: it is pickled and unpickled; or pickling
it raises, in a thread which prints that and goes on (`multiprocessing`, documented behaviour of the feeder thread); or
unpickling it raises, inside of the `try` statement of `check_for_errors` (`worker_pool.py` 98-103) as if that exception
had come out of the queue.
Simplification: nobody takes anything out of a full queue while `put` waits. -/
def forward (fate : PyErr → Fate) (unread : Nat) (e : PyErr) : List PyErr :=
  if 100 ≤ unread then []
  else
    match fate e with
    | .fine => [e]
    | .unsent => []
    | .unread e' => [e']

/-- `Worker._spawn_wrapper`, `worker.py` 86-113, for worker `id` of task `t` whose spawn function raises `e`, a subclass of
`Exception`: what its process does.  Its exit code is 0, since the exception is caught. -/
def spawnEnds (fate : PyErr → Fate) (ps : Pools T) (t : T) (id : Nat) (e : PyErr) : List (ProcEv T) :=
  (forward fate (ps.unread t) e).map (.report t) ++ [.exit t id 0]

/-- The same for several workers, one after the other. -/
def spawnsEnd (fate : PyErr → Fate) : List (T × Nat × PyErr) → Pools T → Pools T
  | [], ps => ps
  | (t, id, e) :: r, ps => spawnsEnd fate r ((spawnEnds fate ps t id e).foldl Sys.procStep ps)

end Verif
