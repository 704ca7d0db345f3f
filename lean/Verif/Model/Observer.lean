import Verif.Model.WorkerPool

/-!
# Model of `daisy/server_observer.py`

A callback of an observer may register and unregister observers (`server.register_observer` and
`server.unregister_observer` are public) and may raise.  Otherwise what it does is not visible to the other observers.
Observers are compared by identity. -/

namespace Verif

namespace Observee

variable {O : Type} [DecidableEq O]

/-- What a callback does to the list of observers. -/
inductive ObsOp (O : Type) where
  /-- `register_observer`, `server_observer.py` 29-30 -/
  | register (o : O)
  /-- `unregister_observer`, `server_observer.py` 32-33 -/
  | unregister (o : O)
  deriving DecidableEq

/-- `register_observer` appends, `unregister_observer` calls `list.remove`: the first occurrence, `ValueError` if there
is none. -/
def apply (l : List O) : ObsOp O → Except PyErr (List O)
  | .register o => .ok (l ++ [o])
  | .unregister o => if o ∈ l then .ok (l.erase o) else .error .valueError

/-- Several operations one after the other, until one raises. -/
def applyAll : List (ObsOp O) → List O → List O × Option PyErr
  | [], l => (l, none)
  | op :: ops, l =>
    match apply l op with
    | .error e => (l, some e)
    | .ok l' => applyAll ops l'

/-- A callback: the operations on the list of observers, and whether it raises afterwards. -/
structure Callback (O : Type) where
  ops : List (ObsOp O)
  raises : Option PyErr

/-- How a notification ends: the list of observers, the observers that were called in order, and the exception, if
one was raised. -/
structure Notified (O : Type) where
  observers : List O
  called : List O
  error : Option PyErr
  deriving DecidableEq

/-- `for observer in self.observers: observer.on_...(...)`, `server_observer.py` 35-57.  The iterator of a list is
an index `i` into the current list.  `none` if the loop does not end within `fuel` calls. -/
def notify (cb : O → Callback O) : Nat → List O → Nat → List O → Option (Notified O)
  | 0, _, _, _ => none
  | fuel + 1, l, i, called =>
    match l[i]? with
    | none => some ⟨l, called, none⟩
    | some o =>
      match applyAll (cb o).ops l with
      | (l', some e) => some ⟨l', called ++ [o], some e⟩
      | (l', none) =>
        match (cb o).raises with
        | some e => some ⟨l', called ++ [o], some e⟩
        | none => notify cb fuel l' (i + 1) (called ++ [o])

end Observee

/-! ## Several runs of one server

Every call of `Server.run_blockwise` makes a `TaskWorkerPools` (`server.py` 47), which registers itself as an observer
(`task_worker_pools.py` 12, `server_observer.py` 4) and is never unregistered.  The counter of worker ids belongs to
the class `Worker` and is shared. -/

/-- The worker pools of all runs, in the order of the runs, and the counter of worker ids. -/
structure AllPools (T : Type) where
  runs : List (Pools T)
  next : Nat

namespace AllPools

variable {T : Type} [DecidableEq T]

/-- `notify_block_failure`, `server_observer.py` 51-53, as far as the worker pools are concerned. -/
def failureLoop (maxF : Nat) (t : T) (id : Nat) : List (Pools T) → Nat → Except PyErr (List (Pools T) × Nat)
  | [], next => .ok ([], next)
  | p :: r, next =>
    match Pools.onBlockFailure maxF { p with next := next } t id with
    | .error e => .error e
    | .ok p' =>
      match failureLoop maxF t id r p'.next with
      | .error e => .error e
      | .ok (r', next') => .ok (p' :: r', next')

/-- A worker of the last run reports a failure. -/
def failure (maxF : Nat) (a : AllPools T) (t : T) (id : Nat) : Except PyErr (AllPools T) :=
  match failureLoop maxF t id a.runs a.next with
  | .error e => .error e
  | .ok (r, next) => .ok ⟨r, next⟩

/-- The same failure reported several times. -/
def failures (maxF : Nat) (t : T) (id : Nat) : Nat → AllPools T → Except PyErr (AllPools T)
  | 0, a => .ok a
  | n + 1, a =>
    match a.failure maxF t id with
    | .error e => .error e
    | .ok a' => failures maxF t id n a'

/-- Start of `run_blockwise`, `server.py` 47 and 57: new pools for `tasks`, workers for the ready ones. -/
def begin (num : T → Nat) (tasks ready : List T) (a : AllPools T) : AllPools T :=
  let p := Pools.recruit num ready { Pools.init tasks with next := a.next }
  ⟨a.runs ++ [p], p.next⟩

/-- End of `run_blockwise`, `server.py` 61-63: `self.worker_pools` are those of the last run. -/
def finish (a : AllPools T) : AllPools T :=
  match a.runs.getLast? with
  | none => a
  | some p => ⟨a.runs.dropLast ++ [p.stopAll], a.next⟩

/-- The workers of a task in all pools. -/
def workers (a : AllPools T) (t : T) : List Worker :=
  a.runs.flatMap (fun p => p.pools.flatMap (fun e => if e.1 = t then e.2.workers else []))

end AllPools
end Verif
