import Verif.Model.Scheduler

/-!
# Model of `daisy/serial_server.py`

`SerialServer.run_blockwise` (`serial_server.py` 15-68) with `scheduler=None`
(`Model/Resume.lean` has the other case).  The loop is modelled
one pass at a time; what can be seen from outside is appended to the log `out`.

Simplifications: process functions act on the block only through `block.status`; a block *object* is
identified with the block: the scheduler queues the very object it got back when a block is retried
(`scheduler.py` 158-160, `__queue_ready_block(block)`), and objects that it queues for the first time
are new, so that the status of an object is CREATED until it is marked. -/

namespace Verif

/-- What a call of a process function does to the block's status. -/
inductive Proc where
  /-- returns without touching the status -/
  | keep
  /-- returns after assigning the status -/
  | set (s : BlockStatus)
  /-- raises an exception -/
  | raises
  deriving DecidableEq

/-- What the serial server does, as seen from outside. -/
inductive SerOut (N T : Type) where
  /-- the scheduler skipped a block because its check function accepted it -/
  | skip (n : N)
  /-- `notify_task_start` -/
  | taskStart (t : T)
  /-- a call of `init_callback_fn`; `run_blockwise` (`serial_server.py` 15-68) contains none, so no
  definition below appends it -/
  | callback (t : T)
  /-- `notify_acquire_block` -/
  | acquired (t : T)
  /-- `process_funcs[block.task_id](block)` -/
  | call (n : N)
  /-- `scheduler.release_block(block)` -/
  | release (n : N) (status : BlockStatus)
  /-- `notify_release_block` -/
  | released (t : T)
  /-- `notify_task_done` -/
  | taskDone (t : T)
  /-- `notify_server_exit` -/
  | exit
  deriving DecidableEq

/-- The local variables of `run_blockwise`, `serial_server.py` 16-24. -/
structure Serial (N T K : Type) where
  sched : Sched N T K
  started : List T
  finished : List T
  /-- the keys of `process_funcs` -/
  funcs : List T
  /-- blocks whose object has status FAILED -/
  marked : List N
  out : List (SerOut N T)
  /-- the loop has been left -/
  ended : Bool

/-- What the environment does during one pass of the loop: the check function of each task (at its
k-th call), the process functions, and `set.pop` in the scheduler. -/
structure SerTick (N T : Type) where
  chk : T → Nat → N → Check
  proc : N → Proc
  pick : Nat → Finset N → N

namespace Serial

variable {N T K : Type} [DecidableEq N] [DecidableEq T] [DecidableEq K]

/-- Append to the log. -/
def emit (σ : Serial N T K) (os : List (SerOut N T)) : Serial N T K := { σ with out := σ.out ++ os }

/-- `break` out of the loop; `notify_server_exit`, `serial_server.py` 67. -/
def leave (σ : Serial N T K) : Serial N T K := { σ with out := σ.out ++ [.exit], ended := true }

/-- Before the loop, `serial_server.py` 16-24; `served` are the ids of the given tasks. -/
def init (g : DGraph N T K) (served : List T) : Serial N T K :=
  { sched := Sched.init g, started := [], finished := [], funcs := served, marked := [], out := [],
    ended := false }

/-- `for ready_task in ready_tasks: ...`, `serial_server.py` 32-35. -/
def acquireAny (g : DGraph N T K) (chk : T → Nat → N → Check) :
    List T → Sched N T K → Except PyErr (List N × Option N × Sched N T K)
  | [], st => .ok ([], none, st)
  | t :: ts, st =>
    match st.acquireBlock g (chk t) t with
    | .error e => .error e
    | .ok (skips, some n, st') => .ok (skips, some n, st')
    | .ok (skips, none, st') =>
      match acquireAny g chk ts st' with
      | .error e => .error e
      | .ok (skips', r, st'') => .ok (skips ++ skips', r, st'')

/-- `notify_task_start` for a task that has not been started, `serial_server.py` 38-42. -/
def startTask (σ : Serial N T K) (t : T) : Serial N T K :=
  if t ∉ σ.started then { σ.emit [.taskStart t] with started := σ.started ++ [t] } else σ

/-- The status of the block after the process function, `serial_server.py` 46-50. -/
def statusAfter (σ : Serial N T K) (n : N) : Proc → BlockStatus
  | .set s => if s = .failed then .failed else .success
  | _ => if n ∈ σ.marked then .failed else .success

/-- The end of a pass, `serial_server.py` 56-65. -/
def finishPass (σ : Serial N T K) (t : T) : Except PyErr (Serial N T K) :=
  let σ1 : Except PyErr (Serial N T K) :=
    if (σ.sched.states t).isDone then
      if t ∈ σ.started then
        if t ∈ σ.funcs then
          .ok { σ.emit [.taskDone t] with
            finished := if t ∈ σ.finished then σ.finished else σ.finished ++ [t],
            started := σ.started.filter (fun x => x ≠ t), funcs := σ.funcs.filter (fun x => x ≠ t) }
        else .error .keyError
      else .error .keyError
    else .ok σ
  match σ1 with
  | .error e => .error e
  | .ok σ2 => if σ2.funcs = [] then .ok σ2.leave else .ok σ2

/-- One pass of the loop, `serial_server.py` 26-65. -/
def pass (g : DGraph N T K) (served : List T) (k : SerTick N T) (σ : Serial N T K) :
    Except PyErr (Serial N T K) :=
  let ready := σ.sched.getReadyTasks g
  if (∀ t ∈ σ.finished, t ∈ served) ∧ (∀ t ∈ served, t ∈ σ.finished) then .ok σ.leave
  else
    match acquireAny g k.chk ready σ.sched with
    | .error e => .error e
    | .ok (skips, none, st) =>
      .ok ({ σ.emit (skips.map .skip) with sched := st }).leave
    | .ok (skips, some n, st) =>
      let t := g.task n
      let σ1 := (({ σ.emit (skips.map .skip) with sched := st }).startTask t).emit [.acquired t]
      if t ∈ σ1.funcs then
        match k.proc n with
        | .raises => .error .userException
        | p =>
          let status : BlockStatus := σ1.statusAfter n p
          let σ2 := { σ1.emit [.call n] with
            marked := if status = BlockStatus.failed then n :: σ1.marked else σ1.marked }
          match σ2.sched.releaseBlock g k.pick n status with
          | .error e => .error e
          | .ok st' =>
            finishPass (({ σ2 with sched := st' }).emit [.release n status, .released t]) t
      else .error .keyError

end Serial
end Verif
