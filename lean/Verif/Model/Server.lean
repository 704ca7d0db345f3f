import Verif.Model.Bookkeeper
import Verif.Model.Scheduler

/-!
# Model of `daisy/server.py`

The server is a state machine driven by the messages it gets.  Everything it does that can be seen
from outside (messages sent, calls of the scheduler's `release_block`, notifications of observers,
recruitment of workers) is appended to the log `out`.

Not modelled here: `init_callback_fn` raising (see `Model/Callback`); `worker_pools.check_worker_health()` (see
`Model/WorkerPool`), which may raise exceptions of worker processes; the TCP layer (see
`Model/Framing`). -/

namespace Verif

/-- What the server does, as seen from outside. -/
inductive Out (N T S : Type) where
  /-- the scheduler skipped a block because its check function accepted it -/
  | skip (n : N)
  /-- `SendBlock(block)` -/
  | send (s : S) (n : N)
  /-- `RequestShutdown()` -/
  | shutdown (s : S) (t : T)
  /-- `scheduler.release_block(block)` -/
  | release (n : N) (status : BlockStatus)
  /-- `notify_task_start` -/
  | taskStart (t : T)
  /-- `task.init_callback_fn(...)` -/
  | callback (t : T)
  /-- `notify_task_done` -/
  | taskDone (t : T)
  /-- `notify_acquire_block` -/
  | acquired (t : T)
  /-- `notify_release_block` -/
  | released (t : T)
  /-- `notify_block_failure`, with the id of the worker -/
  | blockFailure (n : N) (worker : Nat)
  /-- `worker_pools.recruit_workers(ready_tasks)` -/
  | recruit (ts : List T)
  deriving DecidableEq

/-- Messages from clients, `messages/`. -/
inductive Msg (N T : Type) where
  | acquire (t : T)
  | release (n : N) (status : BlockStatus)
  /-- `BlockFailed(exception, block, context)`; of the context only the worker id is kept -/
  | blockFailed (n : N) (worker : Nat)
  /-- any other `ClientException` -/
  | clientException
  /-- any other message -/
  | other
  deriving DecidableEq

/-- State of a `Server` while it runs, `server.py` 28-56. -/
structure Server (N T K S : Type) where
  sched : Sched N T K
  book : Book N K S
  started : List T
  finished : List T
  allDone : Bool
  /-- `stop_event.is_set()` -/
  stop : Bool
  /-- `pending_requests`: the streams of the delayed `AcquireBlock` messages of each task -/
  pending : T → List S
  out : List (Out N T S)

/-- What the server needs besides the dependency graph: the `tasks` argument of `run_blockwise` (the
keys of `pending_requests`), and `Task.timeout` of every task (`task.py` 161), which the server
never looks at. -/
structure SConf (T : Type) where
  served : List T
  timeout : T → Option Int

namespace Server

variable {N T K S : Type} [DecidableEq N] [DecidableEq T] [DecidableEq K] [DecidableEq S]

/-- Append to the log. -/
def emit (σ : Server N T K S) (os : List (Out N T S)) : Server N T K S := { σ with out := σ.out ++ os }

/-- `_recruit_workers`, `server.py` 241-259. -/
def recruit (g : DGraph N T K) (σ : Server N T K S) : Server N T K S :=
  let ready := σ.sched.getReadyTasks g
  let σ' := ready.foldl (fun σ t =>
    if t ∈ σ.started then σ
    else { (σ.emit [.taskStart t, .callback t]) with started := σ.started ++ [t] }) σ
  σ'.emit [.recruit ready]

/-- The order in which `_check_all_tasks_completed` goes through the tasks, `server.py` 191-193: the order of the
keys of `task_states`.  Root tasks are tasks (`DGraph.OK.rootTasks_mem`), so these are the tasks. -/
def checked (g : DGraph N T K) : List T := (Sched.stateKeys g).filter (fun t => t ∈ g.tasks)

/-- `_check_all_tasks_completed`, `server.py` 187-208.  Simplification: `task_states` is a `defaultdict`, and a request
for a task that is not in the pipeline adds an entry without blocks (`server.py` 128), which counts as done; that such
a task is announced as done once is not represented here but in `Model/Strangers`. -/
def checkAll (g : DGraph N T K) (σ : Server N T K S) : Server N T K S :=
  let σ' := (checked g).foldl (fun σ t =>
    if (σ.sched.states t).isDone then
      if t ∈ σ.finished then σ
      else { (σ.emit [.taskDone t]) with finished := σ.finished ++ [t] }
    else { σ with allDone := false }) { σ with allDone := true }
  if σ'.allDone then { σ' with stop := true } else σ'

/-- Start of `run_blockwise`, `server.py` 42-58: a new scheduler, empty bookkeeping, workers are
recruited. -/
def init (g : DGraph N T K) : Server N T K S :=
  recruit g ⟨Sched.init g, [], [], [], false, false, fun _ => [], []⟩

/-- `_handle_acquire_block`, `server.py` 125-168.  `chk` is the behaviour of the check function during
this call, `now` the time. -/
def handleAcquire (g : DGraph N T K) (cfg : SConf T) (chk : Nat → N → Check) (now : Int)
    (σ : Server N T K S) (t : T) (s : S) : Except PyErr (Server N T K S) :=
  match σ.sched.acquireBlock g chk t with
  | .error e => .error e
  | .ok (skips, r, st') =>
    let σ1 := ({ σ with sched := st' }).emit (skips.map .skip)
    match r with
    | none =>
      if (st'.states t).ready ≠ 0 then .error .assertion
      else if (st'.states t).pending = 0 then .ok ((σ1.emit [.shutdown s t]).recruit g)
      else if t ∈ cfg.served then .ok { σ1 with pending := upd σ1.pending t (σ1.pending t ++ [s]) }
      else .error .keyError
    | some n =>
      match σ1.book.notifySent (g.key n) n s now with
      | .error e => .error e
      | .ok book => .ok (({ σ1 with book := book }).emit [.send s n, .acquired t])

/-- `_release_block`, `server.py` 174-185. -/
def release (g : DGraph N T K) (pick : Nat → Finset N → N) (σ : Server N T K S) (n : N)
    (status : BlockStatus) : Except PyErr (Server N T K S) :=
  match σ.sched.releaseBlock g pick n status with
  | .error e => .error e
  | .ok st' =>
    .ok (((({ σ with sched := st' }).emit [.release n status, .released (g.task n)]).checkAll g).recruit g)

/-- `_safe_release_block`, `server.py` 210-221. -/
def safeRelease (g : DGraph N T K) (pick : Nat → Finset N → N) (σ : Server N T K S) (n : N)
    (status : BlockStatus) (s : S) : Except PyErr (Server N T K S) :=
  if σ.book.isValidReturn (g.key n) s then
    match σ.release g pick n status with
    | .error e => .error e
    | .ok σ' =>
      match σ'.book.notifyReturned (g.key n) s with
      | .error e => .error e
      | .ok book => .ok { σ' with book := book }
  else .ok σ

/-- `_handle_client_message`, `server.py` 113-123, with `_handle_release_block` (170-172) and
`_handle_client_exception` (223-239). -/
def handle (g : DGraph N T K) (cfg : SConf T) (chk : Nat → N → Check)
    (pick : Nat → Finset N → N) (now : Int) (σ : Server N T K S) (m : Msg N T) (s : S) :
    Except PyErr (Server N T K S) :=
  let r : Except PyErr (Server N T K S) :=
    match m with
    | .acquire t => σ.handleAcquire g cfg chk now t s
    | .release n status => σ.safeRelease g pick n status s
    | .blockFailed n w =>
      match σ.safeRelease g pick n .failed s with
      | .error e => .error e
      | .ok σ' => .ok (σ'.emit [.blockFailure n w])
    | .clientException => .error .userException
    | .other => .error .unexpectedMessage
  match r with
  | .error e => .error e
  | .ok σ' => .ok (σ'.checkAll g)

/-- What `tcp_server.get_message(timeout=0.1)` does: a message of a client, nothing, or
`StreamClosedError`. -/
inductive Recv (N T S : Type) where
  | msg (m : Msg N T) (s : S)
  | nothing
  | closed

/-- `_handle_client_messages` and `_get_client_message`, `server.py` 83-97 and 105-111: if there is no
message, the first delayed request is taken out of its queue and handled again. -/
def handleMessages (g : DGraph N T K) (cfg : SConf T) (chk : Nat → N → Check)
    (pick : Nat → Finset N → N) (now : Int) (σ : Server N T K S) :
    Recv N T S → Except PyErr (Server N T K S)
  | .msg m s => σ.handle g cfg chk pick now m s
  | .closed => .ok σ
  | .nothing =>
    match cfg.served.find? (fun t => (σ.pending t).length ≠ 0) with
    | none => .ok σ
    | some t =>
      match σ.pending t with
      | [] => .ok σ
      | s :: rest =>
        ({ σ with pending := upd σ.pending t rest }).handle g cfg chk pick now (.acquire t) s

/-- The loop of `_check_for_lost_blocks`, `server.py` 264-268. -/
def releaseLost (g : DGraph N T K) (pick : N → Nat → Finset N → N) :
    List N → Server N T K S → Except PyErr (Server N T K S)
  | [], σ => .ok σ
  | n :: ns, σ =>
    match σ.release g (pick n) n .failed with
    | .error e => .error e
    | .ok σ' => releaseLost g pick ns σ'

/-- `_check_for_lost_blocks`, `server.py` 261-268.  The bookkeeper is created without a timeout
(`server.py` 48). -/
def checkLost (g : DGraph N T K) (pick : N → Nat → Finset N → N) (closed : S → Bool)
    (clock : Nat → Int) (σ : Server N T K S) : Except PyErr (Server N T K S) :=
  match σ.book.getLost closed none clock with
  | .error e => .error e
  | .ok (lost, book) => releaseLost g pick lost { σ with book := book }

/-- What happens outside the server during one iteration of the event loop. -/
structure Tick (N T S : Type) where
  recv : Recv N T S
  chk : Nat → N → Check
  pick : Nat → Finset N → N
  now : Int
  closed : S → Bool
  clock : Nat → Int
  pickLost : N → Nat → Finset N → N
  /-- more than a second has passed since the last check -/
  late : Bool

/-- One iteration of `_event_loop`, `server.py` 74-81. -/
def iteration (g : DGraph N T K) (cfg : SConf T) (σ : Server N T K S) (k : Tick N T S) :
    Except PyErr (Server N T K S) :=
  match σ.handleMessages g cfg k.chk k.pick k.now k.recv with
  | .error e => .error e
  | .ok σ1 =>
    match σ1.checkLost g k.pickLost k.closed k.clock with
    | .error e => .error e
    | .ok σ2 => .ok (if k.late then σ2.checkAll g else σ2)

/-- `run_blockwise` returns the task states; `_run_blockwise` (`convenience.py` 56-60) returns whether
all of them are done. -/
def result (g : DGraph N T K) (σ : Server N T K S) : Bool :=
  g.tasks.all (fun t => (σ.sched.states t).isDone)

end Server
end Verif
