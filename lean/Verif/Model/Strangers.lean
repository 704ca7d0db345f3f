import Verif.Model.Server

/-!
# Model of `daisy/server.py` with requests for tasks that are not in the pipeline

`Scheduler.task_states` is a `defaultdict` (`scheduler.py` 44).  `_handle_acquire_block` looks up the task that a client
asks for (`server.py` 128), so a request for a task that is not in the pipeline adds a state without blocks, and
`_check_all_tasks_completed` goes through all states.  `Model/Server` leaves that out; here every function that is
affected gets the list `extra` of these tasks, in the order in which they were added. -/

namespace Verif

variable {N T K S : Type} [DecidableEq N] [DecidableEq T] [DecidableEq K] [DecidableEq S]

namespace Server

/-- `_check_all_tasks_completed`, `server.py` 187-208.  The keys of `task_states` that were added later come last; their
states have no blocks and so are done (`task_state.py` 26-32), which changes neither `all_done` nor `stop_event`. -/
def checkAllOpen (g : DGraph N T K) (extra : List T) (σ : Server N T K S) : Server N T K S :=
  extra.foldl (fun σ t =>
    if t ∈ σ.finished then σ
    else { (σ.emit [.taskDone t]) with finished := σ.finished ++ [t] }) (σ.checkAll g)

/-- `_release_block`, `server.py` 174-185. -/
def releaseOpen (g : DGraph N T K) (extra : List T) (pick : Nat → Finset N → N) (σ : Server N T K S) (n : N)
    (status : BlockStatus) : Except PyErr (Server N T K S) :=
  match σ.sched.releaseBlock g pick n status with
  | .error e => .error e
  | .ok st' =>
    .ok (((({ σ with sched := st' }).emit [.release n status, .released (g.task n)]).checkAllOpen g extra).recruit g)

/-- `_safe_release_block`, `server.py` 210-221. -/
def safeReleaseOpen (g : DGraph N T K) (extra : List T) (pick : Nat → Finset N → N) (σ : Server N T K S) (n : N)
    (status : BlockStatus) (s : S) : Except PyErr (Server N T K S) :=
  if σ.book.isValidReturn (g.key n) s then
    match σ.releaseOpen g extra pick n status with
    | .error e => .error e
    | .ok σ' =>
      match σ'.book.notifyReturned (g.key n) s with
      | .error e => .error e
      | .ok book => .ok { σ' with book := book }
  else .ok σ

/-- The keys that a message adds to `task_states`: `self.scheduler.task_states[message.task_id]`, `server.py` 128. -/
def addKeys (g : DGraph N T K) (extra : List T) : Msg N T → List T
  | .acquire t => if t ∈ Sched.stateKeys g ∨ t ∈ extra then extra else extra ++ [t]
  | _ => extra

/-- `_handle_client_message`, `server.py` 113-123, with `_handle_release_block` (170-172) and
`_handle_client_exception` (223-239). -/
def handleOpen (g : DGraph N T K) (cfg : SConf T) (extra : List T) (chk : Nat → N → Check)
    (pick : Nat → Finset N → N) (now : Int) (σ : Server N T K S) (m : Msg N T) (s : S) :
    Except PyErr (Server N T K S × List T) :=
  let r : Except PyErr (Server N T K S) :=
    match m with
    | .acquire t => σ.handleAcquire g cfg chk now t s
    | .release n status => σ.safeReleaseOpen g extra pick n status s
    | .blockFailed n w =>
      match σ.safeReleaseOpen g extra pick n .failed s with
      | .error e => .error e
      | .ok σ' => .ok (σ'.emit [.blockFailure n w])
    | .clientException => .error .userException
    | .other => .error .unexpectedMessage
  match r with
  | .error e => .error e
  | .ok σ' => .ok (σ'.checkAllOpen g (addKeys g extra m), addKeys g extra m)

/-- `_handle_client_messages` and `_get_client_message`, `server.py` 83-97 and 105-111. -/
def handleMessagesOpen (g : DGraph N T K) (cfg : SConf T) (extra : List T) (chk : Nat → N → Check)
    (pick : Nat → Finset N → N) (now : Int) (σ : Server N T K S) :
    Recv N T S → Except PyErr (Server N T K S × List T)
  | .msg m s => σ.handleOpen g cfg extra chk pick now m s
  | .closed => .ok (σ, extra)
  | .nothing =>
    match cfg.served.find? (fun t => (σ.pending t).length ≠ 0) with
    | none => .ok (σ, extra)
    | some t =>
      match σ.pending t with
      | [] => .ok (σ, extra)
      | s :: rest =>
        ({ σ with pending := upd σ.pending t rest }).handleOpen g cfg extra chk pick now (.acquire t) s

/-- The loop of `_check_for_lost_blocks`, `server.py` 264-268. -/
def releaseLostOpen (g : DGraph N T K) (extra : List T) (pick : N → Nat → Finset N → N) :
    List N → Server N T K S → Except PyErr (Server N T K S)
  | [], σ => .ok σ
  | n :: ns, σ =>
    match σ.releaseOpen g extra (pick n) n .failed with
    | .error e => .error e
    | .ok σ' => releaseLostOpen g extra pick ns σ'

/-- `_check_for_lost_blocks`, `server.py` 261-268. -/
def checkLostOpen (g : DGraph N T K) (extra : List T) (pick : N → Nat → Finset N → N) (closed : S → Bool)
    (clock : Nat → Int) (σ : Server N T K S) : Except PyErr (Server N T K S) :=
  match σ.book.getLost closed none clock with
  | .error e => .error e
  | .ok (lost, book) => releaseLostOpen g extra pick lost { σ with book := book }

end Server

/-- A server together with the keys that were added to `task_states`. -/
structure OpenServer (N T K S : Type) where
  srv : Server N T K S
  extra : List T

namespace OpenServer

/-- Start of `run_blockwise`, `server.py` 42-58. -/
def init (g : DGraph N T K) : OpenServer N T K S := ⟨Server.init g, []⟩

/-- One iteration of `_event_loop`, `server.py` 74-81. -/
def iteration (g : DGraph N T K) (cfg : SConf T) (x : OpenServer N T K S) (k : Server.Tick N T S) :
    Except PyErr (OpenServer N T K S) :=
  match x.srv.handleMessagesOpen g cfg x.extra k.chk k.pick k.now k.recv with
  | .error e => .error e
  | .ok (σ1, extra) =>
    match σ1.checkLostOpen g extra k.pickLost k.closed k.clock with
    | .error e => .error e
    | .ok σ2 => .ok ⟨if k.late then σ2.checkAllOpen g extra else σ2, extra⟩

end OpenServer
end Verif
