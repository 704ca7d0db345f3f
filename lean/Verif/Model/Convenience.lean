import Verif.Model.SerialServer
import Verif.Model.Server

/-! # What `run_blockwise` returns, and calling it again on the same server -/

namespace Verif

variable {N T K S : Type} [DecidableEq N] [DecidableEq T] [DecidableEq K] [DecidableEq S]

/-- `return scheduler.task_states`, `serial_server.py` 68, which `run_blockwise(tasks, multiprocessing=False)` passes
on, `convenience.py` 38-41: a dict from task ids to task states. -/
def Serial.returned (g : DGraph N T K) (σ : Serial N T K) : List (T × TState) :=
  (Sched.stateKeys g).map (fun t => (t, σ.sched.states t))

/-- `bool(d)` of a dict in Python. -/
def truthy {α : Type} (d : List α) : Bool := !d.isEmpty

namespace Server

/-- Start of `run_blockwise`, `server.py` 42-58, on a `Server` object whose stop event is or is not set: every other
attribute is assigned anew; `stop_event` is assigned in the constructor only (28-34) and nothing clears it. -/
def start (g : DGraph N T K) (stop : Bool) : Server N T K S :=
  recruit g ⟨Sched.init g, [], [], [], false, stop, fun _ => [], []⟩

/-- `_event_loop`, `server.py` 72-81, as far as the given iterations go. -/
def eventLoop (g : DGraph N T K) (cfg : SConf T) :
    List (Tick N T S) → Server N T K S → Except PyErr (Server N T K S)
  | [], σ => .ok σ
  | k :: ks, σ =>
    if σ.stop then .ok σ
    else match σ.iteration g cfg k with
      | .error e => .error e
      | .ok σ' => eventLoop g cfg ks σ'

/-- The thread of `_run_blockwise` while the main thread waits in `run_blockwise`, `convenience.py` 43-53: a
`KeyboardInterrupt` there sets the stop event (51).  The flag of an iteration says whether that happens between this
test of the event, `server.py` 74, and the next one; nothing else in the loop looks at the event.  A second
`KeyboardInterrupt` is not modelled (it is not caught). -/
def interruptLoop (g : DGraph N T K) (cfg : SConf T) :
    List (Tick N T S × Bool) → Server N T K S → Except PyErr (Server N T K S)
  | [], σ => .ok σ
  | (k, ki) :: ks, σ =>
    if σ.stop then .ok σ
    else match σ.iteration g cfg k with
      | .error e => .error e
      | .ok σ' => interruptLoop g cfg ks (if ki then { σ' with stop := true } else σ')

end Server
end Verif
