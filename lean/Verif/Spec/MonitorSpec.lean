import Verif.Spec.SystemSpec
import Verif.Spec.SerialSpec
import Verif.Model.Monitor

/-! # What the server tells the progress monitor -/

namespace Verif.Spec

open Verif

variable {N T K S : Type} [DecidableEq N] [DecidableEq T] [DecidableEq K] [DecidableEq S]

/-- Clients are workers: requests for a task come only after the task was started, or while it has a running worker,
and failures are reported only by workers of the task of the block, or of blocks that were sent out. -/
def FromWorkers (g : DGraph N T K) (x : Sys N T K S) : SysEv N T S → Prop
  | .arrive (.acquire t) _ => .taskStart t ∈ x.srv.out ∨ ∃ id, Running x.pools t id
  | .arrive (.blockFailed n _) _ => (∃ s, .send s n ∈ x.srv.out) ∨ ∃ id, Running x.pools (g.task n) id
  | _ => True

/-- The notification of the monitor that an action of the server is (`server.py`, `server_observer.py` 29-60).
`name` is the id of a task as a string, `s` the state that is handed over. -/
def monEv (g : DGraph N T K) (name : T → String) (s : TState) : Out N T S → Option (MonEv N)
  | .taskStart t => some (.start (name t) s)
  | .acquired t => some (.acquire (name t) s)
  | .released t => some (.release (name t) s)
  | .taskDone t => some (.done (name t) s)
  | .blockFailure n w => some (.failure (name (g.task n)) n w)
  | _ => none

/-- The notifications of a run; `st i` is the state that is handed over with the `i`-th action. -/
def monEvs (g : DGraph N T K) (name : T → String) (st : Nat → TState) (out : List (Out N T S)) : List (MonEv N) :=
  out.zipIdx.filterMap (fun e => monEv g name (st e.2) e.1)

/-- The same for an action of the serial server (`serial_server.py`). -/
def serMonEv (name : T → String) (s : TState) : SerOut N T → Option (MonEv N)
  | .taskStart t => some (.start (name t) s)
  | .acquired t => some (.acquire (name t) s)
  | .released t => some (.release (name t) s)
  | .taskDone t => some (.done (name t) s)
  | _ => none

/-- The notifications of a run of the serial server. -/
def serMonEvs (name : T → String) (st : Nat → TState) (out : List (SerOut N T)) : List (MonEv N) :=
  out.zipIdx.filterMap (fun e => serMonEv name (st e.2) e.1)

/-- The failures of blocks of task `t` that were reported, in order, with the ids of the workers. -/
def reported (g : DGraph N T K) (t : T) (out : List (Out N T S)) : List (N × Nat) :=
  out.filterMap (fun o => match o with
    | .blockFailure n w => if g.task n = t then some (n, w) else none
    | _ => none)

end Verif.Spec
