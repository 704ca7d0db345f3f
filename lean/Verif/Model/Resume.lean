import Verif.Model.Server
import Verif.Model.SerialServer

/-! # `run_blockwise` with the scheduler of an earlier run -/

namespace Verif

variable {N T K S : Type} [DecidableEq N] [DecidableEq T] [DecidableEq K] [DecidableEq S]

/-- The beginning of `run_blockwise(tasks, scheduler)` with the scheduler of an earlier run, `server.py` 41-58: everything
but the scheduler is new.  The stop event is assumed not to be set: it is that of a new server, or of one whose earlier
run was interrupted (a server whose run came to its end does nothing in a second run).  The log is continued, so that it
covers both runs. -/
def Server.resume (g : DGraph N T K) (σ : Server N T K S) : Server N T K S :=
  Server.recruit g ⟨σ.sched, [], [], [], false, false, fun _ => [], σ.out⟩

/-- The beginning of `SerialServer.run_blockwise(tasks, scheduler)` with a scheduler that an earlier run `σ` left in the
state `sched`, `serial_server.py` 15-24: everything is new, but objects of blocks that are to be retried are in the
scheduler and keep their status.  The log is that of the second run alone. -/
def Serial.resume (served : List T) (σ : Serial N T K) (sched : Sched N T K) : Serial N T K :=
  { sched := sched, started := [], finished := [], funcs := served, marked := σ.marked, out := [], ended := false }

end Verif
