import Verif.Model.ServerThreads

/-!
# Model of a `Server` object of `daisy/server.py` that is used for more than one run

`run_blockwise` (`server.py` 41-70) makes the scheduler, the pools, the bookkeeper, the sets of tasks and the delayed
requests anew.  The `TCPServer` with its queues and streams and the stop event belong to the object (29-36).  So do the
observers, which include the pools of earlier runs (`Model/Observer`). -/

namespace Verif.FineSrv

variable {N T K S : Type} [DecidableEq S] [DecidableEq N] [DecidableEq T] [DecidableEq K]

/-- `TCPServer.disconnect`, `tcp_server.py` 71-77, with `TCPStream.close` (`tcp_stream.py` 49-56), at the end of
`run_blockwise` (`server.py` 65); `conn` are the streams in `client_streams`. -/
def disconnect (conn : S → Bool) (x : FineSrv N T K S) : FineSrv N T K S :=
  { x with links := fun s => if conn s then { x.links s with inner := false, dead := true } else x.links s }

/-- Start of another `run_blockwise` of the same object, `server.py` 41-58. -/
def again (g : DGraph N T K) (x : FineSrv N T K S) : FineSrv N T K S :=
  { x with srv := { Server.init g with stop := x.srv.stop } }

/-- `stop_event.clear()`, which daisy never calls. -/
def clear (x : FineSrv N T K S) : FineSrv N T K S := { x with srv := { x.srv with stop := false } }

end Verif.FineSrv
