import Verif.Model.Server
import Verif.Model.WorkerPool

/-!
# The server with its message queue and its worker pools

`Server.run_blockwise` (`server.py` 42-81) together with the queues of the `TCPServer` (`tcp_server.py` 27-28,
46-69, 95-128) and the worker pools (`task_worker_pools.py`).  The IO loop and the worker processes run at the same
time as the event loop; what they do is an arbitrary sequence of events between and during its iterations.

Simplifications: exceptions in the queue of the TCP server are `StreamClosedError` (for others see `Model/Tcp`);
the task in the context of a `BlockFailed` message is the task of its block; if both the handling of a message and
the reaction of the worker pools to it would raise, the exception is that of the server. -/

namespace Verif

variable {N T K S : Type}

/-- What worker processes do by themselves. -/
inductive ProcEv (T : Type) where
  /-- the process of a worker ends -/
  | exit (t : T) (id : Nat) (code : Int)
  /-- a worker hands an exception to its pool -/
  | report (t : T) (e : PyErr)
  deriving DecidableEq

/-- What happens outside of the event loop during one iteration. -/
structure LoopEnv (N T S : Type) where
  chk : Nat → N → Check
  pick : Nat → Finset N → N
  now : Int
  clock : Nat → Int
  pickLost : N → Nat → Finset N → N
  late : Bool
  /-- streams that are closed before the server looks for lost blocks -/
  closing : List S
  /-- what processes do before their health is checked -/
  procs : List (ProcEv T)

/-- Everything that can happen. -/
inductive SysEv (N T S : Type) where
  /-- the IO loop puts a message into the queue, `tcp_server.py` 109-110 -/
  | arrive (m : Msg N T) (s : S)
  /-- a stream is closed: its exception is put into the queue, `tcp_server.py` 112-121 -/
  | close (s : S)
  | proc (p : ProcEv T)
  /-- one iteration of the event loop, `server.py` 74-81 -/
  | loop (k : LoopEnv N T S)

/-- The state of everything the server knows. -/
structure Sys (N T K S : Type) where
  srv : Server N T K S
  queue : List (Msg N T × S)
  /-- the number of exceptions in the queue -/
  errs : Nat
  closed : List S
  pools : Pools T

/-- The arguments: `SConf`, `Task.num_workers` of every task, and `max_block_failures`
(`task_worker_pools.py` 11). -/
structure SysConf (T : Type) where
  cfg : SConf T
  num : T → Nat
  maxF : Nat

namespace Sys

variable [DecidableEq N] [DecidableEq T] [DecidableEq K] [DecidableEq S]

/-- What the pools do when the server does something: `recruit_workers`, and `on_block_failure` as an observer. -/
def poolOut (g : DGraph N T K) (c : SysConf T) (ps : Pools T) : Out N T S → Except PyErr (Pools T)
  | .recruit ts => .ok (ps.recruit c.num ts)
  | .blockFailure n w => ps.onBlockFailure c.maxF (g.task n) w
  | _ => .ok ps

/-- The same for several actions. -/
def poolOuts (g : DGraph N T K) (c : SysConf T) : List (Out N T S) → Pools T → Except PyErr (Pools T)
  | [], ps => .ok ps
  | o :: os, ps =>
    match poolOut g c ps o with
    | .error e => .error e
    | .ok ps' => poolOuts g c os ps'

/-- A process does something. -/
def procStep (ps : Pools T) : ProcEv T → Pools T
  | .exit t id code => ps.exit t id code
  | .report t e => ps.report t e

/-- Start of `run_blockwise`, `server.py` 42-58. -/
def init (g : DGraph N T K) (c : SysConf T) : Except PyErr (Sys N T K S) :=
  let srv : Server N T K S := Server.init g
  match poolOuts g c srv.out (Pools.init c.cfg.served) with
  | .error e => .error e
  | .ok ps => .ok ⟨srv, [], 0, [], ps⟩

/-- `TCPServer.get_message`, `tcp_server.py` 46-69: exceptions first. -/
def recv (x : Sys N T K S) : Server.Recv N T S × List (Msg N T × S) × Nat :=
  if 0 < x.errs then (.closed, x.queue, x.errs - 1)
  else
    match x.queue with
    | [] => (.nothing, [], 0)
    | (m, s) :: q => (.msg m s, q, 0)

/-- The streams that are closed when the server looks for lost blocks. -/
def closedThen (x : Sys N T K S) (k : LoopEnv N T S) : List S :=
  x.closed ++ (k.closing.filter (fun s => s ∉ x.closed)).dedup

/-- What the event loop sees in one iteration. -/
def tickOf (x : Sys N T K S) (k : LoopEnv N T S) : Server.Tick N T S where
  recv := x.recv.1
  chk := k.chk
  pick := k.pick
  now := k.now
  closed := fun s => decide (s ∈ x.closedThen k)
  clock := k.clock
  pickLost := k.pickLost
  late := k.late

/-- One iteration of `_event_loop`, `server.py` 74-81. -/
def loop (g : DGraph N T K) (c : SysConf T) (x : Sys N T K S) (k : LoopEnv N T S) :
    Except PyErr (Sys N T K S) :=
  match x.srv.iteration g c.cfg (x.tickOf k) with
  | .error e => .error e
  | .ok srv =>
    match poolOuts g c (srv.out.drop x.srv.out.length) x.pools with
    | .error e => .error e
    | .ok ps =>
      match (k.procs.foldl procStep ps).health with
      | .error e => .error e
      | .ok ps' =>
        .ok ⟨srv, x.recv.2.1, x.recv.2.2 + ((x.closedThen k).length - x.closed.length), x.closedThen k, ps'⟩

/-- One event. -/
def step (g : DGraph N T K) (c : SysConf T) (x : Sys N T K S) : SysEv N T S → Except PyErr (Sys N T K S)
  | .arrive m s => .ok { x with queue := x.queue ++ [(m, s)] }
  | .close s => .ok { x with errs := x.errs + 1, closed := x.closed ++ [s] }
  | .proc p => .ok { x with pools := procStep x.pools p }
  | .loop k => x.loop g c k

end Sys
end Verif
