import Verif.Model.Server

/-!
# Model of the event loop of `daisy/server.py`, with the thread of the IO loop between its statements

`Model/Server` takes from outside, for every iteration, what `get_message` returns and which streams are closed.  Here
both are computed: `TCPServer.get_message` (`tcp_server.py` 46-69, 122-128) and `TCPStream.closed` (`tcp_stream.py`
58-62), called by `get_lost_blocks` for one block after the other (`block_bookkeeper.py` 71-80), run in the main thread,
and `handle_stream` (`tcp_server.py` 76-120), `_get_message` and `_send_message` (`tcp_stream.py` 64-108) in the thread
of the IO loop.  The threads are interleaved at every access to something that both use: the two queues of the
`TCPServer`, `TCPStream.stream`, and whether the tornado stream is closed.

Simplifications: the operations of queues are atomic, as is reading or assigning an attribute (CPython); a stream that is
not connected yet is one from which nothing has come; `send_message` (`tcp_stream.py` 29-47), which the main thread calls
in between, reads `TCPStream.stream` as well, but whether it raises `StreamClosedError` makes no difference to the server
(`server.py` 99-103), so this access is left out; worker pools are those of `Model/System`. -/

namespace Verif

variable {N T K S : Type}

/-- Exceptions in the queue of the `TCPServer`. -/
inductive TcpExc where
  /-- `StreamClosedError` -/
  | closed
  | other (e : PyErr)
  deriving DecidableEq

/-- Where `handle_stream` is, `tcp_server.py` 95-120. -/
inductive HandlePc where
  /-- waiting for `_get_message`, line 97 -/
  | reading
  /-- an exception was caught in line 112, before line 114 -/
  | raising (e : TcpExc)
  /-- nothing is put into the queues any more -/
  | over
  deriving DecidableEq

/-- What the threads know about a stream.  `inner`: `TCPStream.stream` is not `None`; `dead`: the tornado stream is
closed. -/
structure Link where
  inner : Bool
  dead : Bool
  pc : HandlePc
  deriving DecidableEq

/-- Steps of the IO loop. -/
inductive SrvIo (N T S : Type) where
  /-- `_get_message` returns a message, which is put into the queue, `tcp_server.py` 108-109 -/
  | arrive (m : Msg N T) (s : S)
  /-- tornado closes the stream -/
  | dies (s : S)
  /-- `_get_message` finds that there is no stream any more, `tcp_stream.py` 86-87, or notices that it is closed,
  101-103 -/
  | lost (s : S)
  /-- `_get_message` has read the size of a message, `tcp_stream.py` 90, and `self.stream` has become `None` in the
  meantime: line 94 raises `AttributeError` -/
  | half (s : S)
  /-- `_get_message` raises anything else: `struct.error`, `AssertionError`, what unpickling raises -/
  | bad (s : S) (e : PyErr)
  /-- `_get_message` returns `NotifyClientDisconnect`, `tcp_server.py` 99-105 -/
  | bye (s : S)
  /-- `_send_message` notices that the stream is closed, `tcp_stream.py` 81-83 -/
  | writeFails (s : S)
  /-- `self.exception_queue.put(e)`, `tcp_server.py` 114 -/
  | put (s : S)

/-- The server, the queues of its `TCPServer` and its streams. -/
structure FineSrv (N T K S : Type) where
  srv : Server N T K S
  queue : List (Msg N T × S)
  excs : List TcpExc
  links : S → Link

namespace FineSrv

variable [DecidableEq S]

/-- Change what is known about a stream. -/
def setLink (x : FineSrv N T K S) (s : S) (l : Link) : FineSrv N T K S := { x with links := upd x.links s l }

/-- One step of the IO loop; a step that is not possible does nothing.  `StreamClosedError` is raised only by closed
streams, or if there is none. -/
def ioStep (x : FineSrv N T K S) : SrvIo N T S → FineSrv N T K S
  | .arrive m s => if (x.links s).pc = .reading then { x with queue := x.queue ++ [(m, s)] } else x
  | .dies s => x.setLink s { x.links s with dead := true }
  | .lost s =>
    if (x.links s).pc = .reading ∧ ((x.links s).dead = true ∨ (x.links s).inner = false) then
      x.setLink s { x.links s with inner := false, pc := .raising .closed }
    else x
  | .half s =>
    if (x.links s).pc = .reading ∧ (x.links s).inner = false then
      x.setLink s { x.links s with pc := .raising (.other .attributeError) }
    else x
  | .bad s e =>
    if (x.links s).pc = .reading then x.setLink s { x.links s with pc := .raising (.other e) } else x
  | .bye s =>
    if (x.links s).pc = .reading then
      if (x.links s).inner then x.setLink s { x.links s with pc := .over }
      else x.setLink s { x.links s with pc := .raising .closed }
    else x
  | .writeFails s => if (x.links s).dead then x.setLink s { x.links s with inner := false } else x
  | .put s =>
    match (x.links s).pc with
    | .raising e => { x.setLink s { x.links s with pc := .over } with excs := x.excs ++ [e] }
    | _ => x

/-- Several steps of the IO loop. -/
def ioRun (x : FineSrv N T K S) (evs : List (SrvIo N T S)) : FineSrv N T K S := evs.foldl ioStep x

/-- `TCPServer.get_message`, `tcp_server.py` 46-69 and 122-128, as `_get_client_message` (`server.py` 83-87) sees it:
`StreamClosedError` is caught, other exceptions are not.  The IO loop does `io0` before line 124 and `io1` before line 66;
after an exception it does `io1` before whatever comes next. -/
def getMessage (x : FineSrv N T K S) (io0 io1 : List (SrvIo N T S)) :
    Except PyErr (Server.Recv N T S × FineSrv N T K S) :=
  let x0 := x.ioRun io0
  match x0.excs with
  | .other e :: _ => .error e
  | .closed :: r => .ok (.closed, ({ x0 with excs := r }).ioRun io1)
  | [] =>
    let x1 := x0.ioRun io1
    match x1.queue with
    | [] => .ok (.nothing, x1)
    | (m, s) :: q => .ok (.msg m s, { x1 with queue := q })

/-- What the IO loop does before `self.stream` is read in line 60, before it is read in line 62, and before tornado's
`closed` is called there (`tcp_stream.py`). -/
structure Look (N T S : Type) where
  a : List (SrvIo N T S)
  b : List (SrvIo N T S)
  c : List (SrvIo N T S)

/-- `TCPStream.closed`, `tcp_stream.py` 58-62. -/
def isClosed (x : FineSrv N T K S) (s : S) (l : Look N T S) : Except PyErr (Bool × FineSrv N T K S) :=
  let x1 := x.ioRun l.a
  if (x1.links s).inner = false then .ok (true, (x1.ioRun l.b).ioRun l.c)
  else
    let x2 := x1.ioRun l.b
    if (x2.links s).inner = false then .error .attributeError
    else
      let x3 := x2.ioRun l.c
      .ok ((x3.links s).dead, x3)

/-- First loop of `get_lost_blocks`, `block_bookkeeper.py` 71-80, without a timeout (`server.py` 48); `look i` is what the
IO loop does while block `i` is looked at. -/
def lostIds (look : Nat → Look N T S) : Nat → Book N K S → FineSrv N T K S →
    Except PyErr (List K × FineSrv N T K S)
  | _, [], x => .ok ([], x)
  | i, (k, log) :: rest, x =>
    match x.isClosed log.stream (look i) with
    | .error e => .error e
    | .ok (c, x') =>
      match lostIds look (i + 1) rest x' with
      | .error e => .error e
      | .ok (ks, x'') => .ok (if c then k :: ks else ks, x'')

/-- What happens outside of the main thread during one iteration. -/
structure FineTick (N T S : Type) where
  io0 : List (SrvIo N T S)
  io1 : List (SrvIo N T S)
  look : Nat → Look N T S
  chk : Nat → N → Check
  pick : Nat → Finset N → N
  now : Int
  pickLost : N → Nat → Finset N → N
  /-- more than a second has passed since the last check -/
  late : Bool

variable [DecidableEq N] [DecidableEq T] [DecidableEq K]

/-- Start of `run_blockwise`, `server.py` 42-58. -/
def init (g : DGraph N T K) : FineSrv N T K S := ⟨Server.init g, [], [], fun _ => ⟨true, false, .reading⟩⟩

/-- `_check_for_lost_blocks`, `server.py` 261-268. -/
def checkLost (g : DGraph N T K) (x : FineSrv N T K S) (look : Nat → Look N T S) (pick : N → Nat → Finset N → N) :
    Except PyErr (FineSrv N T K S) :=
  match x.lostIds look 0 x.srv.book with
  | .error e => .error e
  | .ok (ks, x1) =>
    match Book.popLost ks x.srv.book [] with
    | .error e => .error e
    | .ok (lost, book) =>
      match Server.releaseLost g pick lost { x.srv with book := book } with
      | .error e => .error e
      | .ok σ => .ok { x1 with srv := σ }

/-- One iteration of `_event_loop`, `server.py` 74-81. -/
def iteration (g : DGraph N T K) (cfg : SConf T) (x : FineSrv N T K S) (k : FineTick N T S) :
    Except PyErr (FineSrv N T K S) :=
  match x.getMessage k.io0 k.io1 with
  | .error e => .error e
  | .ok (r, x1) =>
    match x1.srv.handleMessages g cfg k.chk k.pick k.now r with
    | .error e => .error e
    | .ok σ1 =>
      match ({ x1 with srv := σ1 } : FineSrv N T K S).checkLost g k.look k.pickLost with
      | .error e => .error e
      | .ok x2 => .ok (if k.late then { x2 with srv := x2.srv.checkAll g } else x2)

end FineSrv
end Verif
