import Verif.Model.Block

/-!
# Model of `daisy/client.py` and `daisy/tcp/tcp_client.py`

`Client.acquire_block` is a context manager: `enter` is the code up to the `yield`, `leave` the code after it.
The IO loop runs in another thread; what it does to the client between two steps of the main thread is an
arbitrary list of `NetEv`.  Sending is asynchronous: `outbox` are the messages handed to the IO loop.  Not
modelled: the arguments of `StreamClosedError`, logging.  Connecting (`__init__`, `connect`) and the races in which the
connection is lost during a call are in `Model/TcpThreads`. -/

namespace Verif

/-- Exceptions that come up in a client.  `exception` is any other subclass of `Exception`, `base` any
`BaseException` that is not an `Exception`, like `KeyboardInterrupt`. -/
inductive ClientErr where
  | streamClosed
  | notConnected
  | unexpectedMessage
  | exception (name : String)
  | base (name : String)
  deriving DecidableEq, Repr

/-- `isinstance(e, Exception)`. -/
def ClientErr.isException : ClientErr → Bool
  | .base _ => false
  | _ => true

/-- The value of `block.status`: user code can assign anything. -/
inductive StatusVal where
  | enum (s : BlockStatus)
  | other (name : String)
  deriving DecidableEq, Repr

/-- Messages of the server to a client. -/
inductive ServerMsg (B : Type) where
  | sendBlock (b : B)
  | requestShutdown
  | other
  deriving DecidableEq

/-- Messages of a client to the server. -/
inductive ClientMsg (B T : Type) where
  | acquire (t : T)
  | blockFailed (b : B) (e : ClientErr)
  | release (b : B) (status : StatusVal)
  | disconnect
  deriving DecidableEq

/-- `TCPClient`, `tcp_client.py` 25-38.  `connected`: `self.stream is not None`; `writable`: the tornado stream in
it is not `None` (`tcp_stream.py` 44). -/
structure TcpClient (B T : Type) where
  excs : List ClientErr
  connected : Bool
  writable : Bool
  inbox : List (ServerMsg B)
  outbox : List (ClientMsg B T)
  deriving DecidableEq

/-- What the IO loop does in the background. -/
inductive NetEv (B : Type) where
  /-- `_receive` gets a message, `tcp_client.py` 155-156 -/
  | arrives (m : ServerMsg B)
  /-- `_receive` gets `AckClientDisconnect`, 144-153 -/
  | ack
  /-- `_receive` gets an exception, 158-167 -/
  | fails (e : ClientErr)
  /-- writing to the stream fails, `tcp_stream.py` 81-83 -/
  | writeFails
  deriving DecidableEq

namespace TcpClient

variable {B T : Type}

/-- One step of the IO loop.  `_receive` ends when the connection does. -/
def net (c : TcpClient B T) : NetEv B → TcpClient B T
  | .arrives m => if c.connected then { c with inbox := c.inbox ++ [m] } else c
  | .ack => { c with connected := false }
  | .fails e => if c.connected then { c with excs := c.excs ++ [e], connected := false } else c
  | .writeFails => { c with writable := false }

/-- `_check_for_errors`, `tcp_client.py` 116-121.  (The exception is raised inside of a `try` statement that catches
`queue.Empty`; the exceptions of `NetEv.fails` are not that one.) -/
def checkErrors (c : TcpClient B T) : Except (ClientErr × TcpClient B T) Unit :=
  match c.excs with
  | [] => .ok ()
  | e :: r => .error (e, { c with excs := r })

/-- `send_message`, `tcp_client.py` 76-91, and `TCPStream.send_message`, `tcp_stream.py` 29-47. -/
def send (c : TcpClient B T) (m : ClientMsg B T) : Except (ClientErr × TcpClient B T) (TcpClient B T) :=
  match c.checkErrors with
  | .error x => .error x
  | .ok () =>
    if !c.connected then .error (.notConnected, c)
    else if !c.writable then .error (.streamClosed, c)
    else .ok { c with outbox := c.outbox ++ [m] }

/-- `get_message`, `tcp_client.py` 93-114; `none` after the timeout. -/
def getMessage (c : TcpClient B T) :
    Except (ClientErr × TcpClient B T) (Option (ServerMsg B) × TcpClient B T) :=
  match c.checkErrors with
  | .error x => .error x
  | .ok () =>
    if !c.connected then .error (.notConnected, c)
    else match c.inbox with
      | [] => .ok (none, c)
      | m :: r => .ok (some m, { c with inbox := r })

/-- The waiting loop of `disconnect`, `tcp_client.py` 67-68. -/
def awaitDisconnect : TcpClient B T → List (List (NetEv B)) → Option (TcpClient B T)
  | c, [] => if c.connected then none else some c
  | c, evs :: envs => if c.connected then awaitDisconnect (evs.foldl net c) envs else some c

/-- `disconnect`, `tcp_client.py` 57-70.  `none`: still waiting. -/
def disconnect (c : TcpClient B T) (envs : List (List (NetEv B))) :
    Option (Except (ClientErr × TcpClient B T) (TcpClient B T)) :=
  if !c.connected then some (.ok c)
  else if !c.writable then some (.error (.streamClosed, c))
  else (awaitDisconnect { c with outbox := c.outbox ++ [.disconnect] } envs).map .ok

end TcpClient

/-- How the code of `acquire_block` before the `yield` ends. -/
inductive Entered (B T : Type) where
  /-- an exception is raised at the `with` statement -/
  | raises (e : ClientErr) (c : TcpClient B T)
  /-- the client is still waiting -/
  | waiting
  /-- the `with` body is entered with `None` -/
  | none (c : TcpClient B T)
  /-- the `with` body is entered with a block -/
  | block (b : B) (c : TcpClient B T)
  deriving DecidableEq

/-- How the `with` body ends: it leaves a value in `block.status`, and may raise. -/
structure BodyEnd where
  status : StatusVal
  raised : Option ClientErr
  deriving DecidableEq

namespace Client

variable {B T : Type}

/-- `while message is None: message = self.tcp_client.get_message(timeout=0.1)`, `client.py` 73-80, then the rest
up to the `yield`, 81-86 and 102-107.  Every call of `get_message` is preceded by activity of the IO loop. -/
def await : TcpClient B T → List (List (NetEv B)) → Entered B T
  | _, [] => .waiting
  | c, evs :: envs =>
    match (evs.foldl TcpClient.net c).getMessage with
    | .error (.streamClosed, c') => .none c'
    | .error (e, c') => .raises e c'
    | .ok (none, c') => await c' envs
    | .ok (some (.sendBlock b), c') => .block b c'
    | .ok (some .requestShutdown, c') =>
      match c'.disconnect envs with
      | none => .waiting
      | some (.error (e, c'')) => .raises e c''
      | some (.ok c'') => .none c''
    | .ok (some .other, c') => .raises .unexpectedMessage c'

/-- `acquire_block` up to the `yield`, `client.py` 70-86 and 102-107. -/
def enter (t : T) (c : TcpClient B T) (envs : List (List (NetEv B))) : Entered B T :=
  match c.send (.acquire t) with
  | .error (e, c') => .raises e c'
  | .ok c' => await c' envs

/-- The `finally` clause, `client.py` 95-101, with `release_block`, 109-111.  `pending` is the exception that is
on its way. -/
def finish (c : TcpClient B T) (b : B) (status : StatusVal) (pending : Option ClientErr) :
    Option ClientErr × TcpClient B T :=
  let status' := if status ≠ .enum .success then .enum .failed else status
  match c.send (.release b status') with
  | .error (e, c') => (some e, c')
  | .ok c' => (pending, c')

/-- `acquire_block` after the `yield` of a block, `client.py` 87-101.  `evs` and `evs'` is what the IO loop does
before the first and the second message is sent.  The first result is the exception that leaves the `with`
statement. -/
def leave (c : TcpClient B T) (b : B) (body : BodyEnd) (evs evs' : List (NetEv B)) :
    Option ClientErr × TcpClient B T :=
  match body.raised with
  | none =>
    let status := if body.status = .enum .processing then .enum .success else body.status
    finish (evs.foldl TcpClient.net c) b status none
  | some e =>
    if e.isException then
      match (evs.foldl TcpClient.net c).send (.blockFailed b e) with
      | .error (e', c') => finish (evs'.foldl TcpClient.net c') b (.enum .failed) (some e')
      | .ok c' => finish (evs'.foldl TcpClient.net c') b (.enum .failed) none
    else finish (evs.foldl TcpClient.net c) b body.status (some e)

/-- `acquire_block` after the `yield` of `None`: an exception of the body is not handled. -/
def leaveNone (c : TcpClient B T) (raised : Option ClientErr) : Option ClientErr × TcpClient B T := (raised, c)

end Client

/-- How the process of a worker ends: its exit code, and the exception put into the error queue. -/
structure WorkerEnd where
  code : Int
  reported : Option ClientErr
  deriving DecidableEq

/-- `Worker._spawn_wrapper`, `worker.py` 86-113, for a spawn function that ends with `raised`.  The exit code
of a process whose target raises is 1; for `SystemExit` it is `exitArg` (`multiprocessing`, documented
behaviour).  Simplification: the error queue is not full, the preparations before `spawn_function` do not raise. -/
def spawnWrapper (exitArg : Int) (raised : Option ClientErr) : WorkerEnd :=
  match raised with
  | none => ⟨0, none⟩
  | some e =>
    if e.isException then ⟨0, some e⟩
    else if e = .base "KeyboardInterrupt" then ⟨0, none⟩
    else if e = .base "SystemExit" then ⟨exitArg, none⟩
    else ⟨1, none⟩

end Verif
