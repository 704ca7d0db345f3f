import Verif.Model.System
import Verif.Model.Client

/-!
# The server together with its workers

The server (`Model/System`), the connections, and worker processes that run `Task._process_blocks` (`task.py`
183-189), that is, whose process function takes one argument.  Here the messages of the clients are made by the code of the clients
(`Model/Client`) instead of being arbitrary.  `Client.acquire_block` is split into the steps between which other
threads and processes can do something: one call of `send_message`, `get_message` or of the process function each.

Simplifications: connecting does not fail; a message to a stream that is closed when the iteration starts
gets lost; the server does not notice that the stream of a client is closed after the client has said goodbye
(it could not have any effect, as that client has no block and waits for none). -/

namespace Verif

variable {N T K S : Type}

/-- Where a worker process is in the loop of `_process_blocks`, `task.py` 185-189. -/
inductive Phase (B : Type) where
  /-- before the `with` statement, `task.py` 186 -/
  | idle
  /-- the request was sent, `client.py` 75-76 -/
  | waiting
  /-- in the loop of `disconnect`, `tcp_client.py` 67-68 -/
  | leaving
  /-- `self.process_function(block)`, `task.py` 189 -/
  | working (b : B)
  /-- after `BlockFailed` was sent, before the `finally` clause, `client.py` 93-95.  `pending` is the exception that
  is on its way. -/
  | failing (b : B) (pending : Option ClientErr)
  /-- `_process_blocks` has returned or raised -/
  | ended (e : Option ClientErr)
  /-- the process was terminated from outside -/
  | killed
  deriving DecidableEq

/-- A connection, seen from both sides. -/
structure Conn (N T : Type) where
  /-- `task_id` and `worker_id` of the context, `client.py` 62-63 -/
  task : T
  worker : Nat
  /-- the client; its `outbox` are the messages that have not reached the queue of the server -/
  tcp : TcpClient N T
  phase : Phase N
  /-- what the server has sent and the client has not received -/
  down : List (NetEv N)
  /-- `handle_stream` has returned after `NotifyClientDisconnect`, `tcp_server.py` 100-106 -/
  gone : Bool
  deriving DecidableEq

namespace Conn

/-- A client that has just connected, `client.py` 66. -/
def new (t : T) (w : Nat) : Conn N T := ⟨t, w, ⟨[], true, true, [], []⟩, .idle, [], false⟩

/-- The end of the `with` statement: an exception that leaves it ends `_process_blocks`. -/
def exits (k : Conn N T) (r : Option ClientErr × TcpClient N T) : Conn N T :=
  match r.1 with
  | none => { k with tcp := r.2, phase := .idle }
  | some e => { k with tcp := r.2, phase := .ended (some e) }

/-- The next step of the process: `acquire_block`, `client.py` 68-107, in the loop of `_process_blocks`,
`task.py` 185-189.  `body` is how the process function ends. -/
def step (k : Conn N T) (body : BodyEnd) : Conn N T :=
  match k.phase with
  | .idle =>
    match k.tcp.send (.acquire k.task) with
    | .error (e, c) => { k with tcp := c, phase := .ended (some e) }
    | .ok c => { k with tcp := c, phase := .waiting }
  | .waiting =>
    match k.tcp.getMessage with
    | .error (.streamClosed, c) => { k with tcp := c, phase := .ended none }
    | .error (e, c) => { k with tcp := c, phase := .ended (some e) }
    | .ok (none, c) => { k with tcp := c }
    | .ok (some (.sendBlock b), c) => { k with tcp := c, phase := .working b }
    | .ok (some .requestShutdown, c) =>
      if !c.connected then { k with tcp := c, phase := .ended none }
      else if !c.writable then { k with tcp := c, phase := .ended (some .streamClosed) }
      else { k with tcp := { c with outbox := c.outbox ++ [.disconnect] }, phase := .leaving }
    | .ok (some .other, c) => { k with tcp := c, phase := .ended (some .unexpectedMessage) }
  | .leaving => if k.tcp.connected then k else { k with phase := .ended none }
  | .working b =>
    match body.raised with
    | none =>
      k.exits (Client.finish k.tcp b (if body.status = .enum .processing then .enum .success else body.status) none)
    | some e =>
      if e.isException then
        match k.tcp.send (.blockFailed b e) with
        | .error (e', c) => { k with tcp := c, phase := .failing b (some e') }
        | .ok c => { k with tcp := c, phase := .failing b none }
      else k.exits (Client.finish k.tcp b body.status (some e))
  | .failing b pending => k.exits (Client.finish k.tcp b (.enum .failed) pending)
  | .ended _ => k
  | .killed => k

/-- A message of a client as the server sees it; `none` is `NotifyClientDisconnect`, which does not get into the
queue.  A released block always has a proper status (`client.py` 99-100), for the others see `Props/Client`. -/
def toMsg (w : Nat) : ClientMsg N T → Option (Msg N T)
  | .acquire t => some (.acquire t)
  | .blockFailed b _ => some (.blockFailed b w)
  | .release b (.enum st) => some (.release b st)
  | .release _ (.other _) => some .other
  | .disconnect => none

end Conn

/-- What the server sends to client `s`. -/
def downOf [DecidableEq S] (s : S) : Out N T S → Option (NetEv N)
  | .send s' n => if s' = s then some (.arrives (.sendBlock n)) else none
  | .shutdown s' _ => if s' = s then some (.arrives .requestShutdown) else none
  | _ => none

/-- Everything that can happen. -/
inductive ClEv (N T S : Type) where
  /-- a process of a worker of task `t` connects -/
  | connect (s : S) (t : T) (w : Nat)
  /-- the process of connection `s` does its next step; `body` is used if that is the end of the process function -/
  | client (s : S) (body : BodyEnd)
  /-- the process of connection `s` is terminated -/
  | kill (s : S)
  /-- the next message of client `s` reaches the server -/
  | up (s : S)
  /-- the next message to client `s` reaches it -/
  | down (s : S)
  /-- client `s` notices a failure of the connection -/
  | breaks (s : S) (e : NetEv N)
  /-- everything else, except that messages arrive at the server -/
  | sys (e : SysEv N T S)

/-- The server and all connections. -/
structure Cluster (N T K S : Type) where
  sys : Sys N T K S
  conn : S → Option (Conn N T)

namespace Cluster

variable [DecidableEq N] [DecidableEq T] [DecidableEq K] [DecidableEq S]

/-- Start of `run_blockwise`. -/
def init (g : DGraph N T K) (c : SysConf T) : Except PyErr (Cluster N T K S) :=
  match Sys.init g c with
  | .error e => .error e
  | .ok y => .ok ⟨y, fun _ => none⟩

/-- Change connection `s`. -/
def modify (x : Cluster N T K S) (s : S) (f : Conn N T → Conn N T) : Cluster N T K S :=
  { x with conn := upd x.conn s ((x.conn s).map f) }

/-- The next message of client `s` reaches the server, `tcp_server.py` 96-110. -/
def up (x : Cluster N T K S) (s : S) : Cluster N T K S :=
  match x.conn s with
  | none => x
  | some k =>
    match k.tcp.outbox with
    | [] => x
    | m :: r =>
      let k' := { k with tcp := { k.tcp with outbox := r } }
      match Conn.toMsg k.worker m with
      | some m' => ⟨{ x.sys with queue := x.sys.queue ++ [(m', s)] }, upd x.conn s (some k')⟩
      | none => { x with conn := upd x.conn s (some { k' with down := k.down ++ [.ack], gone := true }) }

/-- The next message to a client reaches it. -/
def recvDown (k : Conn N T) : Conn N T :=
  match k.down with
  | [] => k
  | e :: r => { k with tcp := k.tcp.net e, down := r }

/-- The server sends messages. -/
def deliver (x : Sys N T K S) (conn : S → Option (Conn N T)) (os : List (Out N T S)) (s : S) :
    Option (Conn N T) :=
  (conn s).map (fun k => if s ∈ x.closed then k else { k with down := k.down ++ os.filterMap (downOf s) })

/-- One event. -/
def step (g : DGraph N T K) (c : SysConf T) (x : Cluster N T K S) :
    ClEv N T S → Except PyErr (Cluster N T K S)
  | .connect s t w => .ok { x with conn := upd x.conn s (some (Conn.new t w)) }
  | .client s body => .ok (x.modify s (·.step body))
  | .kill s => .ok (x.modify s (fun k => { k with phase := .killed }))
  | .up s => .ok (x.up s)
  | .down s => .ok (x.modify s recvDown)
  | .breaks s e => .ok (x.modify s (fun k => { k with tcp := k.tcp.net e }))
  | .sys e =>
    match x.sys.step g c e with
    | .error e => .error e
    | .ok y => .ok ⟨y, deliver x.sys x.conn (y.srv.out.drop x.sys.srv.out.length)⟩

end Cluster
end Verif
