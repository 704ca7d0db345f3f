import Verif.Model.Client

/-!
# Model of `daisy/tcp/tcp_client.py`, statement by statement

`Model/Client` treats `send_message`, `get_message` and what the IO loop does after a failure as one step each.  Here
the main thread and the thread of the IO loop (`_receive`, `tcp_client.py` 134-167) are interleaved at every access to
something that both use: the two queues, `TCPClient.stream`, and `TCPStream.stream` inside of it.  Each call of
the main thread takes lists of steps that the IO loop does before each of its accesses.

Simplifications: the queues are unbounded and their operations atomic; reading or assigning an attribute is
atomic (CPython); `close` of the tornado stream does not raise anything but `Exception`s, which are caught
(`tcp_stream.py` 49-56); logging. -/

namespace Verif

/-- Where `_receive` is, `tcp_client.py` 134-167. -/
inductive IoPc where
  /-- waiting for `_get_message`, line 142 -/
  | reading
  /-- an exception was raised and is caught in line 158, before line 160 -/
  | raising (e : ClientErr)
  /-- before `self.stream.close()`, line 148 or 161 -/
  | closing
  /-- before `self.stream = None`, line 152 or 166 -/
  | clearing
  /-- `_receive` has returned -/
  | over
  deriving DecidableEq

/-- Steps of the IO loop. -/
inductive IoEv (B : Type) where
  /-- `_get_message` returns a message, which is put into the queue, line 156 -/
  | recv (m : ServerMsg B)
  /-- `_get_message` notices that the connection is lost, `tcp_stream.py` 101-103 -/
  | lost
  /-- `_get_message` raises anything else: `struct.error`, `AssertionError`, what unpickling raises -/
  | bad (e : ClientErr)
  /-- `_get_message` returns `AckClientDisconnect`, line 144 -/
  | ack
  /-- `_send_message` notices that the connection is lost, `tcp_stream.py` 81-83; only while `_receive` is in an
  `await`, as both run in the same thread -/
  | writeFails
  /-- the next statement of `_receive` -/
  | go
  deriving DecidableEq

/-- What both threads use.  `outer`: `TCPClient.stream` is not `None`; `inner`: `TCPStream.stream` is not `None`.
`posted` are the messages for which a callback was added to the IO loop. -/
structure FineTcp (B T : Type) where
  excs : List ClientErr
  outer : Bool
  inner : Bool
  inbox : List (ServerMsg B)
  posted : List (ClientMsg B T)
  io : IoPc
  deriving DecidableEq

namespace FineTcp

variable {B T : Type}

/-- One step of the IO loop; a step that is not possible where `_receive` is does nothing. -/
def ioStep (s : FineTcp B T) (ev : IoEv B) : FineTcp B T :=
  match s.io, ev with
  | .reading, .recv m => { s with inbox := s.inbox ++ [m] }
  | .reading, .lost => { s with inner := false, io := .raising .streamClosed }
  | .reading, .bad e => { s with io := .raising e }
  | .reading, .ack => { s with io := .closing }
  | .reading, .writeFails => { s with inner := false }
  | .raising e, .go => { s with excs := s.excs ++ [e], io := .closing }
  | .closing, .go => { s with inner := false, io := .clearing }
  | .clearing, .go => { s with outer := false, io := .over }
  | _, _ => s

/-- Several steps of the IO loop. -/
def ioRun (s : FineTcp B T) (evs : List (IoEv B)) : FineTcp B T := evs.foldl ioStep s

/-- `AttributeError: 'NoneType' object has no attribute 'send_message'`. -/
def attributeError : ClientErr := .exception "AttributeError"

/-- `self.stream.send_message(message)` in `tcp_client.py` 65 and 91, with `TCPStream.send_message`, `tcp_stream.py`
29-47. -/
def post (s : FineTcp B T) (m : ClientMsg B T) (again inner : List (IoEv B)) :
    Except ClientErr Unit × FineTcp B T :=
  let s := s.ioRun again
  if !s.outer then (.error attributeError, s)
  else
    let s := s.ioRun inner
    if !s.inner then (.error .streamClosed, s)
    else (.ok (), { s with posted := s.posted ++ [m] })

/-- `send_message`, `tcp_client.py` 76-91: `check` happens before `_check_for_errors`, `read` before `connected()`,
`again` before `self.stream` is read again, `inner` before `TCPStream.stream` is read. -/
def send (s : FineTcp B T) (m : ClientMsg B T) (check read again inner : List (IoEv B)) :
    Except ClientErr Unit × FineTcp B T :=
  let s := s.ioRun check
  match s.excs with
  | e :: r => (.error e, { s with excs := r })
  | [] =>
    let s := s.ioRun read
    if !s.outer then (.error .notConnected, s) else s.post m again inner

/-- `get_message`, `tcp_client.py` 93-114: `check` happens before `_check_for_errors`, `read` before `connected()`, and
`take` before a message is taken from the queue or the timeout passes. -/
def get (s : FineTcp B T) (check read take : List (IoEv B)) :
    Except ClientErr (Option (ServerMsg B)) × FineTcp B T :=
  let s := s.ioRun check
  match s.excs with
  | e :: r => (.error e, { s with excs := r })
  | [] =>
    let s := s.ioRun read
    if !s.outer then (.error .notConnected, s)
    else
      let s := s.ioRun take
      match s.inbox with
      | [] => (.ok none, s)
      | m :: r => (.ok (some m), { s with inbox := r })

/-- The waiting loop of `disconnect`, `tcp_client.py` 67-68.  `none`: still waiting. -/
def awaitBye : FineTcp B T → List (List (IoEv B)) → Option (FineTcp B T)
  | s, [] => if s.outer then none else some s
  | s, evs :: rest => if s.outer then awaitBye (s.ioRun evs) rest else some s

/-- `disconnect`, `tcp_client.py` 57-70. -/
def bye (s : FineTcp B T) (read again inner : List (IoEv B)) (waits : List (List (IoEv B))) :
    Option (Except ClientErr Unit × FineTcp B T) :=
  let s := s.ioRun read
  if !s.outer then some (.ok (), s)
  else
    match s.post .disconnect again inner with
    | (.error e, s') => some (.error e, s')
    | (.ok (), s') => (s'.awaitBye waits).map (fun s'' => (.ok (), s''))

/-- What the IO loop does during one call of `send_message`. -/
structure SendEnv (B : Type) where
  check : List (IoEv B)
  read : List (IoEv B)
  again : List (IoEv B)
  inner : List (IoEv B)

/-- What the IO loop does during one call of `get_message`. -/
structure GetEnv (B : Type) where
  check : List (IoEv B)
  read : List (IoEv B)
  take : List (IoEv B)

/-- Everything that happens during a call of `get_message`. -/
def GetEnv.all (g : GetEnv B) : List (IoEv B) := g.check ++ g.read ++ g.take

/-- What the IO loop does during one call of `disconnect`, before it waits. -/
structure ByeEnv (B : Type) where
  read : List (IoEv B)
  again : List (IoEv B)
  inner : List (IoEv B)

/-- How the code of `acquire_block` before the `yield` ends. -/
inductive Entered (B T : Type) where
  /-- an exception is raised at the `with` statement -/
  | raises (e : ClientErr) (s : FineTcp B T)
  /-- the client is still waiting -/
  | waiting
  /-- the `with` body is entered with `None` -/
  | none (s : FineTcp B T)
  /-- the `with` body is entered with a block -/
  | block (b : B) (s : FineTcp B T)
  deriving DecidableEq

/-- `acquire_block` after the request was sent, up to the `yield`, `client.py` 73-86 and 102-107.  The list says what the
IO loop does while the client waits, be it for a message or for the end of the connection. -/
def await (d : ByeEnv B) : FineTcp B T → List (GetEnv B) → Entered B T
  | _, [] => .waiting
  | s, g :: gs =>
    match s.get g.check g.read g.take with
    | (.error .streamClosed, s') => .none s'
    | (.error e, s') => .raises e s'
    | (.ok none, s') => await d s' gs
    | (.ok (some (.sendBlock b)), s') => .block b s'
    | (.ok (some .requestShutdown), s') =>
      match s'.bye d.read d.again d.inner (gs.map GetEnv.all) with
      | none => .waiting
      | some (.error e, s'') => .raises e s''
      | some (.ok (), s'') => .none s''
    | (.ok (some .other), s') => .raises .unexpectedMessage s'

/-- `acquire_block` up to the `yield`, `client.py` 70-86 and 102-107. -/
def enter (t : T) (s : FineTcp B T) (e : SendEnv B) (gs : List (GetEnv B)) (d : ByeEnv B) : Entered B T :=
  match s.send (.acquire t) e.check e.read e.again e.inner with
  | (.error e, s') => .raises e s'
  | (.ok (), s') => await d s' gs

/-- The `finally` clause, `client.py` 95-101, with `release_block`, 109-111. -/
def finish (s : FineTcp B T) (b : B) (status : StatusVal) (pending : Option ClientErr) (e : SendEnv B) :
    Option ClientErr × FineTcp B T :=
  let status' := if status ≠ .enum .success then .enum .failed else status
  match s.send (.release b status') e.check e.read e.again e.inner with
  | (.error e, s') => (some e, s')
  | (.ok (), s') => (pending, s')

/-- `acquire_block` after the `yield` of a block, `client.py` 87-101.  The first result is the exception that leaves the
`with` statement. -/
def leave (s : FineTcp B T) (b : B) (body : BodyEnd) (e e' : SendEnv B) : Option ClientErr × FineTcp B T :=
  match body.raised with
  | none => s.finish b (if body.status = .enum .processing then .enum .success else body.status) none e
  | some x =>
    if x.isException then
      match s.send (.blockFailed b x) e.check e.read e.again e.inner with
      | (.error y, s') => s'.finish b (.enum .failed) (some y) e'
      | (.ok (), s') => s'.finish b (.enum .failed) none e'
    else s.finish b body.status (some x) e

/-- One round of the loop of `_process_blocks`: what the IO loop does, and how the process function ends. -/
structure Turn (B : Type) where
  ask : SendEnv B
  gets : List (GetEnv B)
  leave : ByeEnv B
  body : B → BodyEnd
  first : SendEnv B
  second : SendEnv B

/-- How the loop of a worker ends. -/
inductive LoopEnd (B T : Type) where
  /-- there are no more turns to look at -/
  | running (s : FineTcp B T)
  /-- waiting for the server -/
  | waiting
  | returned (s : FineTcp B T)
  | raised (e : ClientErr) (s : FineTcp B T)
  deriving DecidableEq

/-- `_process_blocks`, `task.py` 183-189. -/
def processBlocks (t : T) : FineTcp B T → List (Turn B) → LoopEnd B T
  | s, [] => .running s
  | s, u :: us =>
    match s.enter t u.ask u.gets u.leave with
    | .raises e s' => .raised e s'
    | .waiting => .waiting
    | .none s' => .returned s'
    | .block b s' =>
      match s'.leave b (u.body b) u.first u.second with
      | (some e, s'') => .raised e s''
      | (none, s'') => processBlocks t s'' us

/-! ## Connecting -/

/-- What `_connect` does, `tcp_client.py` 123-132: it runs once. -/
inductive ConnectEv where
  | connects
  | fails (e : ClientErr)
  deriving DecidableEq

/-- How `connect` ends, `tcp_client.py` 44-55. -/
inductive Connected (B T : Type) where
  | waiting
  | raises (e : ClientErr)
  | up (s : FineTcp B T)
  deriving DecidableEq

/-- The loop of `connect`, `tcp_client.py` 50-52, with `_connect`.  In every round `_connect` may end before
`connected()` is called (first) or before `_check_for_errors` (second); what it did does not count before it has ended.
`done` is whether it connected, `errs` the queue of exceptions. -/
def connectLoop (done : Bool) (errs : List ClientErr) :
    List (Option ConnectEv × Option ConnectEv) → Connected B T
  | [] => .waiting
  | (a, b) :: rest =>
    let one (x : Bool × List ClientErr) : Option ConnectEv → Bool × List ClientErr
      | some .connects => (true, x.2)
      | some (.fails e) => (x.1, x.2 ++ [e])
      | none => x
    let x := one (done, errs) a
    if x.1 then .up ⟨x.2, true, true, [], [], .reading⟩
    else
      let y := one x b
      match y.2 with
      | e :: _ => .raises e
      | [] => connectLoop y.1 y.2 rest

end FineTcp
end Verif
