import Verif.Py.Basic

/-!
# Model of `daisy/tcp/`: framing of messages, the receive loops and the message queue of the server

`M` is the type of messages.  Pickling is a parameter: a pair of functions that may raise.  The network
delivers the written bytes in order, in chunks of any size.  Not modelled: tornado's limit on the size of
its read buffer (100 MB unless configured), addresses and ports, the thread of the IO loop (callbacks of
one stream run in the order they were added, and `_send_message` has one `await`, at its end). -/

namespace Verif

abbrev Bytes := List (Fin 256)

/-- `struct.pack("I", n)` on a little-endian machine. -/
def packI (n : Nat) : Except PyErr Bytes :=
  if n < 2 ^ 32 then
    .ok [Fin.ofNat 256 n, Fin.ofNat 256 (n / 256), Fin.ofNat 256 (n / 256 ^ 2), Fin.ofNat 256 (n / 256 ^ 3)]
  else .error .structError

/-- `struct.unpack("I", b)[0]`. -/
def unpackI : Bytes → Except PyErr Nat
  | [a, b, c, d] => .ok (a.val + 256 * b.val + 256 ^ 2 * c.val + 256 ^ 3 * d.val)
  | _ => .error .structError

/-- `pickle.dumps` and `pickle.loads`. -/
structure Pickle (M : Type) where
  dumps : M → Except PyErr Bytes
  loads : Bytes → Except PyErr M

namespace Tcp

variable {M S : Type}

/-- The sending side of a `TCPStream`: `self.stream is None`, and what was written so far. -/
structure Tx where
  closed : Bool
  wire : Bytes

/-- `TCPStream._send_message`, `tcp_stream.py` 64-83.  `lost` says that tornado raises
`StreamClosedError` in `write`.  The result is the new state and the exception, if any; it is raised in a
callback of the IO loop, which logs it: the code that called `send_message` does not see it. -/
def send (P : Pickle M) (tx : Tx) (m : M) (lost : Bool) : Tx × Option PyErr :=
  match P.dumps m with
  | .error e => (tx, some e)
  | .ok data =>
    match packI data.length with
    | .error e => (tx, some e)
    | .ok size =>
      if tx.closed then (tx, none)
      else if lost then ({ tx with closed := true }, none)
      else ({ tx with wire := tx.wire ++ (size ++ data) }, none)

/-- Several messages are sent, one after the other, while the connection is up. -/
def sendAll (P : Pickle M) (tx : Tx) (ms : List M) : Tx := ms.foldl (fun tx m => (send P tx m false).1) tx

/-- Why a receive loop has ended. -/
inductive Ended where
  /-- `NotifyClientDisconnect` or `AckClientDisconnect` was received -/
  | bye
  /-- an exception -/
  | raised (e : PyErr)
  /-- `StreamClosedError` -/
  | closed
  deriving DecidableEq

/-- A receive loop (`TCPServer.handle_stream`, `tcp_server.py` 95-121, and `TCPClient._receive`,
`tcp_client.py` 134-167) with the read buffer of tornado: `want` is the size of the message of which
only the size has been read. -/
structure Rx (M : Type) where
  buf : Bytes
  want : Option Nat
  got : List M
  ended : Option Ended

/-- A new connection. -/
def Rx.new : Rx M := ⟨[], none, [], none⟩

/-- The loop goes on as far as possible: `TCPStream._get_message`, `tcp_stream.py` 85-102, and the body of
the receive loop.  `bye` recognises the message that ends it. -/
def Rx.run (P : Pickle M) (bye : M → Bool) (rx : Rx M) : Rx M :=
  if rx.ended.isSome then rx
  else
    match _hw : rx.want with
    | none =>
      if _h : 4 ≤ rx.buf.length then
        match unpackI (rx.buf.take 4) with
        | .error e => { rx with buf := rx.buf.drop 4, ended := some (.raised e) }
        | .ok size => Rx.run P bye { rx with buf := rx.buf.drop 4, want := some size }
      else rx
    | some size =>
      if size ≤ rx.buf.length then
        match P.loads (rx.buf.take size) with
        | .error e => { rx with buf := rx.buf.drop size, want := none, ended := some (.raised e) }
        | .ok m =>
          if bye m then { rx with buf := rx.buf.drop size, want := none, ended := some .bye }
          else Rx.run P bye { rx with buf := rx.buf.drop size, want := none, got := rx.got ++ [m] }
      else rx
termination_by (2 * rx.buf.length + (if rx.want.isSome then 1 else 0))
decreasing_by
  · simp only [List.length_drop, Option.isSome_some, if_true, _hw, Option.isSome_none, Bool.false_eq_true,
      if_false]
    omega
  · simp only [List.length_drop, Option.isSome_none, Bool.false_eq_true, if_false, _hw, Option.isSome_some,
      if_true]
    omega

/-- Bytes arrive. -/
def Rx.feed (P : Pickle M) (bye : M → Bool) (rx : Rx M) (chunk : Bytes) : Rx M :=
  Rx.run P bye { rx with buf := rx.buf ++ chunk }

/-- The connection is closed by the other side: the pending `read_bytes` raises. -/
def Rx.close (rx : Rx M) : Rx M :=
  if rx.ended.isSome then rx else { rx with ended := some .closed }

/-- The queues of a `TCPServer`, `tcp_server.py` 27-28.  `none` in the second stands for
`StreamClosedError`. -/
structure Queues (M S : Type) where
  messages : List (M × S)
  errors : List (Option PyErr)

/-- Something happens on the stream of a client, seen by its receive loop (`tcp_server.py` 95-121): new
messages are queued, and the exception that ends the loop. -/
def Queues.stream (q : Queues M S) (s : S) (old new : Rx M) : Queues M S :=
  let q' := { q with messages := q.messages ++ (new.got.drop old.got.length).map (fun m => (m, s)) }
  match old.ended, new.ended with
  | none, some .closed => { q' with errors := q.errors ++ [none] }
  | none, some (.raised e) => { q' with errors := q.errors ++ [some e] }
  | _, _ => q'

/-- `message_queue.get`, `tcp_server.py` 65-69. -/
def Queues.pop (q : Queues M S) : Option (M × S) × Queues M S :=
  match q.messages with
  | [] => (none, q)
  | m :: ms => (some m, { q with messages := ms })

/-- `TCPServer.get_message`, `tcp_server.py` 46-69, and `_check_for_errors`, 123-128.  The exception
`none` is `StreamClosedError`.  The exception is raised inside of the `try` statement that catches `queue.Empty`. -/
def Queues.getMessage (q : Queues M S) : Except (Option PyErr) (Option (M × S)) × Queues M S :=
  match q.errors with
  | [] => (.ok q.pop.1, q.pop.2)
  | e :: es =>
    let q' := { q with errors := es }
    if e = some .queueEmpty then (.ok q'.pop.1, q'.pop.2) else (.error e, q')

/-- The first part of `Server._get_client_message`, `server.py` 84-88: `StreamClosedError` is caught, other
exceptions are not. -/
def Queues.clientMessage (q : Queues M S) : Except PyErr (Option (M × S)) × Queues M S :=
  match q.getMessage with
  | (.error none, q') => (.ok none, q')
  | (.error (some e), q') => (.error e, q')
  | (.ok r, q') => (.ok r, q')

end Tcp
end Verif
