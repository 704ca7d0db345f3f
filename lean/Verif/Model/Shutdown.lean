import Verif.Model.Processes
import Verif.Model.Observer

/-!
# The end of a run

`Server.run_blockwise` (`server.py` 57-70) once more, with everything that is done after the event loop: the worker pools
are stopped, the streams to the clients are closed, and the observers are told that the server exits.  The processes are
those of `Model/Processes.lean`, the notification is that of `Model/Observer.lean`.

Simplifications: the clients that are connected when the event loop ends, and the observers that are registered then, are
arguments. -/

namespace Verif

/-- A `TCPStream` (`tcp/tcp_stream.py` 11-28) in `TCPServer.client_streams`: whether `self.stream` is not `None`, whether
the connection is open, and whether closing it raises. -/
structure CStream where
  attached : Bool
  isOpen : Bool
  stuck : Bool
  deriving DecidableEq, Repr

/-- `TCPStream.close`, `tcp/tcp_stream.py` 53-60: every exception is swallowed, also the `AttributeError` if `self.stream`
is `None`. -/
def CStream.close (s : CStream) : CStream :=
  { s with attached := false, isOpen := if s.attached ∧ ¬ s.stuck then false else s.isOpen }

/-- `TCPStream.closed`, `tcp/tcp_stream.py` 62-66. -/
def CStream.closed (s : CStream) : Bool := if s.attached then !s.isOpen else true

/-- What a call of `run_blockwise` leaves behind: the exception that it raises, if any; the workers and their processes;
the streams; and how `notify_server_exit` ended, `none` if it was not called. -/
structure Left (T O : Type) where
  err : Option PyErr
  world : PWorld T
  streams : List CStream
  exit : Option (Observee.Notified O)

namespace PWorld

variable {T O : Type} [DecidableEq T] [DecidableEq O]

/-- What surrounds the event loop: whether a process can be started, the streams and the observers when it ends, and what
the observers do when the server exits. -/
structure Around (O : Type) where
  fail : StartFails
  streams : List CStream
  observers : List O
  cb : O → Observee.Callback O

/-- The `finally` clause, `server.py` 61-68; `raised` is the exception with which the event loop was left, if any.  An
exception that is raised here replaces it.  The result is `none` if the notification does not end within `fuel` calls.
`disconnect`, `tcp/tcp_server.py` 65-71, calls `close` for every stream. -/
def shutdown (a : Around O) (fuel : Nat) (raised : Option PyErr) (w : PWorld T) : Option (Left T O) :=
  match w.stopAll a.fail with
  | ⟨some e, w'⟩ => some ⟨some e, w', a.streams, none⟩
  | ⟨none, w'⟩ =>
    match Observee.notify a.cb fuel a.observers 0 [] with
    | none => none
    | some r => some ⟨if r.error.isSome then r.error else raised, w', a.streams.map CStream.close, some r⟩

/-- The `try` statement, `server.py` 59-68: the event loop ends after the events `es`, with the exception `raised` if there
is one, or with the first exception of an event. -/
def tryLoop (a : Around O) (fuel : Nat) (num : T → Nat) : List (PEv T) → Option PyErr → PWorld T → Option (Left T O)
  | [], raised, w => shutdown a fuel raised w
  | e :: es, raised, w =>
    match w.step a.fail num e with
    | ⟨some e', w'⟩ => shutdown a fuel (some e') w'
    | ⟨none, w'⟩ => tryLoop a fuel num es raised w'

/-- `Server.run_blockwise`, `server.py` 47-70: `self._recruit_workers()` is outside of the `try` statement. -/
def runServer (a : Around O) (fuel : Nat) (num : T → Nat) (served ready : List T) (es : List (PEv T))
    (raised : Option PyErr) : Option (Left T O) :=
  match (init served).recruit a.fail num ready with
  | ⟨some e, w⟩ => some ⟨some e, w, a.streams, none⟩
  | ⟨none, w⟩ => tryLoop a fuel num es raised w

end PWorld
end Verif
