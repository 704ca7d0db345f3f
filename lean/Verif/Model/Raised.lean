import Verif.Model.Client
import Verif.Model.ServerThreads

/-!
# What becomes of an exception of user code on its way to the server

`Client.acquire_block` (`client.py` 92-94) sends the exception itself, in a `BlockFailed` message.  Messages are pickled
by the IO loop of the client (`tcp_stream.py` 71) and unpickled by the IO loop of the server (`tcp_stream.py` 105). -/

namespace Verif

variable {N T S : Type}

/-- What becomes of a message with an exception in it. -/
inductive Fate where
  /-- it is pickled and unpickled -/
  | fine
  /-- `pickle.dumps` raises (`tcp_stream.py` 71), or `struct.pack`, because there are `2 ** 32` bytes or more (72): nothing
  is written, the IO loop logs the exception -/
  | unsent
  /-- `pickle.loads` raises `e` (`tcp_stream.py` 105) -/
  | unread (e : PyErr)
  deriving DecidableEq

/-- What the IO loop of the server does (`tcp_server.py` 95-120) about a message that worker `w` has handed to its IO loop
(`tcp_stream.py` 47); the stream is `s` at the server.  `fate e` is what becomes of a message with exception `e`.
Simplifications: what becomes of it depends on the exception only; other messages can always be pickled and unpickled;
`Client` sends no status but `SUCCESS` and `FAILED` (`client.py` 99-100), any other is represented by `CREATED`; the
message of `disconnect` is `NotifyClientDisconnect`. -/
def wireMsg (fate : ClientErr → Fate) (w : Nat) (s : S) : ClientMsg N T → List (SrvIo N T S)
  | .acquire t => [.arrive (.acquire t) s]
  | .blockFailed n e =>
    match fate e with
    | .fine => [.arrive (.blockFailed n w) s]
    | .unsent => []
    | .unread e' => [.bad s e', .put s]
  | .release n (.enum status) => [.arrive (.release n status) s]
  | .release n (.other _) => [.arrive (.release n .created) s]
  | .disconnect => [.bye s]

/-- The same for several messages: a stream keeps them in order. -/
def wire (fate : ClientErr → Fate) (w : Nat) (s : S) (ms : List (ClientMsg N T)) : List (SrvIo N T S) :=
  ms.flatMap (wireMsg fate w s)

end Verif
