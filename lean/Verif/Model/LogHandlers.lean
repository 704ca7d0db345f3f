import Verif.Py.Basic

/-!
# Model of the logging handlers of `daisy/cl_monitor.py`

`TqdmLoggingHandler` (`cl_monitor.py` 8-26) and `CLMonitor._wrap_logging_handlers` (56-75), with the part of Python's
`logging` that calls handlers (`Logger.callHandlers`, `Handler.handle`, `Logger.removeHandler`; not in `/repo`, modelled
from its source).  Simplifications: only the handlers of the root logger; the lock of a handler is not modelled; what a
handler writes is a list of texts; the number of Python frames that may still be entered is a parameter `limit`, the
same for all attribute lookups. -/

namespace Verif

/-- A log record. -/
structure LogRecord where
  level : Nat
  msg : String
  deriving DecidableEq

/-- A handler that the user made.  Its number is its identity. -/
structure LogBase where
  id : Nat
  level : Nat
  /-- the attribute `stream`: `none` if there is none; the method `isatty` of the stream: `none` if there is none,
  otherwise what it returns -/
  stream : Option (Option Bool)
  filter : LogRecord → Bool
  format : LogRecord → Except PyErr String
  /-- what its method `emit` writes; `logging.StreamHandler.emit` catches exceptions (`handleError`) -/
  emits : LogRecord → List String

/-- The handlers in `logging.root.handlers`: those of the user, and instances of `TqdmLoggingHandler` around them,
`cl_monitor.py` 16-17. -/
inductive LogHandler where
  | base (b : LogBase)
  | wrap (h : LogHandler)

/-- A text written for a handler. -/
structure LogWrite where
  handler : Nat
  text : String
  deriving DecidableEq

namespace LogHandler

/-- Looking up an attribute that `TqdmLoggingHandler` does not have itself: `__getattr__` asks the handler inside,
`cl_monitor.py` 19-20; each such call enters a frame, and without frames left Python raises `RecursionError`, a
`RuntimeError`. -/
def reach : Nat → LogHandler → Except PyErr LogBase
  | _, .base b => .ok b
  | 0, .wrap _ => .error .runtimeError
  | k + 1, .wrap h => reach k h

/-- `_is_tty_stream_handler`, `cl_monitor.py` 70-75.  `hasattr` swallows only `AttributeError`. -/
def isTty (limit : Nat) (h : LogHandler) : Except PyErr Bool :=
  match reach limit h with
  | .error e => .error e
  | .ok b =>
    match b.stream with
    | none => .ok false
    | some none => .ok false
    | some (some tty) => .ok tty

/-- `_wrap_logging_handlers`, `cl_monitor.py` 56-68, called by the constructor of `CLMonitor`, 54: the handlers
afterwards, and the exception. -/
def wrapAll (limit : Nat) : List LogHandler → List LogHandler × Option PyErr
  | [] => ([], none)
  | h :: hs =>
    match isTty limit h with
    | .error e => (h :: hs, some e)
    | .ok tty =>
      let r := wrapAll limit hs
      ((if tty then .wrap h else h) :: r.1, r.2)

/-- Making `k` monitors one after the other (`run_blockwise` makes one per call, `convenience.py` 40, 58); none is ever
undone.  Stops at the first exception. -/
def monitors (limit : Nat) : Nat → List LogHandler → List LogHandler × Option PyErr
  | 0, hs => (hs, none)
  | k + 1, hs =>
    match monitors limit k hs with
    | (hs', some e) => (hs', some e)
    | (hs', none) => wrapAll limit hs'

/-- `handle`: `logging.Handler.handle` for both kinds of handlers (`cl_monitor.py` 26), with the `emit` of
`TqdmLoggingHandler`, 22-24: what is written, and the exception. -/
def handle (limit : Nat) (r : LogRecord) : LogHandler → List LogWrite × Option PyErr
  | .base b => if b.filter r then ((b.emits r).map (⟨b.id, ·⟩), none) else ([], none)
  | .wrap h =>
    match reach limit (.wrap h) with
    | .error e => ([], some e)
    | .ok b =>
      if b.filter r then
        match reach limit h with
        | .error e => ([], some e)
        | .ok b' =>
          match b'.format r with
          | .error e => ([], some e)
          | .ok s => ([⟨b'.id, s ++ "\n"⟩], none)
      else ([], none)

/-- `Logger.callHandlers`: each handler whose level is not above that of the record handles it. -/
def callHandlers (limit : Nat) (r : LogRecord) : List LogHandler → List LogWrite × Option PyErr
  | [] => ([], none)
  | h :: hs =>
    match reach limit h with
    | .error e => ([], some e)
    | .ok b =>
      if b.level ≤ r.level then
        match handle limit r h with
        | (ws, some e) => (ws, some e)
        | (ws, none) =>
          let x := callHandlers limit r hs
          (ws ++ x.1, x.2)
      else callHandlers limit r hs

/-- `Logger.removeHandler`: handlers are compared by identity. -/
def removeHandler (i : Nat) : List LogHandler → List LogHandler
  | [] => []
  | .base b :: hs => if b.id = i then hs else .base b :: removeHandler i hs
  | .wrap h :: hs => .wrap h :: removeHandler i hs

end LogHandler
end Verif
