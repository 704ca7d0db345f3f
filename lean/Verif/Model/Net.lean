import Verif.Py.Basic

/-!
# Model of how the server gets its port and address (`daisy/tcp/tcp_server.py`) and of `daisy/tcp/io_looper.py`

The operating system is a parameter: which calls of `listen` fail, which address the probe finds, which socket
operations fail. -/

namespace Verif

/-- Exceptions of the code modelled here. -/
inductive NetErr where
  | noFreePort
  | attributeError
  | indexError
  | keyError
  | osError
  deriving DecidableEq, Repr

namespace Net

/-- The loop of `TCPServer.__init__` over the remaining values of `i`, `tcp_server.py` 32-42.  `listen i` is what the
`i`-th call of `listen(0)` does: `none` is an `OSError`, otherwise the ports of the new sockets.  `selfMax` is the
attribute `self.max_port_tries`, `none` if there is none (reading it raises `AttributeError`).  The result are the
ports of `self._sockets`; they are empty if the loop ends without a call of `listen`.  Simplification: `listen`
raises nothing else, and leaves no sockets behind when it raises. -/
def portLoop (selfMax : Option Int) (listen : Nat → Option (List Nat)) : List Nat → Except NetErr (List Nat)
  | [] => .ok []
  | i :: is =>
    match listen i with
    | some ports => .ok ports
    | none =>
      match selfMax with
      | none => .error .attributeError
      | some m => if (i : Int) = m - 1 then .error .noFreePort else portLoop selfMax listen is

/-- The sockets of `TCPServer.__init__`, `tcp_server.py` 32-42.  Neither the class nor tornado's `TCPServer` has an
attribute `max_port_tries`, and `__init__` does not set it. -/
def bindPorts (maxPortTries : Int) (listen : Nat → Option (List Nat)) : Except NetErr (List Nat) :=
  portLoop none listen (List.range maxPortTries.toNat)

/-- `_get_address`, `tcp_server.py` 130-179.  `detect` is the address found by the datagram socket (150-161), `none` if
any exception was raised there; `valid` is `_validate_address`. -/
def getAddress (host : Option String) (detect : Option String) (valid : String → Except NetErr Bool)
    (ports : List Nat) : Except NetErr (String × Nat) :=
  match ports with
  | [] => .error .indexError
  | port :: _ =>
    match host with
    | some h => .ok (h, port)
    | none =>
      match detect with
      | none => .ok ("127.0.0.1", port)
      | some ip =>
        if ip ≠ "127.0.0.1" then
          match valid ip with
          | .error e => .error e
          | .ok true => .ok (ip, port)
          | .ok false => .ok ("127.0.0.1", port)
        else .ok (ip, port)

/-- `TCPServer.__init__`, `tcp_server.py` 23-44, as far as port and address are concerned. -/
def serverInit (host : Option String) (maxPortTries : Int) (listen : Nat → Option (List Nat))
    (detect : Option String) (valid : String → Except NetErr Bool) : Except NetErr (String × Nat) :=
  match bindPorts maxPortTries listen with
  | .error e => .error e
  | .ok ports => getAddress host detect valid ports

/-- The sockets of `_validate_address`. -/
inductive Sock where
  | server
  | client
  | conn
  deriving DecidableEq, Repr

/-- The calls of `_validate_address` that can raise, in order, `tcp_server.py` 189-205. -/
inductive SockOp where
  | newServer | setsockopt | timeoutServer | bind | listen | getsockname
  | newClient | timeoutClient | connect | sendall | accept | timeoutConn | recv
  deriving DecidableEq, Repr

/-- The order of the calls. -/
def probeOps : List SockOp :=
  [.newServer, .setsockopt, .timeoutServer, .bind, .listen, .getsockname, .newClient, .timeoutClient, .connect,
    .sendall, .accept, .timeoutConn, .recv]

/-- The socket a successful call opens. -/
def SockOp.opens : SockOp → Option Sock
  | .newServer => some .server
  | .newClient => some .client
  | .accept => some .conn
  | _ => none

/-- The `try` block: runs the calls until one raises `OSError`.  The result says whether all calls succeeded, and which
sockets were opened. -/
def probe (fails : SockOp → Bool) : List SockOp → List Sock → Bool × List Sock
  | [], opened => (true, opened)
  | op :: ops, opened =>
    if fails op then (false, opened)
    else match op.opens with
      | some s => probe fails ops (opened ++ [s])
      | none => probe fails ops opened

/-- The `finally` block, `tcp_server.py` 208-211: closes the sockets that are not `None`; an exception of `close` ends it. -/
def closeAll (closeFails : Sock → Bool) (opened : List Sock) : List Sock → List Sock → Except NetErr Unit × List Sock
  | [], closed => (.ok (), closed)
  | s :: ss, closed =>
    if s ∈ opened then
      if closeFails s then (.error .osError, closed) else closeAll closeFails opened ss (closed ++ [s])
    else closeAll closeFails opened ss closed

/-- `_validate_address`, `tcp_server.py` 181-211: the result, the sockets that were opened and those that were closed.
`fits` says whether the data received is `b"test"`. -/
def validate (fails : SockOp → Bool) (fits : Bool) (closeFails : Sock → Bool) :
    Except NetErr Bool × List Sock × List Sock :=
  let (ok, opened) := probe fails probeOps []
  match closeAll closeFails opened [.conn, .client, .server] [] with
  | (.error e, closed) => (.error e, opened, closed)
  | (.ok _, closed) => (.ok (ok && fits), opened, closed)

end Net

/-! ## `IOLooper` -/

/-- What `IOLooper` knows in one process.  `threads` are the keys of `IOLooper.threads`, `loops` is `IOLooper.ioloops`
(`io_looper.py` 22-23), both inherited in a fork.  `runs` are the loops whose thread runs in this process; threads do
not survive a fork. -/
structure LProc where
  pid : Nat
  threads : List Nat
  loops : List (Nat × Nat)
  runs : List Nat
  deriving DecidableEq

/-- All processes that ever existed, `none` if not alive, and the number of loops created so far. -/
structure LWorld where
  procs : List (Option LProc)
  fresh : Nat
  deriving DecidableEq

namespace LWorld

/-- What processes do. -/
inductive Op where
  /-- the `i`-th process creates an `IOLooper` -/
  | create (i : Nat)
  /-- the `i`-th process calls `IOLooper.clear()` -/
  | clear (i : Nat)
  /-- the `i`-th process forks, the new process has this pid -/
  | fork (i : Nat) (pid : Nat)
  /-- the `i`-th process ends -/
  | exit (i : Nat)
  deriving DecidableEq

/-- `d.get(k)` of a dict. -/
def lookup (d : List (Nat × Nat)) (k : Nat) : Option Nat := (d.find? (fun e => e.1 == k)).map (·.2)

/-- `IOLooper.__init__`, `io_looper.py` 30-46: the process afterwards and the loop the object gets. -/
def createIn (fresh : Nat) (p : LProc) : Except NetErr (LProc × Nat) :=
  if p.pid ∉ p.threads then
    .ok ({ p with threads := p.threads ++ [p.pid],
                  loops := (p.pid, fresh) :: p.loops.filter (fun e => e.1 != p.pid),
                  runs := p.runs ++ [fresh] }, fresh)
  else
    match lookup p.loops p.pid with
    | none => .error .keyError
    | some l => .ok (p, l)

/-- The `i`-th process, if it is alive. -/
def proc (w : LWorld) (i : Nat) : Option LProc :=
  match w.procs[i]? with
  | none => none
  | some p => p

/-- One step of one process; nothing happens if it is not alive.  The second component is the loop an object got. -/
def step (w : LWorld) : Op → Except NetErr (LWorld × Option Nat)
  | .create i =>
    match w.proc i with
    | none => .ok (w, none)
    | some p =>
      match createIn w.fresh p with
      | .error e => .error e
      | .ok (p', l) => .ok (⟨w.procs.set i (some p'), w.fresh + 1⟩, some l)
  | .clear i =>
    match w.proc i with
    | none => .ok (w, none)
    | some p => .ok ({ w with procs := w.procs.set i (some { p with threads := [], loops := [] }) }, none)
  | .fork i pid =>
    match w.proc i with
    | none => .ok (w, none)
    | some p => .ok ({ w with procs := w.procs ++ [some { p with pid := pid, runs := [] }] }, none)
  | .exit i => .ok ({ w with procs := w.procs.set i none }, none)

/-- The first process, before daisy is used. -/
def start (pid : Nat) : LWorld := ⟨[some ⟨pid, [], [], []⟩], 0⟩

/-- A sequence of steps. -/
def run (w : LWorld) : List Op → Except NetErr LWorld
  | [] => .ok w
  | o :: os =>
    match w.step o with
    | .error e => .error e
    | .ok (w', _) => run w' os

end LWorld
end Verif
