import Verif.Model.Shutdown
import Verif.Model.Server

/-!
# Initial callbacks that raise

The event loop of `Model/Server` once more, with callbacks that may raise (`server.py` 250-257).  `fails t` is the exception
that the callback of task `t` raises, if any.  A step yields the state in which it ended, and the exception that it raised.

Simplification: after an exception that does not come from a callback, the state is that before the step (these exceptions
are those of `Model/Server`). -/

namespace Verif.Server

variable {N T K S : Type} [DecidableEq N] [DecidableEq T] [DecidableEq K] [DecidableEq S]

/-- Go on, unless there was an exception. -/
def andThen (r : Server N T K S × Option PyErr) (f : Server N T K S → Server N T K S × Option PyErr) :
    Server N T K S × Option PyErr :=
  match r.2 with
  | some e => (r.1, some e)
  | none => f r.1

/-- The loop of `_recruit_workers`, `server.py` 245-257. -/
def recruitLoop (fails : T → Option PyErr) : List T → Server N T K S → Server N T K S × Option PyErr
  | [], σ => (σ, none)
  | t :: ts, σ =>
    if t ∈ σ.started then recruitLoop fails ts σ
    else
      let σ' := { (σ.emit [.taskStart t, .callback t]) with started := σ.started ++ [t] }
      match fails t with
      | some e => (σ', some e)
      | none => recruitLoop fails ts σ'

/-- `_recruit_workers`, `server.py` 241-259. -/
def recruitCb (g : DGraph N T K) (fails : T → Option PyErr) (σ : Server N T K S) : Server N T K S × Option PyErr :=
  andThen (recruitLoop fails (σ.sched.getReadyTasks g) σ) (fun σ' => (σ'.emit [.recruit (σ.sched.getReadyTasks g)], none))

/-- Start of `run_blockwise`, `server.py` 42-58. -/
def initCb (g : DGraph N T K) (fails : T → Option PyErr) : Server N T K S × Option PyErr :=
  recruitCb g fails ⟨Sched.init g, [], [], [], false, false, fun _ => [], []⟩

/-- `_handle_acquire_block`, `server.py` 125-168. -/
def handleAcquireCb (g : DGraph N T K) (cfg : SConf T) (fails : T → Option PyErr) (chk : Nat → N → Check) (now : Int)
    (σ : Server N T K S) (t : T) (s : S) : Server N T K S × Option PyErr :=
  match σ.sched.acquireBlock g chk t with
  | .error e => (σ, some e)
  | .ok (skips, r, st') =>
    let σ1 := ({ σ with sched := st' }).emit (skips.map .skip)
    match r with
    | none =>
      if (st'.states t).ready ≠ 0 then (σ, some .assertion)
      else if (st'.states t).pending = 0 then (σ1.emit [.shutdown s t]).recruitCb g fails
      else if t ∈ cfg.served then ({ σ1 with pending := upd σ1.pending t (σ1.pending t ++ [s]) }, none)
      else (σ, some .keyError)
    | some n =>
      match σ1.book.notifySent (g.key n) n s now with
      | .error e => (σ, some e)
      | .ok book => (({ σ1 with book := book }).emit [.send s n, .acquired t], none)

/-- `_release_block`, `server.py` 174-185. -/
def releaseCb (g : DGraph N T K) (fails : T → Option PyErr) (pick : Nat → Finset N → N) (σ : Server N T K S) (n : N)
    (status : BlockStatus) : Server N T K S × Option PyErr :=
  match σ.sched.releaseBlock g pick n status with
  | .error e => (σ, some e)
  | .ok st' =>
    ((({ σ with sched := st' }).emit [.release n status, .released (g.task n)]).checkAll g).recruitCb g fails

/-- `_safe_release_block`, `server.py` 210-221. -/
def safeReleaseCb (g : DGraph N T K) (fails : T → Option PyErr) (pick : Nat → Finset N → N) (σ : Server N T K S) (n : N)
    (status : BlockStatus) (s : S) : Server N T K S × Option PyErr :=
  if σ.book.isValidReturn (g.key n) s then
    andThen (σ.releaseCb g fails pick n status) (fun σ' =>
      match σ'.book.notifyReturned (g.key n) s with
      | .error e => (σ', some e)
      | .ok book => ({ σ' with book := book }, none))
  else (σ, none)

/-- `_handle_client_message`, `server.py` 113-123, with `_handle_release_block` (170-172) and `_handle_client_exception`
(223-239). -/
def handleCb (g : DGraph N T K) (cfg : SConf T) (fails : T → Option PyErr) (chk : Nat → N → Check)
    (pick : Nat → Finset N → N) (now : Int) (σ : Server N T K S) (m : Msg N T) (s : S) : Server N T K S × Option PyErr :=
  andThen (match m with
    | .acquire t => σ.handleAcquireCb g cfg fails chk now t s
    | .release n status => σ.safeReleaseCb g fails pick n status s
    | .blockFailed n w => andThen (σ.safeReleaseCb g fails pick n .failed s) (fun σ' => (σ'.emit [.blockFailure n w], none))
    | .clientException => (σ, some .userException)
    | .other => (σ, some .unexpectedMessage)) (fun σ' => (σ'.checkAll g, none))

/-- `_handle_client_messages` and `_get_client_message`, `server.py` 83-97 and 105-111. -/
def handleMessagesCb (g : DGraph N T K) (cfg : SConf T) (fails : T → Option PyErr) (chk : Nat → N → Check)
    (pick : Nat → Finset N → N) (now : Int) (σ : Server N T K S) : Recv N T S → Server N T K S × Option PyErr
  | .msg m s => σ.handleCb g cfg fails chk pick now m s
  | .closed => (σ, none)
  | .nothing =>
    match cfg.served.find? (fun t => (σ.pending t).length ≠ 0) with
    | none => (σ, none)
    | some t =>
      match σ.pending t with
      | [] => (σ, none)
      | s :: rest => ({ σ with pending := upd σ.pending t rest }).handleCb g cfg fails chk pick now (.acquire t) s

/-- The loop of `_check_for_lost_blocks`, `server.py` 264-268. -/
def releaseLostCb (g : DGraph N T K) (fails : T → Option PyErr) (pick : N → Nat → Finset N → N) :
    List N → Server N T K S → Server N T K S × Option PyErr
  | [], σ => (σ, none)
  | n :: ns, σ => andThen (σ.releaseCb g fails (pick n) n .failed) (releaseLostCb g fails pick ns)

/-- `_check_for_lost_blocks`, `server.py` 261-268. -/
def checkLostCb (g : DGraph N T K) (fails : T → Option PyErr) (pick : N → Nat → Finset N → N) (closed : S → Bool)
    (clock : Nat → Int) (σ : Server N T K S) : Server N T K S × Option PyErr :=
  match σ.book.getLost closed none clock with
  | .error e => (σ, some e)
  | .ok (lost, book) => releaseLostCb g fails pick lost { σ with book := book }

/-- One iteration of `_event_loop`, `server.py` 74-81. -/
def iterationCb (g : DGraph N T K) (cfg : SConf T) (fails : T → Option PyErr) (σ : Server N T K S) (k : Tick N T S) :
    Server N T K S × Option PyErr :=
  andThen (σ.handleMessagesCb g cfg fails k.chk k.pick k.now k.recv) (fun σ1 =>
    andThen (σ1.checkLostCb g fails k.pickLost k.closed k.clock) (fun σ2 => (if k.late then σ2.checkAll g else σ2, none)))

/-- `_event_loop`, `server.py` 72-81, from a state on, for the given iterations. -/
def loopCb (g : DGraph N T K) (cfg : SConf T) (fails : T → Option PyErr) :
    List (Tick N T S) → Server N T K S → Server N T K S × Option PyErr
  | [], σ => (σ, none)
  | k :: ks, σ => andThen (σ.iterationCb g cfg fails k) (loopCb g cfg fails ks)

/-- `run_blockwise` up to the end of the event loop, `server.py` 42-60. -/
def runCb (g : DGraph N T K) (cfg : SConf T) (fails : T → Option PyErr) (ks : List (Tick N T S)) :
    Server N T K S × Option PyErr :=
  andThen (initCb g fails) (loopCb g cfg fails ks)

end Verif.Server

namespace Verif.PWorld

variable {T O : Type} [DecidableEq T] [DecidableEq O]

/-- `Server.run_blockwise`, `server.py` 47-70, with callbacks: `first` is the exception of a callback in the first
`_recruit_workers`, which is outside of the `try` statement; no worker has been started then.  `later` is the exception
that ends the event loop. -/
def runServerCb (a : Around O) (fuel : Nat) (num : T → Nat) (served ready : List T) (first : Option PyErr)
    (es : List (PEv T)) (later : Option PyErr) : Option (Left T O) :=
  match first with
  | some e => some ⟨some e, init served, a.streams, none⟩
  | none => runServer a fuel num served ready es later

end Verif.PWorld

namespace Verif.Server

variable {N T K S O : Type} [DecidableEq N] [DecidableEq T] [DecidableEq K] [DecidableEq S] [DecidableEq O]

/-- `Server.run_blockwise`, `server.py` 41-70: the event loop goes through the iterations `ks`, the pools through the
events `es`.  Simplification: `ks` and `es` are not related to each other. -/
def wholeCb (g : DGraph N T K) (cfg : SConf T) (fails : T → Option PyErr) (ks : List (Tick N T S)) (a : PWorld.Around O)
    (fuel : Nat) (num : T → Nat) (es : List (PWorld.PEv T)) : Option (Left T O) :=
  PWorld.runServerCb a fuel num cfg.served ((Sched.init g).getReadyTasks g) (initCb (S := S) g fails).2 es
    (runCb g cfg fails ks).2

end Verif.Server
