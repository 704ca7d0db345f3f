import Verif.Model.Convenience

/-! # The main thread of `run_blockwise` and the thread of the server, with any number of keyboard interrupts -/

namespace Verif

variable {N T K S : Type} [DecidableEq N] [DecidableEq T] [DecidableEq K] [DecidableEq S]

/-- Where the main thread is in `run_blockwise`, `convenience.py` 43-53. -/
inductive MainAt where
  /-- before `pool.apply_async`, 43-46 -/
  | before
  /-- after `pool.apply_async` and before the `try` statement, 47 -/
  | submitted
  /-- in the first `result.get()`, 49 -/
  | waiting
  /-- in the handler of `KeyboardInterrupt`, before `stop_event.set()`, 50-51 -/
  | handler
  /-- in the second `result.get()`, 52 -/
  | waitingAgain
  | returned (b : Bool)
  /-- an exception has left `run_blockwise`; `none` is `KeyboardInterrupt` -/
  | raised (e : Option PyErr)
  deriving DecidableEq

/-- The thread that runs `_run_blockwise`, `convenience.py` 56-60.  The stop event is the one of the server. -/
inductive ServerAt (N T K S : Type) where
  | idle
  | running (σ : Server N T K S)
  | ended (σ : Server N T K S) (r : Except PyErr Bool)

/-- Both threads. -/
structure Threads (N T K S : Type) where
  main : MainAt
  srv : ServerAt N T K S

namespace Threads

/-- A call of `run_blockwise`. -/
def start : Threads N T K S := ⟨.before, .idle⟩

/-- `stop_event.set()`, `convenience.py` 51. -/
def setStop : ServerAt N T K S → ServerAt N T K S
  | .idle => .idle
  | .running σ => .running { σ with stop := true }
  | .ended σ r => .ended σ r

/-- A `KeyboardInterrupt` in the main thread: only the one in the `try` statement, `convenience.py` 48-49, is caught.
The others leave the `with` statement, 46, which calls `ThreadPool.terminate`; that does not end a thread that runs.
Interrupts after the end of `run_blockwise` do not concern it. -/
def interrupt (x : Threads N T K S) : Threads N T K S :=
  match x.main with
  | .waiting => { x with main := .handler }
  | .returned _ => x
  | .raised _ => x
  | _ => { x with main := .raised none }

/-- `result.get()`: waits for the end of the thread, returns what it returned and raises what it raised. -/
def get (x : Threads N T K S) : Threads N T K S :=
  match x.srv with
  | .ended _ (.ok b) => { x with main := .returned b }
  | .ended _ (.error e) => { x with main := .raised (some e) }
  | _ => x

/-- The next statement of the main thread, `convenience.py` 43-53.  Simplification: the thread of the pool takes the
call as soon as it is submitted. -/
def mainStep (g : DGraph N T K) (x : Threads N T K S) : Threads N T K S :=
  match x.main with
  | .before => ⟨.submitted, .running (Server.start g false)⟩
  | .submitted => { x with main := .waiting }
  | .waiting => x.get
  | .handler => ⟨.waitingAgain, setStop x.srv⟩
  | .waitingAgain => x.get
  | .returned _ => x
  | .raised _ => x

/-- The next iteration of `_event_loop`, `server.py` 72-81, or, after its end, the rest of `_run_blockwise`,
`convenience.py` 59-60.  Simplification: stopping the workers (`server.py` 66-70) is part of the last step. -/
def serverStep (g : DGraph N T K) (cfg : SConf T) (k : Server.Tick N T S) (x : Threads N T K S) : Threads N T K S :=
  match x.srv with
  | .running σ =>
    if σ.stop then { x with srv := .ended σ (.ok (Server.result g σ)) }
    else match σ.iteration g cfg k with
      | .error e => { x with srv := .ended σ (.error e) }
      | .ok σ' => { x with srv := .running σ' }
  | _ => x

/-- What can happen next. -/
inductive TEv (N T S : Type) where
  | interrupt
  | main
  | server (k : Server.Tick N T S)

/-- The threads and the user in any order. -/
def step (g : DGraph N T K) (cfg : SConf T) (x : Threads N T K S) : TEv N T S → Threads N T K S
  | .interrupt => x.interrupt
  | .main => x.mainStep g
  | .server k => x.serverStep g cfg k

end Threads
end Verif
