import Verif.Model.Scheduler

/-!
# Model of `daisy/cl_monitor.py`

Task ids are strings.  Of `tqdm` (not in `/repo`, modelled from its documentation and source) only the count, the
description, the postfix and whether it is closed are modelled: `update` and `close` do nothing on a closed bar,
`set_description` and `set_postfix` only store their argument.  Rendering, logging handlers and time are not
modelled.  A `TaskState` is handed over by reference; the summary at exit reads the current state. -/

namespace Verif

/-- A `tqdm` progress bar. -/
structure Bar where
  total : Int
  n : Int
  desc : String
  /-- pending, processing, completed, failed, orphaned -/
  info : List Int
  closed : Bool
  deriving DecidableEq, Repr

/-- `tqdm.update(delta)`. -/
def Bar.update (b : Bar) (delta : Int) : Bar := if b.closed then b else { b with n := b.n + delta }

/-- `TaskSummary`, `cl_monitor.py` 29-32.  A failure is the block and the id of the worker (`BlockFailure`, 35-39). -/
structure Summary (B : Type) where
  failures : List (B × Nat)
  state : TState
  deriving DecidableEq

/-- `CLMonitor`, `cl_monitor.py` 48-54. -/
structure Monitor (B : Type) where
  bars : String → Option Bar
  sums : String → Option (Summary B)

/-- The notifications of `ServerObserver`. -/
inductive MonEv (B : Type) where
  | acquire (t : String) (s : TState)
  | release (t : String) (s : TState)
  | failure (t : String) (b : B) (worker : Nat)
  | start (t : String) (s : TState)
  | done (t : String) (s : TState)
  deriving DecidableEq

namespace Monitor

variable {B : Type}

/-- `CLMonitor.__init__`. -/
def init : Monitor B := ⟨fun _ => none, fun _ => none⟩

/-- `_update_state`, `cl_monitor.py` 158-177. -/
def updateState (m : Monitor B) (t : String) (s : TState) : Monitor B :=
  let b := match m.bars t with
    | some b => b
    | none => ⟨s.total, 0, t ++ " ▶", [], false⟩
  let b := { b with info := [s.pending, s.processing, s.completed, s.failed, s.orphaned] }
  { m with bars := upd m.bars t (some (b.update (s.completed - b.n))) }

/-- The symbol chosen in `on_task_done`, `cl_monitor.py` 99-104. -/
def symbol (s : TState) : String := if s.failed > 0 then " ✗" else if s.orphaned > 0 then " ∅" else " ✔"

/-- `on_task_done`, `cl_monitor.py` 92-106. -/
def onTaskDone (m : Monitor B) (t : String) (s : TState) : Monitor B :=
  let sums := match m.sums t with
    | none => upd m.sums t (some ⟨[], s⟩)
    | some x => upd m.sums t (some { x with state := s })
  match m.bars t with
  | none => { m with sums := sums }
  | some b => ⟨upd m.bars t (some { b with desc := t ++ symbol s, closed := true }), sums⟩

/-- `on_block_failure`, `cl_monitor.py` 83-87. -/
def onBlockFailure (m : Monitor B) (t : String) (b : B) (worker : Nat) : Except PyErr (Monitor B) :=
  match m.sums t with
  | none => .error .keyError
  | some x => .ok { m with sums := upd m.sums t (some { x with failures := x.failures ++ [(b, worker)] }) }

/-- One notification, `cl_monitor.py` 77-106. -/
def step (m : Monitor B) : MonEv B → Except PyErr (Monitor B)
  | .acquire t s => .ok (m.updateState t s)
  | .release t s => .ok (m.updateState t s)
  | .failure t b w => m.onBlockFailure t b w
  | .start t s => .ok { m with sums := upd m.sums t (some ⟨[], s⟩) }
  | .done t s => .ok (m.onTaskDone t s)

/-- A sequence of notifications. -/
def run : Monitor B → List (MonEv B) → Except PyErr (Monitor B)
  | m, [] => .ok m
  | m, e :: es =>
    match m.step e with
    | .error x => .error x
    | .ok m' => run m' es

/-- What `on_server_exit` (`cl_monitor.py` 108-156) prints about failed blocks of a task: the listed failures, and
the number of those that are not listed. -/
def listed (x : Summary B) : List (B × Nat) × Nat :=
  (x.failures.take 100, if x.failures.length > 100 then x.failures.length - 100 else 0)

/-- Whether it prints "all blocks processed successfully", 155-156, given the current state. -/
def allProcessed (s : TState) : Bool := s.completed == s.total

/-- What `on_server_exit` prints about one task, `cl_monitor.py` 118-156. -/
structure Report (B : Type) where
  total : Int
  completed : Int
  skipped : Int
  failed : Int
  orphaned : Int
  /-- the failures that are listed -/
  failures : List (B × Nat)
  /-- the number of failures that are not listed -/
  more : Nat
  /-- "all blocks processed successfully" -/
  success : Bool
  deriving DecidableEq

/-- What `on_server_exit` prints about task `t`, `cl_monitor.py` 118-156; `none` if it is not in `self.summaries`.
`now t` is the value of the state object of the task at this moment: `TaskSummary.state` refers to the object that the
scheduler goes on to change. -/
def report (m : Monitor B) (now : String → TState) (t : String) : Option (Report B) :=
  match m.sums t with
  | none => none
  | some x => some ⟨(now t).total, (now t).completed, (now t).skipped, (now t).failed, (now t).orphaned,
      (listed x).1, (listed x).2, allProcessed (now t)⟩

/-- What `on_server_exit` does to the bars, `cl_monitor.py` 109-110. -/
def onServerExit (m : Monitor B) : Monitor B :=
  { m with bars := fun t => match m.bars t with
    | none => none
    | some b => some { b with closed := true } }

end Monitor
end Verif
