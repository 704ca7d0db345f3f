import Verif.Spec.SystemSpec
import Verif.Model.ErrorQueue

/-! # Vocabulary for the exceptions that end worker processes -/

namespace Verif.Spec

open Verif

variable {N T K S : Type} [DecidableEq T]

/-- `raised` is what the server raises about a worker that ended with `e`: the exception itself, or what unpickling it
raises. -/
def Surfaces (fate : PyErr → Fate) (e raised : PyErr) : Prop :=
  raised ≠ .queueEmpty ∧ ((fate e = .fine ∧ raised = e) ∨ fate e = .unread raised)

/-- The server never learns of a worker that ended with `e`: the exception cannot be pickled, or it is `queue.Empty`, or
unpickling it raises `queue.Empty`. -/
def Vanishes (fate : PyErr → Fate) (e : PyErr) : Prop :=
  fate e = .unsent ∨ (fate e = .fine ∧ e = .queueEmpty) ∨ fate e = .unread .queueEmpty

/-- What can still happen if there are no worker processes and no messages of theirs: streams are closed, and the event
loop goes on. -/
def Nobody (_ : Sys N T K S) : SysEv N T S → Prop
  | .arrive _ _ => False
  | .close _ => True
  | .proc _ => False
  | .loop k => k.procs = []

/-- Nothing is under way: no message waits, no request waits, no client has a block. -/
def NothingDue (c : SysConf T) (x : Sys N T K S) : Prop :=
  x.queue = [] ∧ x.srv.book = [] ∧ ∀ t ∈ c.cfg.served, x.srv.pending t = []

/-- No worker has crashed, or has handed an exception to its pool, without the server having noticed. -/
def Unhurt (ps : Pools T) : Prop :=
  ∀ t p, (t, p) ∈ ps.pools → p.errors = [] ∧ ∀ w ∈ p.workers, ∀ code, w.proc = some (.exited code) → code = 0

end Verif.Spec
