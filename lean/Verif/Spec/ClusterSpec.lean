import Verif.Model.Cluster
import Verif.Spec.SystemSpec

/-! # Histories of the server with its workers -/

namespace Verif.Spec

open Verif

variable {N T K S : Type} [DecidableEq N] [DecidableEq T] [DecidableEq K] [DecidableEq S]

/-- The process has ended. -/
def Phase.Over {B : Type} : Phase B → Prop
  | .ended _ => True
  | .killed => True
  | _ => False

/-- Events that can happen.  A new client has a stream of its own and a task of this run; nothing comes from a
stream that is closed or whose client has said goodbye; a client loses its connection only by failures (which are
not the exception of `client.py` 107);
`set.pop` takes elements of sets, and the event loop runs until the stop event is set. -/
def LegalCl (c : SysConf T) (x : Cluster N T K S) : ClEv N T S → Prop
  | .connect s t _ => x.conn s = none ∧ s ∉ x.sys.closed ∧ t ∈ c.cfg.served
  | .client s _ => ∃ k, x.conn s = some k ∧ ¬ Phase.Over k.phase
  | .kill s => ∃ k, x.conn s = some k ∧ ¬ Phase.Over k.phase
  | .up s => s ∉ x.sys.closed ∧ ∃ k, x.conn s = some k ∧ k.gone = false ∧ k.tcp.outbox ≠ []
  | .down s => ∃ k, x.conn s = some k ∧ k.down ≠ []
  | .breaks s e => (∃ k, x.conn s = some k) ∧ ((∃ err, e = .fails err ∧ err ≠ .unexpectedMessage) ∨ e = .writeFails)
  | .sys (.arrive _ _) => False
  | .sys (.close s) => s ∉ x.sys.closed ∧ ∃ k, x.conn s = some k ∧ k.gone = false
  | .sys (.proc _) => True
  | .sys (.loop k) => x.sys.srv.stop = false ∧ (LegalPick k.pick ∧ ∀ n, LegalPick (k.pickLost n)) ∧
      ∀ s ∈ k.closing, ∃ q, x.conn s = some q ∧ q.gone = false

/-- All executions without an exception of the server. -/
inductive ClRun (g : DGraph N T K) (c : SysConf T) : List (ClEv N T S) → Cluster N T K S → Prop where
  | init {x : Cluster N T K S} : Cluster.init g c = .ok x → ClRun g c [] x
  | step {es : List (ClEv N T S)} {x x' : Cluster N T K S} (e : ClEv N T S) : ClRun g c es x →
      LegalCl c x e → x.step g c e = .ok x' → ClRun g c (es ++ [e]) x'

/-- A process works on block `n`: it is in the process function. -/
def WorksOn (x : Cluster N T K S) (s : S) (n : N) : Prop := ∃ k, x.conn s = some k ∧ k.phase = .working n

/-- The messages of client `s` in the queue of the server. -/
def queued (s : S) (q : List (Msg N T × S)) : List (Msg N T) :=
  q.filterMap (fun e => if e.2 = s then some e.1 else none)

/-- The messages that a client has sent and that have not reached the queue of the server. -/
def underway (k : Conn N T) : List (Msg N T) := k.tcp.outbox.filterMap (Conn.toMsg k.worker)

/-- The messages for a client that it has not read. -/
def unread (k : Conn N T) : List (ServerMsg N) :=
  k.tcp.inbox ++ k.down.filterMap (fun e => match e with | .arrives m => some m | _ => none)

/-- The messages of client `s` that the server has not read. -/
def unhandled (x : Cluster N T K S) (s : S) : List (Msg N T) :=
  queued s x.sys.queue ++ match x.conn s with | none => [] | some k => underway k

/-- A message that gives block `n` back. -/
def IsReturn (n : N) : Msg N T → Prop
  | .release m _ => m = n
  | .blockFailed m _ => m = n
  | _ => False

/-- The process function has done its work: it returned, and left the status of the block alone or set it to
`SUCCESS`; or it set the status to `SUCCESS` before it was interrupted (an exception like `KeyboardInterrupt`
that is not an `Exception`). -/
def EndsWell (body : BodyEnd) : Prop :=
  (body.raised = none ∧ (body.status = .enum .processing ∨ body.status = .enum .success)) ∨
  ∃ e, body.raised = some e ∧ e.isException = false ∧ body.status = .enum .success

/-- In the history `es` some process was in the process function with block `n`, and the process function ended in
a way that satisfies `P`. -/
def Ran (g : DGraph N T K) (c : SysConf T) (es : List (ClEv N T S)) (n : N) (P : BodyEnd → Prop) : Prop :=
  ∃ es₁ s body es₂, ∃ y : Cluster N T K S, es = es₁ ++ .client s body :: es₂ ∧ ClRun g c es₁ y ∧ WorksOn y s n ∧ P body

end Verif.Spec
