import Verif.Model.Strangers
import Verif.Spec.ServerSpec

/-! # Executions of the server with arbitrary clients -/

namespace Verif.Spec

variable {N T K S : Type} [DecidableEq N] [DecidableEq T] [DecidableEq K] [DecidableEq S]

/-- A block in a message that has the id of a block of this run is that block.  Nothing else is assumed of messages. -/
def Genuine (g : DGraph N T K) : Msg N T → Prop
  | .release n _ => ∀ n' ∈ g.nodes, g.key n = g.key n' → n = n'
  | .blockFailed n _ => ∀ n' ∈ g.nodes, g.key n = g.key n' → n = n'
  | _ => True

/-- What may happen in an iteration: any message, and `set.pop` takes elements of sets. -/
def AnyTick (g : DGraph N T K) (k : Server.Tick N T S) : Prop :=
  (∀ m s, k.recv = .msg m s → Genuine g m) ∧ LegalPick k.pick ∧ ∀ n, LegalPick (k.pickLost n)

/-- All executions of the event loop with arbitrary clients, as long as nothing is raised. -/
inductive OpenRun (g : DGraph N T K) (cfg : SConf T) : List (Server.Tick N T S) → OpenServer N T K S → Prop where
  | init : OpenRun g cfg [] (OpenServer.init g)
  | step {ks : List (Server.Tick N T S)} {x x' : OpenServer N T K S} (k : Server.Tick N T S) :
      OpenRun g cfg ks x → x.srv.stop = false → AnyTick g k → x.iteration g cfg k = .ok x' →
      OpenRun g cfg (ks ++ [k]) x'

/-- Messages that stop a server whose log is `out`: an exception of a client that is not about a block, a message of a
kind that the server does not know, and the return of a block that the sender has with a status that is neither
`SUCCESS` nor `FAILED`. -/
def Fatal (out : List (Out N T S)) : Server.Recv N T S → Prop
  | .msg .clientException _ => True
  | .msg .other _ => True
  | .msg (.release n status) s => holder out n = some s ∧ status ≠ .success ∧ status ≠ .failed
  | _ => False

/-- Some client has asked for task `t`. -/
def Requested (ks : List (Server.Tick N T S)) (t : T) : Prop := ∃ k ∈ ks, ∃ s, k.recv = .msg (.acquire t) s

/-- Whether an entry of the log is about a task of the pipeline. -/
def ofPipeline (g : DGraph N T K) : Out N T S → Bool
  | .taskDone t => decide (t ∈ g.tasks)
  | _ => true

/-- The same server as if only the tasks of the pipeline had ever been announced as done. -/
def strip (g : DGraph N T K) (σ : Server N T K S) : Server N T K S :=
  { σ with out := σ.out.filter (ofPipeline g), finished := σ.finished.filter (fun t => decide (t ∈ g.tasks)) }

end Verif.Spec
