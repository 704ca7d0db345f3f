import Verif.Model.System
import Verif.Spec.ServerSpec
import Verif.Spec.PoolSpec

/-! # Histories of the server with its queue and its worker pools -/

namespace Verif.Spec

open Verif

variable {N T K S : Type} [DecidableEq N] [DecidableEq T] [DecidableEq K] [DecidableEq S]

/-- Events that can happen: nothing comes from a closed stream, messages are those of correct clients, `set.pop`
takes elements of sets, and the event loop runs until the stop event is set. -/
def LegalEv (g : DGraph N T K) (c : SysConf T) (x : Sys N T K S) : SysEv N T S → Prop
  | .arrive m s => s ∉ x.closed ∧ GoodMsg g c.cfg m
  | .close s => s ∉ x.closed
  | .proc _ => True
  | .loop k => x.srv.stop = false ∧ LegalPick k.pick ∧ ∀ n, LegalPick (k.pickLost n)

/-- All executions without an exception in which the clients and the processes behave as `P` says. -/
inductive SysRun (g : DGraph N T K) (c : SysConf T) (P : Sys N T K S → SysEv N T S → Prop) :
    List (SysEv N T S) → Sys N T K S → Prop where
  | init {x : Sys N T K S} : Sys.init g c = .ok x → SysRun g c P [] x
  | step {es : List (SysEv N T S)} {x x' : Sys N T K S} (e : SysEv N T S) : SysRun g c P es x →
      LegalEv g c x e → P x e → x.step g c e = .ok x' → SysRun g c P (es ++ [e]) x'

/-- A piece of an execution. -/
inductive SysSteps (g : DGraph N T K) (c : SysConf T) (P : Sys N T K S → SysEv N T S → Prop) (x : Sys N T K S) :
    List (SysEv N T S) → Sys N T K S → Prop where
  | nil : SysSteps g c P x [] x
  | step {es : List (SysEv N T S)} {y y' : Sys N T K S} (e : SysEv N T S) : SysSteps g c P x es y →
      LegalEv g c y e → P y e → y.step g c e = .ok y' → SysSteps g c P x (es ++ [e]) y'

/-- Anything may happen. -/
def Anything (_ : Sys N T K S) (_ : SysEv N T S) : Prop := True

/-- The block that is sent to a client whose stream is not one of `closed`. -/
def delivery (closed : List S) : Out N T S → Option N
  | .send s n => if s ∈ closed then none else some n
  | _ => none

/-- The blocks that an event sends to clients whose streams are open when it starts. -/
def deliveredBy (x x' : Sys N T K S) : List N :=
  (x'.srv.out.drop x.srv.out.length).filterMap (delivery x.closed)

/-- Executions with the list of all blocks that were sent to clients whose streams were open. -/
inductive SysDeliv (g : DGraph N T K) (c : SysConf T) (P : Sys N T K S → SysEv N T S → Prop) :
    List (SysEv N T S) → Sys N T K S → List N → Prop where
  | init {x : Sys N T K S} : Sys.init g c = .ok x → SysDeliv g c P [] x []
  | step {es : List (SysEv N T S)} {x x' : Sys N T K S} {ns : List N} (e : SysEv N T S) :
      SysDeliv g c P es x ns → LegalEv g c x e → P x e → x.step g c e = .ok x' →
      SysDeliv g c P (es ++ [e]) x' (ns ++ deliveredBy x x')

/-- The process of worker `id` of task `t` is running. -/
def Running (ps : Pools T) (t : T) (id : Nat) : Prop :=
  ∃ p, (t, p) ∈ ps.pools ∧ ∃ w ∈ p.workers, w.id = id ∧ w.proc = some .running

end Verif.Spec
