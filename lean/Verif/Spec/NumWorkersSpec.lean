import Verif.Spec.SystemSpec

/-! # Vocabulary for the number of workers -/

namespace Verif.Spec

open Verif

variable {N T K S : Type}

/-- The task has a worker, or has had one. -/
def Manned (ps : Pools T) (t : T) : Prop := ∃ p, (t, p) ∈ ps.pools ∧ p.workers ≠ []

/-- The message is about this task. -/
def About (g : DGraph N T K) (t : T) : Msg N T → Prop
  | .acquire t' => t' = t
  | .release n _ => g.task n = t
  | .blockFailed n _ => g.task n = t
  | _ => False

/-- Messages about a task come from workers of this task only; everything else can happen at any time. -/
def OwnWorkers (g : DGraph N T K) (x : Sys N T K S) : SysEv N T S → Prop
  | .arrive m _ => ∀ t, About g t m → Manned x.pools t
  | _ => True

end Verif.Spec
