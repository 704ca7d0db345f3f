import Verif.Spec.History

/-! # The order in which blocks are served -/

namespace Verif

namespace Spec

variable {N T K : Type} [DecidableEq T]

/-- The blocks of task `t` that were handed out or skipped, in this order. -/
def served (g : DGraph N T K) (t : T) (tr : List (Ev N)) : List N :=
  tr.filterMap fun e => match e with
    | .hand n => if g.task n = t then some n else none
    | .skip n => if g.task n = t then some n else none
    | _ => none

end Spec

end Verif
