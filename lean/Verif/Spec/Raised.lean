import Verif.Model.Raised
import Verif.Spec.ServerReuse
import Verif.Spec.SystemSpec

/-! # What is expected when user code raises an exception -/

namespace Verif.Spec

variable {N T K S : Type} [DecidableEq N] [DecidableEq T] [DecidableEq K] [DecidableEq S]

/-- The failures that observers are told of, in order: block and worker. -/
def told (out : List (Out N T S)) : List (N × Nat) :=
  out.filterMap (fun o => match o with
    | .blockFailure n w => some (n, w)
    | _ => none)

/-- The messages of stream `s` in a queue. -/
def fromStream (s : S) (q : List (Msg N T × S)) : List (Msg N T) :=
  (q.filter (fun p => decide (p.2 = s))).map (·.1)

/-- No client ever reports a failure. -/
def Mute (es : List (SysEv N T S)) : Prop := ∀ n w s, .arrive (.blockFailed n w) s ∉ es

end Verif.Spec
