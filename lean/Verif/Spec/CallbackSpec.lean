import Verif.Spec.ServerSpec

/-! # Where a log stops -/

namespace Verif.Spec

open Verif

variable {N T S : Type}

/-- `cut` is what there is of the log `whole` if callbacks raise as `fails` says, and `e` the exception: the whole log
and none, or everything up to the first callback that raises, and its exception. -/
def CutAt (fails : T → Option PyErr) (whole cut : List (Out N T S)) (e : Option PyErr) : Prop :=
  (cut = whole ∧ e = none ∧ ∀ t, .callback t ∈ whole → fails t = none) ∨
  ∃ pre t post, whole = pre ++ .callback t :: post ∧ cut = pre ++ [.callback t] ∧ e = fails t ∧ fails t ≠ none ∧
    ∀ t', .callback t' ∈ pre → fails t' = none

end Verif.Spec
