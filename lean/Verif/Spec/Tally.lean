import Verif.Spec.History

/-! # Counting events of a task -/

namespace Verif

/-- Kinds of events. -/
inductive EvKind where
  | skip
  | hand
  | good
  | bad
  deriving DecidableEq

/-- The kind of an event. -/
def Ev.kind {N : Type} : Ev N → EvKind
  | .skip _ => .skip
  | .hand _ => .hand
  | .good _ => .good
  | .bad _ => .bad

namespace Spec

variable {N T K : Type} [DecidableEq T]

/-- How many events of a kind there were for blocks of task `t`. -/
def tally (g : DGraph N T K) (t : T) (k : EvKind) (tr : List (Ev N)) : Nat :=
  tr.countP (fun e => decide (e.kind = k ∧ g.task e.node = t))

/-- What is asked of the root blocks: the number of root blocks of a root task is right, and they belong to it.
Nothing is asked of `up` and `down`. -/
structure GoodRoots (g : DGraph N T K) : Prop where
  nodup : g.rootTasks.Nodup
  num : ∀ t ∈ g.rootTasks, g.numRoots t = (g.rootGen t).length
  task : ∀ t ∈ g.rootTasks, ∀ n ∈ g.rootGen t, g.task n = t

end Spec

end Verif
