import Verif.Model.Queries
import Verif.Spec.History
import Verif.Model.BlockGraph
import Mathlib.Algebra.BigOperators.Fin

/-! # Executions of the scheduler, with the number of times it has asked for dependencies -/

namespace Verif

open Spec

/-- All executions, as `Run`.  The third index says how often each block has been reported as an orphan, the fourth how
often the scheduler has asked the dependency graph. -/
inductive RunAsked {N T K : Type} [DecidableEq N] [DecidableEq T] [DecidableEq K] (g : DGraph N T K) :
    List (Ev N) → Sched N T K → (N → Nat) → Nat → Prop where
  | init : RunAsked g [] (Sched.init g) (fun _ => 0) 0
  | acquire {tr : List (Ev N)} {st st' : Sched N T K} {o : N → Nat} {q k : Nat} {skips : List N} {r : Option N}
      (chk : Nat → N → Check) (t : T) :
      RunAsked g tr st o q → Counted.acquireBlock g chk st t = ⟨.ok (skips, r, st'), k⟩ →
      RunAsked g (tr ++ acquireEvents skips r) st' o (q + k)
  | good {tr : List (Ev N)} {st st' : Sched N T K} {o : N → Nat} {q k : Nat} {n : N} (pick : Nat → Finset N → N) :
      RunAsked g tr st o q → Held tr n → LegalPick pick →
      Counted.releaseBlock g pick st n .success = ⟨.ok st', k⟩ → RunAsked g (tr ++ [.good n]) st' o (q + k)
  | bad {tr : List (Ev N)} {st st' : Sched N T K} {o : N → Nat} {q k : Nat} {n : N} (pick : Nat → Finset N → N) :
      RunAsked g tr st o q → Held tr n → LegalPick pick →
      Counted.releaseBlock g pick st n .failed = ⟨.ok st', k⟩ →
      RunAsked g (tr ++ [.bad n]) st' (fun m => o m + if m ∈ st.orphansOf g pick n .failed then 1 else 0) (q + k)

/-- No block has more than `U` direct upstream or `D` direct downstream blocks. -/
structure Spec.Degrees {N T K : Type} (g : DGraph N T K) (U D : Nat) : Prop where
  up : ∀ n ∈ g.nodes, (g.up n).length ≤ U
  down : ∀ n ∈ g.nodes, (g.down n).length ≤ D

/-- A bound on the number of cells of shape `w` that a box of shape `s` meets, wherever it is. -/
def Spec.cellsMet {d : Nat} (s w : Coord d) : Nat := ∏ i, ((s.get i).toNat / (w.get i).toNat + 2)

end Verif
