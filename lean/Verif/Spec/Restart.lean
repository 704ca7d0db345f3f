import Verif.Spec.Data

/-! # Computations that are interrupted and started again

As `Spec/Data`, but the scheduler may be lost at any time, together with everything that is out; then a new one begins
from the start.  What stays are the data and the marks of finished blocks, which the check functions look at. -/

namespace Verif

open Spec

variable {N T K L V : Type} [DecidableEq N] [DecidableEq T] [DecidableEq K] [DecidableEq L]

/-- Executions with any number of restarts.  The history, the state of the scheduler and `cur` are those of the current
run, the data `D` and the marks `M` those of the whole computation.  A process function marks its block after it has
stored its results, and before the block is released with SUCCESS; check functions accept the marked blocks
(`examples/tutorial.py` 135-162: files that are touched; 998: "we recommend including a step in your process function
after you write out the result of a block, in which you write out the block id to a database or a file. Then, the
pre-check function can just check if the block id is in the file system or database"). -/
inductive RestartRun (g : DGraph N T K) (P : N → Prog L V) (D₀ : L → V) :
    List (Ev N) → Sched N T K → (L → V) → (N → Prog L V) → (N → Prop) → Prop where
  | init : RestartRun g P D₀ [] (Sched.init g) D₀ P (fun _ => False)
  | acquire {tr : List (Ev N)} {st st' : Sched N T K} {D : L → V} {cur : N → Prog L V} {M : N → Prop} {skips : List N}
      {r : Option N} (chk : Nat → N → Check) (t : T) :
      RestartRun g P D₀ tr st D cur M → (∀ i n, chk i n = .accept ↔ M n) →
      st.acquireBlock g chk t = .ok (skips, r, st') →
      RestartRun g P D₀ (tr ++ acquireEvents skips r) st' D (fun n => if r = some n then P n else cur n) M
  | step {tr : List (Ev N)} {st : Sched N T K} {D D' : L → V} {cur : N → Prog L V} {M : N → Prop} {n : N}
      {q : Prog L V} :
      RestartRun g P D₀ tr st D cur M → Held tr n → (cur n).step D = some (q, D') →
      RestartRun g P D₀ tr st D' (upd cur n q) M
  | mark {tr : List (Ev N)} {st : Sched N T K} {D : L → V} {cur : N → Prog L V} {M : N → Prop} {n : N} :
      RestartRun g P D₀ tr st D cur M → Held tr n → cur n = .done →
      RestartRun g P D₀ tr st D cur (fun m => m = n ∨ M m)
  | good {tr : List (Ev N)} {st st' : Sched N T K} {D : L → V} {cur : N → Prog L V} {M : N → Prop} {n : N}
      (pick : Nat → Finset N → N) :
      RestartRun g P D₀ tr st D cur M → Held tr n → LegalPick pick → M n →
      st.releaseBlock g pick n .success = .ok st' → RestartRun g P D₀ (tr ++ [.good n]) st' D cur M
  | bad {tr : List (Ev N)} {st st' : Sched N T K} {D : L → V} {cur : N → Prog L V} {M : N → Prop} {n : N}
      (pick : Nat → Finset N → N) :
      RestartRun g P D₀ tr st D cur M → Held tr n → LegalPick pick →
      st.releaseBlock g pick n .failed = .ok st' → RestartRun g P D₀ (tr ++ [.bad n]) st' D cur M
  | restart {tr : List (Ev N)} {st : Sched N T K} {D : L → V} {cur : N → Prog L V} {M : N → Prop} :
      RestartRun g P D₀ tr st D cur M → RestartRun g P D₀ [] (Sched.init g) D P M

end Verif
