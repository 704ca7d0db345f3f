import Verif.Spec.History
import Verif.Model.Task

/-! # What the function arguments of a task are documented to do -/

namespace Verif
namespace Spec

/-- Python accepts a call of the function with `n` positional arguments: there are not more than it has parameters, all
parameters without default value get one, and no keyword-only parameter needs a value. -/
def Sig.Accepts (s : Sig) (n : Nat) : Prop :=
  (n ≤ s.params.length ∨ s.varargs = true) ∧ (∀ p ∈ s.params.drop n, p.default = true) ∧
    ∀ p ∈ s.kwonly, p.default = true

/-- The function can be called with `n` arguments; a wrapper hands them on. -/
def Fn.Accepts : Fn → Nat → Prop
  | .plain s, n => Sig.Accepts s n
  | .wrapped f, n => Fn.Accepts f n

/-- A function or method written in the usual way: all parameters are positional and have no default value, the bound
one, if any, is called `self`, and no other is. -/
def Fn.Usual : Fn → Prop
  | .plain s => (s.bound = none ∨ s.bound = some "self") ∧ s.varargs = false ∧ s.kwonly = [] ∧
      ∀ p ∈ s.params, p.default = false ∧ p.name ≠ "self"
  | .wrapped _ => False

variable {N T K : Type} [DecidableEq N]

/-- Events of an execution with check functions: `acquire_block` on task `t`, where the check function (the first one of
a tuple) does `pre`; a block is returned, and the check function (the second one of a tuple) would now do `post`. -/
inductive CheckEv (N T : Type) where
  | acquired (t : T) (pre : Nat → N → Check) (skips : List N) (r : Option N)
  | returned (n : N) (post : Check) (good : Bool)

/-- The events of the scheduler. -/
def CheckEv.evs : CheckEv N T → List (Ev N)
  | .acquired _ _ skips r => acquireEvents skips r
  | .returned n _ true => [.good n]
  | .returned n _ false => [.bad n]

/-- Executions of the scheduler with the check functions that were passed to the tasks. -/
inductive CheckRun [DecidableEq T] [DecidableEq K] (g : DGraph N T K) (kind : T → CheckKind) :
    List (CheckEv N T) → Sched N T K → Prop where
  | init : CheckRun g kind [] (Sched.init g)
  | acquire {log : List (CheckEv N T)} {st st' : Sched N T K} {skips : List N} {r : Option N}
      (pre : Nat → N → Check) (t : T) : CheckRun g kind log st →
      st.acquireBlock g ((kind t).call pre) t = .ok (skips, r, st') →
      CheckRun g kind (log ++ [.acquired t pre skips r]) st'
  | release {log : List (CheckEv N T)} {st st' : Sched N T K} (n : N) (post : Check) (good : Bool)
      (pick : Nat → Finset N → N) : CheckRun g kind log st → Held (log.flatMap CheckEv.evs) n → LegalPick pick →
      st.releaseBlock g pick n (if good then .success else .failed) = .ok st' →
      CheckRun g kind (log ++ [.returned n post good]) st'

/-- The check before a block is handed out did what is documented: without check function nothing is skipped; otherwise
the skipped blocks are those that were accepted, and the block that is handed out was not. -/
def PreOK (kind : T → CheckKind) : CheckEv N T → Prop
  | .acquired t pre skips r => (kind t = .none → skips = []) ∧ (kind t ≠ .none →
      (∀ i x, skips[i]? = some x → pre i x = .accept) ∧ ∀ n, r = some n → pre skips.length n ≠ .accept)
  | .returned _ _ _ => True

/-- The block was accepted by the check after it was processed. -/
def PostAccepted (log : List (CheckEv N T)) (n : N) : Prop := .returned n .accept true ∈ log

end Spec
end Verif
