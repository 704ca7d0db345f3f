import Verif.Spec.Graph
import Verif.Model.Scheduler

/-! # Histories of scheduler use

A history is the list of observable events, oldest first.  The notions below speak about the
events only, not about the scheduler's data structures. -/

namespace Verif

/-- Observable events: the check function accepted a block when it was about to be handed out;
a block was handed out; it was released with SUCCESS; it was released with FAILED. -/
inductive Ev (N : Type) where
  | skip (n : N)
  | hand (n : N)
  | good (n : N)
  | bad (n : N)
  deriving DecidableEq

namespace Ev
/-- The block an event is about. -/
def node {N : Type} : Ev N → N
  | skip n => n
  | hand n => n
  | good n => n
  | bad n => n
end Ev

namespace Spec

variable {N T K : Type} [DecidableEq N]

/-- The block is with a worker: it was handed out more often than released. -/
def Held (tr : List (Ev N)) (n : N) : Prop :=
  tr.count (.good n) + tr.count (.bad n) < tr.count (.hand n)

/-- The block has completed. -/
def Done (tr : List (Ev N)) (n : N) : Prop := .good n ∈ tr ∨ .skip n ∈ tr

/-- The block has failed permanently: it failed more than `max_retries` times. -/
def Dead (g : DGraph N T K) (tr : List (Ev N)) (n : N) : Prop :=
  .bad n ∈ tr ∧ g.maxRetries (g.task n) < tr.count (.bad n)

/-- The block is downstream of a permanently failed block. -/
def Orphan (g : DGraph N T K) (tr : List (Ev N)) (n : N) : Prop := ∃ f, Dead g tr f ∧ Anc g f n

/-- The block can be handed out now. -/
def Ready (g : DGraph N T K) (tr : List (Ev N)) (n : N) : Prop :=
  n ∈ g.nodes ∧ (∀ u ∈ g.up n, Done tr u) ∧ ¬ Done tr n ∧ ¬ Dead g tr n ∧ ¬ Held tr n

/-- What may happen next: a block is handed out or skipped only when it is ready, and only a held
block is released. -/
def Allowed (g : DGraph N T K) (pre : List (Ev N)) : Ev N → Prop
  | .skip n => Ready g pre n
  | .hand n => Ready g pre n
  | .good n => Held pre n
  | .bad n => Held pre n

/-- Every event of the history was allowed when it happened. -/
def Legal (g : DGraph N T K) (tr : List (Ev N)) : Prop :=
  ∀ pre e post, tr = pre ++ e :: post → Allowed g pre e

/-- An oracle for `set.pop` that always names an element of the set. -/
def LegalPick (pick : Nat → Finset N → N) : Prop := ∀ k s, s.Nonempty → pick k s ∈ s

/-- Events of a call of `acquire_block` that skipped `skips` and returned `r`. -/
def acquireEvents (skips : List N) (r : Option N) : List (Ev N) :=
  skips.map .skip ++ (r.map Ev.hand).toList

end Spec

open Spec

/-- All executions: any interleaving of `acquire_block` (any task, any behaviour of the check
function) and of `release_block` for held blocks, with SUCCESS or FAILED. -/
inductive Run {N T K : Type} [DecidableEq N] [DecidableEq T] [DecidableEq K] (g : DGraph N T K) :
    List (Ev N) → Sched N T K → Prop where
  | init : Run g [] (Sched.init g)
  | acquire {tr : List (Ev N)} {st st' : Sched N T K} {skips : List N} {r : Option N}
      (chk : Nat → N → Check) (t : T) :
      Run g tr st → st.acquireBlock g chk t = .ok (skips, r, st') →
      Run g (tr ++ acquireEvents skips r) st'
  | good {tr : List (Ev N)} {st st' : Sched N T K} {n : N} (pick : Nat → Finset N → N) :
      Run g tr st → Held tr n → LegalPick pick →
      st.releaseBlock g pick n .success = .ok st' → Run g (tr ++ [.good n]) st'
  | bad {tr : List (Ev N)} {st st' : Sched N T K} {n : N} (pick : Nat → Finset N → N) :
      Run g tr st → Held tr n → LegalPick pick →
      st.releaseBlock g pick n .failed = .ok st' → Run g (tr ++ [.bad n]) st'

/-- Executions together with the set of blocks that have been reported as orphans so far. -/
inductive RunOrph {N T K : Type} [DecidableEq N] [DecidableEq T] [DecidableEq K] (g : DGraph N T K) :
    List (Ev N) → Sched N T K → Finset N → Prop where
  | init : RunOrph g [] (Sched.init g) ∅
  | acquire {tr : List (Ev N)} {st st' : Sched N T K} {rep : Finset N} {skips : List N}
      {r : Option N} (chk : Nat → N → Check) (t : T) :
      RunOrph g tr st rep → st.acquireBlock g chk t = .ok (skips, r, st') →
      RunOrph g (tr ++ acquireEvents skips r) st' rep
  | good {tr : List (Ev N)} {st st' : Sched N T K} {rep : Finset N} {n : N}
      (pick : Nat → Finset N → N) :
      RunOrph g tr st rep → Held tr n → LegalPick pick →
      st.releaseBlock g pick n .success = .ok st' →
      RunOrph g (tr ++ [.good n]) st' (rep ∪ st.orphansOf g pick n .success)
  | bad {tr : List (Ev N)} {st st' : Sched N T K} {rep : Finset N} {n : N}
      (pick : Nat → Finset N → N) :
      RunOrph g tr st rep → Held tr n → LegalPick pick →
      st.releaseBlock g pick n .failed = .ok st' →
      RunOrph g (tr ++ [.bad n]) st' (rep ∪ st.orphansOf g pick n .failed)

end Verif
