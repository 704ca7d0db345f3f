import Verif.Model.ById
import Verif.Spec.Exec

/-! # Executions in which user code changes the blocks it is given -/

namespace Verif.Spec

variable {N T K : Type} [DecidableEq N] [DecidableEq T] [DecidableEq K]

/-- The same event with the id instead of the block. -/
def evKey (key : N → K) : Ev N → Ev K
  | .skip n => .skip (key n)
  | .hand n => .hand (key n)
  | .good n => .good (key n)
  | .bad n => .bad (key n)

/-- `upstream` and `downstream` do not raise for the blocks of the graph. -/
def Total (ig : IdGraph N T K) : Prop :=
  ∀ n ∈ ig.g.nodes, ig.up n = .ok (ig.g.up n) ∧ ig.down n = .ok (ig.g.down n)

/-- The object `n'` has the ids of block `n`, and the dependency graph does not see a difference. -/
structure Unseen (ig : IdGraph N T K) (n' n : N) : Prop where
  key : ig.g.key n' = ig.g.key n
  task : ig.g.task n' = ig.g.task n
  up : ig.up n' = ig.up n
  down : ig.down n' = ig.down n

/-- The object has the ids of a block of the graph; user code may have changed anything else. -/
def SameIds (ig : IdGraph N T K) (n' : N) : Prop := ∃ n ∈ ig.g.nodes, ig.g.key n' = ig.g.key n ∧ ig.g.task n' = ig.g.task n

instance (ig : IdGraph N T K) (n' : N) : Decidable (SameIds ig n') := by unfold SameIds; infer_instance

/-- Executions of the scheduler, with blocks compared by id.  A block that is released is one with the ids of one that was
handed out and was not released since; apart from that it can be any object that `ok` allows. -/
inductive IdRun (ig : IdGraph N T K) (ok : N → Prop) : List (Ev N) → Sched N T K → Prop where
  | init : IdRun ig ok [] (Sched.init ig.g)
  | acquire {tr : List (Ev N)} {st st' : Sched N T K} {skips : List N} {r : Option N}
      (chk : Nat → N → Check) (t : T) :
      IdRun ig ok tr st → ById.acquireBlock ig chk st t = .ok (skips, r, st') →
      IdRun ig ok (tr ++ acquireEvents skips r) st'
  | good {tr : List (Ev N)} {st st' : Sched N T K} {n : N} (pick : Nat → Finset N → N) :
      IdRun ig ok tr st → Held (tr.map (evKey ig.g.key)) (ig.g.key n) → ok n → LegalPick pick →
      ById.releaseBlock ig pick st n .success = .ok st' → IdRun ig ok (tr ++ [.good n]) st'
  | bad {tr : List (Ev N)} {st st' : Sched N T K} {n : N} (pick : Nat → Finset N → N) :
      IdRun ig ok tr st → Held (tr.map (evKey ig.g.key)) (ig.g.key n) → ok n → LegalPick pick →
      ById.releaseBlock ig pick st n .failed = .ok st' → IdRun ig ok (tr ++ [.bad n]) st'

/-- The claim of C119 for a state: only blocks of the graph were handed out or skipped, a block that is held can be given
back, and if no task has ready blocks, nothing is held and nothing has failed, then all blocks have completed. -/
def Unharmed (ig : IdGraph N T K) (ok : N → Prop) (tr : List (Ev N)) (st : Sched N T K) : Prop :=
  (∀ n, (.hand n ∈ tr ∨ .skip n ∈ tr) → n ∈ ig.g.nodes) ∧
  (∀ n', ok n' → Held (tr.map (evKey ig.g.key)) (ig.g.key n') → ∀ pick, LegalPick pick →
    (∃ st', ById.releaseBlock ig pick st n' .success = .ok st') ∧
    (∃ st', ById.releaseBlock ig pick st n' .failed = .ok st')) ∧
  (st.getReadyTasks ig.g = [] → (∀ n ∈ ig.g.nodes, ¬ Held (tr.map (evKey ig.g.key)) (ig.g.key n)) →
    (∀ n, .bad n ∉ tr) → ∀ n ∈ ig.g.nodes, Done (tr.map (evKey ig.g.key)) (ig.g.key n))

/-- The claim of C119: this holds whatever is changed. -/
def ChangesHarmless (ig : IdGraph N T K) : Prop :=
  ∀ tr st, IdRun ig (SameIds ig) tr st → Unharmed ig (SameIds ig) tr st

end Verif.Spec

namespace Verif

open Spec

variable {N T K : Type} [DecidableEq N] [DecidableEq T] [DecidableEq K]

/-- Run a list of calls from a given history and state, see `execFrom`. -/
def idExecFrom (ig : IdGraph N T K) (ok : N → Prop) [DecidablePred ok] (pick : Nat → Finset N → N) :
    List (Act N T) → List (Ev N) → Sched N T K → Option (List (Ev N) × Sched N T K)
  | [], tr, st => some (tr, st)
  | .acq t acc :: as, tr, st =>
    match ById.acquireBlock ig (fun _ n => if n ∈ acc then .accept else .reject) st t with
    | .ok (skips, r, st') => idExecFrom ig ok pick as (tr ++ acquireEvents skips r) st'
    | .error _ => none
  | .good n :: as, tr, st =>
    if Held (tr.map (evKey ig.g.key)) (ig.g.key n) ∧ ok n then
      match ById.releaseBlock ig pick st n .success with
      | .ok st' => idExecFrom ig ok pick as (tr ++ [.good n]) st'
      | .error _ => none
    else none
  | .bad n :: as, tr, st =>
    if Held (tr.map (evKey ig.g.key)) (ig.g.key n) ∧ ok n then
      match ById.releaseBlock ig pick st n .failed with
      | .ok st' => idExecFrom ig ok pick as (tr ++ [.bad n]) st'
      | .error _ => none
    else none

/-- Run a list of calls on a new scheduler. -/
def idExec (ig : IdGraph N T K) (ok : N → Prop) [DecidablePred ok] (pick : Nat → Finset N → N) (as : List (Act N T)) :
    Option (List (Ev N) × Sched N T K) := idExecFrom ig ok pick as [] (Sched.init ig.g)

theorem idExecFrom_run {ig : IdGraph N T K} {ok : N → Prop} [DecidablePred ok] {pick : Nat → Finset N → N} (hp : LegalPick pick) :
    ∀ (as : List (Act N T)) {tr tr' : List (Ev N)} {st st' : Sched N T K}, IdRun ig ok tr st →
      idExecFrom ig ok pick as tr st = some (tr', st') → IdRun ig ok tr' st'
  | [], _, _, _, _, h, he => by cases he; exact h
  | .acq t acc :: as, tr, tr', st, st', h, he => by
    simp only [idExecFrom] at he
    split at he
    · rename_i hacq
      exact idExecFrom_run hp as (.acquire _ t h hacq) he
    · cases he
  | .good n :: as, tr, tr', st, st', h, he => by
    simp only [idExecFrom] at he
    split at he
    · rename_i hh
      split at he
      · rename_i hr
        exact idExecFrom_run hp as (.good pick h hh.1 hh.2 hp hr) he
      · cases he
    · cases he
  | .bad n :: as, tr, tr', st, st', h, he => by
    simp only [idExecFrom] at he
    split at he
    · rename_i hh
      split at he
      · rename_i hr
        exact idExecFrom_run hp as (.bad pick h hh.1 hh.2 hp hr) he
      · cases he
    · cases he

theorem idExec_map {α : Type} {ig : IdGraph N T K} {ok : N → Prop} [DecidablePred ok] {pick : Nat → Finset N → N} (hp : LegalPick pick)
    {as : List (Act N T)} (f : List (Ev N) × Sched N T K → α) {v : α}
    (h : (idExec ig ok pick as).map f = some v) : ∃ tr st, IdRun ig ok tr st ∧ f (tr, st) = v := by
  rcases he : idExec ig ok pick as with _ | ⟨tr, st⟩
  · rw [he] at h; cases h
  · rw [he] at h
    exact ⟨tr, st, idExecFrom_run hp as .init he, by simpa using h⟩

end Verif
