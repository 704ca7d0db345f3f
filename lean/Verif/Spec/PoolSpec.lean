import Verif.Model.WorkerPool

/-! # Histories of worker pools -/

namespace Verif.Spec

open Verif

/-- What happens to the pools. -/
inductive PoolEv (T : Type) where
  /-- the server recruits workers for the tasks that are ready -/
  | recruit (ready : List T)
  /-- the server checks the health of the workers -/
  | health
  /-- worker `id` reports that a block has failed -/
  | failure (t : T) (id : Nat)
  /-- the process of worker `id` ends -/
  | exit (t : T) (id : Nat) (code : Int)
  /-- a worker hands an exception to the pool -/
  | report (t : T) (e : PyErr)
  deriving DecidableEq

variable {T : Type} [DecidableEq T]

/-- One event.  Tasks have `num` workers, workers are restarted after more than `maxF` failures. -/
def poolStep (num : T → Nat) (maxF : Nat) (ps : Pools T) : PoolEv T → Except PyErr (Pools T)
  | .recruit ready => .ok (ps.recruit num ready)
  | .health => ps.health
  | .failure t id => ps.onBlockFailure maxF t id
  | .exit t id code => .ok (ps.exit t id code)
  | .report t e => .ok (ps.report t e)

/-- A sequence of events without an exception leads from `ps` to `ps'`. -/
inductive PoolRun (num : T → Nat) (maxF : Nat) (ps : Pools T) : List (PoolEv T) → Pools T → Prop where
  | nil : PoolRun num maxF ps [] ps
  | snoc {es : List (PoolEv T)} {e : PoolEv T} {ps' ps'' : Pools T} : PoolRun num maxF ps es ps' →
      poolStep num maxF ps' e = .ok ps'' → PoolRun num maxF ps (es ++ [e]) ps''

/-- The worker of task `t` with this id is in its pool. -/
def InPool (ps : Pools T) (t : T) (id : Nat) : Prop :=
  ∃ p, (t, p) ∈ ps.pools ∧ ∃ w ∈ p.workers, w.id = id

/-- Every failure is reported while the worker is still in its pool. -/
inductive Timely (num : T → Nat) (maxF : Nat) (ps : Pools T) : List (PoolEv T) → Pools T → Prop where
  | nil : Timely num maxF ps [] ps
  | snoc {es : List (PoolEv T)} {e : PoolEv T} {ps' ps'' : Pools T} : Timely num maxF ps es ps' →
      (∀ t id, e = .failure t id → InPool ps' t id) →
      poolStep num maxF ps' e = .ok ps'' → Timely num maxF ps (es ++ [e]) ps''

/-- Executes events, for examples. -/
def poolExec (num : T → Nat) (maxF : Nat) : Pools T → List (PoolEv T) → Option (Pools T)
  | ps, [] => some ps
  | ps, e :: es =>
    match poolStep num maxF ps e with
    | .error _ => none
    | .ok ps' => poolExec num maxF ps' es

theorem poolExec_run (num : T → Nat) (maxF : Nat) : ∀ (es : List (PoolEv T)) (ps ps1 ps2 : Pools T)
    (es1 : List (PoolEv T)), PoolRun num maxF ps es1 ps1 → poolExec num maxF ps1 es = some ps2 →
    PoolRun num maxF ps (es1 ++ es) ps2
  | [], ps, ps1, ps2, es1, h, hx => by
    cases hx
    simpa using h
  | e :: es, ps, ps1, ps2, es1, h, hx => by
    unfold poolExec at hx
    split at hx
    · cases hx
    · rename_i ps' hs
      have := poolExec_run num maxF es ps ps' ps2 (es1 ++ [e]) (.snoc h hs) hx
      simpa using this

end Verif.Spec
