import Verif.Spec.Data
import Verif.Spec.Exec

/-! # Concrete executions with data -/

namespace Verif

open Spec

variable {N T K L V : Type} [DecidableEq N] [DecidableEq T] [DecidableEq K] [DecidableEq L]

/-- One call of the scheduler, or one step of the program of a block. -/
inductive DataAct (N T : Type) where
  | call (a : Act N T)
  | step (n : N)

/-- History, scheduler, data and what the blocks have still to do. -/
abbrev DataState (N T K L V : Type) := List (Ev N) × Sched N T K × (L → V) × (N → Prog L V)

/-- One action; check functions accept nothing. -/
def dataExec1 (g : DGraph N T K) (pick : Nat → Finset N → N) (P : N → Prog L V) :
    DataAct N T → DataState N T K L V → Option (DataState N T K L V)
  | .call (.acq t _), (tr, st, D, cur) =>
    match st.acquireBlock g (fun _ _ => .reject) t with
    | .ok ([], r, st') => some (tr ++ acquireEvents [] r, st', D, fun n => if r = some n then P n else cur n)
    | _ => none
  | .call (.good n), (tr, st, D, cur) =>
    if Held tr n then
      match cur n with
      | .done =>
        match st.releaseBlock g pick n .success with
        | .ok st' => some (tr ++ [.good n], st', D, cur)
        | .error _ => none
      | _ => none
    else none
  | .call (.bad n), (tr, st, D, cur) =>
    if Held tr n then
      match st.releaseBlock g pick n .failed with
      | .ok st' => some (tr ++ [.bad n], st', D, cur)
      | .error _ => none
    else none
  | .step n, (tr, st, D, cur) =>
    if Held tr n then
      match (cur n).step D with
      | some (q, D') => some (tr, st, D', upd cur n q)
      | none => none
    else none

/-- Many actions. -/
def dataExec (g : DGraph N T K) (pick : Nat → Finset N → N) (P : N → Prog L V) :
    List (DataAct N T) → DataState N T K L V → Option (DataState N T K L V)
  | [], x => some x
  | a :: as, x =>
    match dataExec1 g pick P a x with
    | some y => dataExec g pick P as y
    | none => none

theorem dataExec1_run {g : DGraph N T K} {pick : Nat → Finset N → N} (hp : LegalPick pick) {P : N → Prog L V}
    {D₀ : L → V} {a : DataAct N T} {x y : DataState N T K L V} (h : DataRun g P D₀ x.1 x.2.1 x.2.2.1 x.2.2.2)
    (he : dataExec1 g pick P a x = some y) : DataRun g P D₀ y.1 y.2.1 y.2.2.1 y.2.2.2 := by
  obtain ⟨tr, st, D, cur⟩ := x
  rcases a with (⟨t, acc⟩ | n | n) | n
  · simp only [dataExec1] at he
    split at he
    · rename_i hacq
      cases he
      exact DataRun.acquire _ t h hacq (by simp)
    · cases he
  · simp only [dataExec1] at he
    split at he
    · rename_i hh
      split at he
      · rename_i hc
        split at he
        · rename_i hr
          cases he
          exact DataRun.good pick h hh hp hc hr
        · cases he
      · cases he
    · cases he
  · simp only [dataExec1] at he
    split at he
    · rename_i hh
      split at he
      · rename_i hr
        cases he
        exact DataRun.bad pick h hh hp hr
      · cases he
    · cases he
  · simp only [dataExec1] at he
    split at he
    · rename_i hh
      split at he
      · rename_i hs
        cases he
        exact DataRun.step h hh hs
      · cases he
    · cases he

theorem dataExec_run {g : DGraph N T K} {pick : Nat → Finset N → N} (hp : LegalPick pick) {P : N → Prog L V}
    {D₀ : L → V} {as : List (DataAct N T)} : ∀ {x y : DataState N T K L V},
    DataRun g P D₀ x.1 x.2.1 x.2.2.1 x.2.2.2 → dataExec g pick P as x = some y →
    DataRun g P D₀ y.1 y.2.1 y.2.2.1 y.2.2.2 := by
  induction as with
  | nil => intro x y h he; cases he; exact h
  | cons a as ih =>
    intro x y h he
    simp only [dataExec] at he
    split at he
    · rename_i z hz
      exact ih (dataExec1_run hp h hz) he
    · cases he

theorem dataExec_map {g : DGraph N T K} {pick : Nat → Finset N → N} (hp : LegalPick pick) {P : N → Prog L V}
    {D₀ : L → V} {as : List (DataAct N T)} (f : DataState N T K L V → Bool)
    (h : (dataExec g pick P as ([], Sched.init g, D₀, P)).map f = some true) :
    ∃ tr st D cur, DataRun g P D₀ tr st D cur ∧ f (tr, st, D, cur) = true := by
  rcases he : dataExec g pick P as ([], Sched.init g, D₀, P) with _ | ⟨tr, st, D, cur⟩
  · rw [he] at h; cases h
  · rw [he] at h
    exact ⟨tr, st, D, cur, dataExec_run hp (x := ([], Sched.init g, D₀, P)) DataRun.init he, by simpa using h⟩

end Verif
