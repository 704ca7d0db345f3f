import Verif.Spec.Restart
import Verif.Spec.Exec

/-! # Concrete executions with restarts -/

namespace Verif

open Spec

variable {N T K L V : Type} [DecidableEq N] [DecidableEq T] [DecidableEq K] [DecidableEq L]

/-- What can happen. -/
inductive RestartAct (N T : Type) where
  | acq (t : T)
  | step (n : N)
  | mark (n : N)
  | good (n : N)
  | bad (n : N)
  | restart

/-- State of a computation, with a list of the marked blocks. -/
structure RestartState (N T K L V : Type) where
  tr : List (Ev N)
  st : Sched N T K
  D : L → V
  cur : N → Prog L V
  marks : List N

/-- One action. -/
def restartExec1 (g : DGraph N T K) (pick : Nat → Finset N → N) (P : N → Prog L V) (x : RestartState N T K L V) :
    RestartAct N T → Option (RestartState N T K L V)
  | .acq t =>
    match x.st.acquireBlock g (fun _ n => if n ∈ x.marks then .accept else .reject) t with
    | .ok (skips, r, st') =>
      some ⟨x.tr ++ acquireEvents skips r, st', x.D, fun n => if r = some n then P n else x.cur n, x.marks⟩
    | .error _ => none
  | .step n =>
    if Held x.tr n then
      match (x.cur n).step x.D with
      | some (q, D') => some ⟨x.tr, x.st, D', upd x.cur n q, x.marks⟩
      | none => none
    else none
  | .mark n =>
    if Held x.tr n then
      match x.cur n with
      | .done => some ⟨x.tr, x.st, x.D, x.cur, n :: x.marks⟩
      | _ => none
    else none
  | .good n =>
    if Held x.tr n ∧ n ∈ x.marks then
      match x.st.releaseBlock g pick n .success with
      | .ok st' => some ⟨x.tr ++ [.good n], st', x.D, x.cur, x.marks⟩
      | .error _ => none
    else none
  | .bad n =>
    if Held x.tr n then
      match x.st.releaseBlock g pick n .failed with
      | .ok st' => some ⟨x.tr ++ [.bad n], st', x.D, x.cur, x.marks⟩
      | .error _ => none
    else none
  | .restart => some ⟨[], Sched.init g, x.D, P, x.marks⟩

/-- Many actions. -/
def restartExec (g : DGraph N T K) (pick : Nat → Finset N → N) (P : N → Prog L V) :
    List (RestartAct N T) → RestartState N T K L V → Option (RestartState N T K L V)
  | [], x => some x
  | a :: as, x =>
    match restartExec1 g pick P x a with
    | some y => restartExec g pick P as y
    | none => none

/-- The state belongs to an execution. -/
def RestartState.Ok (g : DGraph N T K) (P : N → Prog L V) (D₀ : L → V) (x : RestartState N T K L V) : Prop :=
  RestartRun g P D₀ x.tr x.st x.D x.cur (fun n => n ∈ x.marks)

theorem restartExec1_run {g : DGraph N T K} {pick : Nat → Finset N → N} (hp : LegalPick pick) {P : N → Prog L V}
    {D₀ : L → V} {a : RestartAct N T} {x y : RestartState N T K L V} (h : x.Ok g P D₀)
    (he : restartExec1 g pick P x a = some y) : y.Ok g P D₀ := by
  cases a with
  | acq t =>
    simp only [restartExec1] at he
    split at he
    · next hacq =>
      cases he
      refine RestartRun.acquire _ t h (fun i n => ?_) hacq
      by_cases hn : n ∈ x.marks <;> simp [hn]
    · cases he
  | step n =>
    simp only [restartExec1] at he
    split at he
    · next hh =>
      split at he
      · next hs =>
        cases he
        exact RestartRun.step h hh hs
      · cases he
    · cases he
  | mark n =>
    simp only [restartExec1] at he
    split at he
    · next hh =>
      split at he
      · next hc =>
        cases he
        have := RestartRun.mark h hh hc
        unfold RestartState.Ok
        have e : (fun m => m ∈ n :: x.marks) = (fun m => m = n ∨ m ∈ x.marks) := funext fun m => by simp
        dsimp only
        rw [e]
        exact this
      · cases he
    · cases he
  | good n =>
    simp only [restartExec1] at he
    split at he
    · next hh =>
      split at he
      · next hr =>
        cases he
        exact RestartRun.good pick h hh.1 hp hh.2 hr
      · cases he
    · cases he
  | bad n =>
    simp only [restartExec1] at he
    split at he
    · next hh =>
      split at he
      · next hr =>
        cases he
        exact RestartRun.bad pick h hh hp hr
      · cases he
    · cases he
  | restart =>
    cases he
    exact RestartRun.restart h

theorem restartExec_run {g : DGraph N T K} {pick : Nat → Finset N → N} (hp : LegalPick pick) {P : N → Prog L V}
    {D₀ : L → V} {as : List (RestartAct N T)} : ∀ {x y : RestartState N T K L V}, x.Ok g P D₀ →
    restartExec g pick P as x = some y → y.Ok g P D₀ := by
  induction as with
  | nil => intro x y h he; cases he; exact h
  | cons a as ih =>
    intro x y h he
    simp only [restartExec] at he
    split at he
    · next z hz => exact ih (restartExec1_run hp h hz) he
    · cases he

theorem restartExec_map {g : DGraph N T K} {pick : Nat → Finset N → N} (hp : LegalPick pick) {P : N → Prog L V}
    {D₀ : L → V} {as : List (RestartAct N T)} (f : RestartState N T K L V → Bool)
    (h : (restartExec g pick P as ⟨[], Sched.init g, D₀, P, []⟩).map f = some true) :
    ∃ x : RestartState N T K L V, x.Ok g P D₀ ∧ f x = true := by
  rcases he : restartExec g pick P as ⟨[], Sched.init g, D₀, P, []⟩ with _ | x
  · rw [he] at h; cases h
  · rw [he] at h
    refine ⟨x, restartExec_run hp ?_ he, by simpa using h⟩
    have := RestartRun.init (g := g) (P := P) (D₀ := D₀)
    unfold RestartState.Ok
    have e : (fun n : N => n ∈ ([] : List N)) = fun _ => False := funext fun n => by simp
    dsimp only
    rw [e]
    exact this

end Verif
