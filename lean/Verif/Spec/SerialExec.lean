import Verif.Spec.SerialSpec
import Verif.Spec.Exec

/-! # Concrete executions of the serial server -/

namespace Verif

open Spec

variable {N T K : Type} [DecidableEq N] [DecidableEq T] [DecidableEq K]

/-- A pass in which the check functions accept the blocks `acc` and the process function marks the
blocks `fail`. -/
def serTick (pick : Nat → Finset N → N) (acc : List N := []) (fail : List N := []) : SerTick N T where
  chk := fun _ _ n => if n ∈ acc then .accept else .reject
  proc := fun n => if n ∈ fail then .set .failed else .keep
  pick := pick

/-- Run passes one after the other. -/
def serExecFrom (g : DGraph N T K) (served : List T) :
    List (SerTick N T) → Serial N T K → Option (Serial N T K)
  | [], σ => some σ
  | k :: ks, σ =>
    if σ.ended = false then
      match σ.pass g served k with
      | .ok σ' => serExecFrom g served ks σ'
      | .error _ => none
    else none

theorem serExecFrom_run {g : DGraph N T K} {served : List T} :
    ∀ (ks ks₀ : List (SerTick N T)) (σ σ' : Serial N T K), (∀ k ∈ ks, LegalPick k.pick) →
      SerRun g served ks₀ σ → serExecFrom g served ks σ = some σ' → SerRun g served (ks₀ ++ ks) σ'
  | [], ks₀, σ, σ', _, h, he => by cases he; simpa using h
  | k :: ks, ks₀, σ, σ', hp, h, he => by
    simp only [serExecFrom] at he
    split at he
    · rename_i hc
      split at he
      · rename_i σ1 h1
        have := serExecFrom_run ks (ks₀ ++ [k]) σ1 σ' (fun k' hk' => hp k' (List.mem_cons_of_mem _ hk'))
          (SerRun.pass h hc (hp k List.mem_cons_self) h1) he
        simpa using this
      · cases he
    · cases he

/-- Run passes on a new serial server. -/
def serExec (g : DGraph N T K) (served : List T) (ks : List (SerTick N T)) : Option (Serial N T K) :=
  serExecFrom g served ks (Serial.init g served)

theorem serExec_run {α : Type} {g : DGraph N T K} {served : List T} {ks : List (SerTick N T)}
    (hp : ∀ k ∈ ks, LegalPick k.pick) (f : Serial N T K → α) {v : α}
    (h : (serExec g served ks).map f = some v) : ∃ σ, SerRun g served ks σ ∧ f σ = v := by
  rcases he : serExec g served ks with _ | σ
  · rw [he] at h; cases h
  · rw [he] at h
    have := serExecFrom_run ks [] _ σ hp SerRun.init he
    exact ⟨σ, by simpa using this, by simpa using h⟩

theorem serExec_raises {g : DGraph N T K} {served : List T} {ks : List (SerTick N T)}
    {k : SerTick N T} {e : PyErr} (hp : ∀ k ∈ ks, LegalPick k.pick)
    (h : (serExec g served ks).map (fun σ => (σ.ended, (σ.pass g served k).map (fun _ => ()))) =
      some (false, .error e)) :
    ∃ σ, SerRun g served ks σ ∧ σ.ended = false ∧ σ.pass g served k = .error e := by
  obtain ⟨σ, h1, h2⟩ := serExec_run hp (fun σ => (σ.ended, (σ.pass g served k).map (fun _ => ()))) h
  refine ⟨σ, h1, congrArg Prod.fst h2, ?_⟩
  have h3 := congrArg Prod.snd h2
  rcases hσ : σ.pass g served k with e' | σ'
  · simp only [hσ] at h3
    cases h3
    rfl
  · simp only [hσ] at h3
    cases h3

end Verif
