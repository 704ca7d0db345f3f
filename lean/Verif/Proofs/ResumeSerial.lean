import Verif.Model.Resume
import Verif.Spec.Resume
import Verif.Proofs.SerialRun

/-! # A resumed run of the serial server, with the log of the earlier run -/

namespace Verif

open Spec

variable {N T K : Type} [DecidableEq N] [DecidableEq T] [DecidableEq K] {g : DGraph N T K} {served : List T}
  {σ τ : Serial N T K} {pre : List (SerOut N T)}

/-- The same state with `pre` in front of the log. -/
def Serial.after (pre : List (SerOut N T)) (σ : Serial N T K) : Serial N T K := { σ with out := pre ++ σ.out }

theorem after_emit (os : List (SerOut N T)) : (σ.after pre).emit os = (σ.emit os).after pre := by
  simp [Serial.after, Serial.emit]

theorem after_leave : (σ.after pre).leave = (σ.leave).after pre := by
  simp [Serial.after, Serial.leave]

theorem after_start (t : T) : (σ.after pre).startTask t = (σ.startTask t).after pre := by
  unfold Serial.startTask
  by_cases h : t ∈ σ.started
  · rw [if_neg (by simpa [Serial.after] using h), if_neg (by simpa using h)]
  · rw [if_pos (by simpa [Serial.after] using h), if_pos h]
    simp [Serial.after, Serial.emit]

theorem after_finish (t : T) : (σ.after pre).finishPass t = (σ.finishPass t).map (Serial.after pre) := by
  unfold Serial.finishPass
  simp only [Serial.after]
  by_cases hd : (σ.sched.states t).isDone
  · simp only [hd, if_true]
    by_cases h1 : t ∈ σ.started
    · by_cases h2 : t ∈ σ.funcs
      · simp only [h1, h2, if_true, Serial.emit]
        by_cases h3 : σ.funcs.filter (fun x => x ≠ t) = []
        · rw [if_pos h3, if_pos h3]
          simp only [Serial.leave, List.append_assoc]
          rfl
        · rw [if_neg h3, if_neg h3]
          simp only [List.append_assoc]
          rfl
      · simp only [h1, h2, if_true, if_false]
        rfl
    · simp only [h1, if_false]
      rfl
  · simp only [hd, if_false, Bool.false_eq_true]
    by_cases h3 : σ.funcs = []
    · rw [if_pos h3, if_pos h3]
      simp only [Serial.leave, List.append_assoc]
      rfl
    · rw [if_neg h3, if_neg h3]
      rfl

theorem after_pass {k : SerTick N T} : (σ.after pre).pass g served k = (σ.pass g served k).map (Serial.after pre) := by
  unfold Serial.pass
  simp only
  change (if (∀ t ∈ σ.finished, t ∈ served) ∧ (∀ t ∈ served, t ∈ σ.finished) then _ else _) = _
  by_cases hc : (∀ t ∈ σ.finished, t ∈ served) ∧ (∀ t ∈ served, t ∈ σ.finished)
  · rw [if_pos hc, if_pos hc, after_leave]
    rfl
  · rw [if_neg hc, if_neg hc]
    have e1 : (σ.after pre).sched = σ.sched := rfl
    rw [e1]
    rcases ha : Serial.acquireAny g k.chk (σ.sched.getReadyTasks g) σ.sched with _ | ⟨skips, r, st⟩
    · rfl
    · cases r with
      | none =>
        simp only
        rw [after_emit]
        exact congrArg Except.ok (after_leave (σ := { σ.emit (skips.map .skip) with sched := st }))
      | some n =>
        simp only
        have e2 : ({ (σ.after pre).emit (skips.map .skip) with sched := st } : Serial N T K) =
            ({ σ.emit (skips.map .skip) with sched := st } : Serial N T K).after pre := by
          rw [after_emit]; rfl
        rw [e2, after_start, after_emit]
        generalize (Serial.startTask { σ.emit (skips.map .skip) with sched := st } (g.task n)).emit
          [.acquired (g.task n)] = ρ
        change (if g.task n ∈ ρ.funcs then _ else _) = _
        by_cases hf : g.task n ∈ ρ.funcs
        · rw [if_pos hf, if_pos hf]
          have key : ∀ s : BlockStatus, (match ρ.sched.releaseBlock g k.pick n s with
              | .error e => (Except.error e : Except PyErr (Serial N T K))
              | .ok st' => Serial.finishPass (({ (ρ.after pre).emit [.call n] with
                  marked := if s = BlockStatus.failed then n :: ρ.marked else ρ.marked,
                  sched := st' } : Serial N T K).emit [.release n s, .released (g.task n)]) (g.task n)) =
              Except.map (Serial.after pre) (match ρ.sched.releaseBlock g k.pick n s with
              | .error e => (Except.error e : Except PyErr (Serial N T K))
              | .ok st' => Serial.finishPass (({ ρ.emit [.call n] with
                  marked := if s = BlockStatus.failed then n :: ρ.marked else ρ.marked,
                  sched := st' } : Serial N T K).emit [.release n s, .released (g.task n)]) (g.task n)) := by
            intro s
            cases ρ.sched.releaseBlock g k.pick n s with
            | error e => rfl
            | ok st' =>
              simp only
              rw [← after_finish]
              simp [Serial.after, Serial.emit]
          cases hp : k.proc n with
          | raises => rfl
          | keep => exact key (ρ.statusAfter n .keep)
          | set s => exact key (ρ.statusAfter n (.set s))
        · rw [if_neg hf, if_neg hf]
          rfl

/-- A second run from a state of `SerRun`, with the log of the first. -/
theorem SerInv.resume (h : SerInv g served σ) : SerInv g served ((Serial.resume served σ σ.sched).after σ.out) := by
  have ho : ((Serial.resume served σ σ.sched).after σ.out).out = σ.out := by simp [Serial.after, Serial.resume]
  exact
  { run := by rw [ho]; exact h.run
    idle := by rw [ho]; exact h.idle
    funcs := by intro t; simp [Serial.after, Serial.resume]
    fin := by intro _ t ht; simp [Serial.after, Serial.resume] at ht
    finServed := by intro t ht; simp [Serial.after, Serial.resume] at ht
    marked := by rw [ho]; exact h.marked
    ended := by intro h; simp [Serial.after, Serial.resume] at h }

theorem SerInv.pass (hg : g.Loose) (h : SerInv g served σ) (he : σ.ended = false) {k : SerTick N T}
    (hk : LegalPick k.pick) (hp : σ.pass g served k = .ok τ) : SerInv g served τ := by
  rcases pass_cases hg h he hk with ⟨σ1, sk, h1, h2⟩ | ⟨sk, m, st, _, _, h1 | h1 | ⟨σ1, h1, h2⟩⟩
  · rw [h1] at hp; cases hp
    exact h.left hg h2
  · rw [h1.2] at hp; cases hp
  · rw [h1.2.2] at hp; cases hp
  · rw [h1] at hp; cases hp
    exact h.did hg he hk h2

theorem SerInv.more (hg : g.Loose) (h : SerInv g served (σ.after pre)) (hm : SerMore g served σ τ) :
    SerInv g served (τ.after pre) := by
  induction hm with
  | nil => exact h
  | pass k _ he hk hp ih => exact ih.pass hg he hk (by rw [after_pass, hp]; rfl)

end Verif
