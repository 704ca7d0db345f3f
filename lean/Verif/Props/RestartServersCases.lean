import Verif.Props.RestartServers
import Verif.Props.RestartNeeds
import Verif.Spec.MarksExec

/-! # C111: runs of both servers that meet the conditions -/

namespace Verif

open Spec Pipeline Props

namespace Ex.Restart

open Verif.Ex Verif.Ex.Data Verif.Ex.ClData Verif.Ex.SerData

/-- Client `s` asks for a block, gets it and starts to work. -/
def begins (s : Nat) : List (ClMarkAct (Block 1) Nat Nat) :=
  [.ev (.connect s 0), .ev (.client s), .ev (.up s), .loop, .ev (.down s), .ev (.client s)]

end Ex.Restart

namespace Props

open Verif.Ex Verif.Ex.Data Verif.Ex.ClData Verif.Ex.SerData Verif.Ex.Restart

/-- For `C111_servers_graph` and `C111_servers`: a task with `read_write_conflict`.  The first run, with a worker, is lost
when the right block is marked but not given back.  The second one skips it and is lost while another worker is about
to mark the left block.  The third one, without workers, skips the right block and completes the left one. -/
example : ∃ D D' : Nat × Coord 1 → Nat, ∃ M : Block 1 → Prop,
    Relation.ReflTransGen (MarkAttempt (pipe [tight]).view [0] copy Nat) (fun _ => 7, fun _ => False) (D, M) ∧
    M right ∧ ¬ M left ∧ D (0, c1 1) = 1 ∧ D (0, c1 2) = 7 ∧
    MarkCompletion (pipe [tight]).view [0] copy Nat (D, M) D' := by
  have h : (match clMarkExec (pipe [tight]).view conf (anyPick left) copy (fun _ => 7) []
      (begins 1 ++ [.work 1, .work 1, .mark 1]) with
    | none => false
    | some z => decide (z.marks = [right]) &&
      match clMarkExec (pipe [tight]).view conf (anyPick left) copy z.D [right] (begins 2 ++ [.work 2]) with
      | none => false
      | some w => decide (w.marks = [right] ∧ .skip right ∈ w.x.sys.srv.out ∧ w.D (0, c1 1) = 1 ∧ w.D (0, c1 2) = 7)) =
      true := by decide +kernel
  rcases hz : clMarkExec (pipe [tight]).view conf (anyPick left) copy (fun _ => 7) []
      (begins 1 ++ [.work 1, .work 1, .mark 1]) with _ | z
  · rw [hz] at h; cases h
  rw [hz] at h
  dsimp only at h
  rw [Bool.and_eq_true] at h
  obtain ⟨h1, h2⟩ := h
  have h1 := of_decide_eq_true h1
  rcases hw : clMarkExec (pipe [tight]).view conf (anyPick left) copy z.D [right] (begins 2 ++ [.work 2]) with _ | w
  · rw [hw] at h2; cases h2
  rw [hw] at h2
  obtain ⟨w1, w2, w3, w4⟩ := of_decide_eq_true h2
  have hz' := clMarkExec_run (anyPick_legal _) hz
  have hw' := clMarkExec_run (anyPick_legal _) hw
  unfold ClMarkState.Ok at hz' hw'
  rw [h1] at hz'
  rw [w1] at hw'
  have e0 : (fun n : Block 1 => n ∈ ([] : List (Block 1))) = fun _ => False := funext fun n => by simp
  rw [e0] at hz'
  have h3 : ((Serial.init (pipe [tight]).view [0]).pass (pipe [tight]).view [0] (serTick (anyPick left) [right])).map
      (fun σ => decide (σ.out = [.skip right, .taskStart 0, .acquired 0, .call left, .release left .success,
        .released 0, .taskDone 0, .exit])) = .ok true := by decide +kernel
  rcases hs : (Serial.init (pipe [tight]).view [0]).pass (pipe [tight]).view [0] (serTick (anyPick left) [right]) with
    e | σ
  · rw [hs] at h3; cases h3
  rw [hs] at h3
  have h4 : σ.out = [.skip right, .taskStart 0, .acquired 0, .call left, .release left .success,
        .released 0, .taskDone 0, .exit] := of_decide_eq_true (by injection h3)
  refine ⟨w.D, (copy left).run w.D, fun n => n ∈ [right], .tail (b := (z.D, fun n => n ∈ [right])) (.single (.workers hz')) (.workers hw'), by simp,
    by decide, w3, w4, .serial (ks := [] ++ [serTick (anyPick left) [right]]) (σ := σ) (M := fun m => m = left ∨ m ∈ [right])
      (.pass .init rfl tick_legal hs (fun t i n => ?_) (Or.inl ⟨left, ?_, ⟨.done, Prog.steps_run _ _, Or.inr ⟨rfl, rfl⟩⟩,
        fun _ => Or.inl rfl⟩)) (fun n hn => ?_)⟩
  · by_cases hn : n ∈ [right] <;> simp only [serTick, hn, if_true, if_false, iff_self, reduceCtorEq]
  · rw [h4]
    simp [Serial.init]
  · rw [tight_nodes] at hn
    simp only [List.mem_cons, List.not_mem_nil, or_false] at hn
    rw [h4]
    rcases hn with rfl | rfl <;> simp

end Props

end Verif
