import Verif.Props.SerialData
import Verif.Props.ClusterDataNeeds
import Verif.Spec.SerialExec

/-! # C110: cases that meet the conditions, and what the conditions are for -/

namespace Verif

open Spec Pipeline Props

namespace Ex.SerData

open Verif.Ex Verif.Ex.Data

theorem tick_legal {b : Block 1} {acc fail : List (Block 1)} :
    LegalPick (serTick (T := Nat) (anyPick b) acc fail).pick := anyPick_legal _

end Ex.SerData

namespace Props

open Verif.Ex Verif.Ex.Data Verif.Ex.ClData Verif.Ex.SerData

/-- For `C110_graph`, `C110_possible` and `C110_plain`: both blocks of a task with `read_write_conflict`, of which the
right one copies what it finds in the left one. -/
example : ∃ ks σ D, SerDataRun (pipe [tight]).view [0] copy (fun _ => 7) ks σ D ∧
    (∀ k ∈ ks, SerTick.Succeeds k ∧ SerTick.NoSkips k) ∧ σ.ended = true ∧
    (∀ n, .skip n ∉ σ.out) ∧ .call left ∈ σ.out ∧ .call right ∈ σ.out := by
  have h1 : (serExec (pipe [tight]).view [0] (List.replicate 2 (serTick (anyPick left)))).map
      (fun σ => decide (σ.ended = true ∧ σ.out = [.taskStart 0, .acquired 0, .call right, .release right .success,
        .released 0, .acquired 0, .call left, .release left .success, .released 0, .taskDone 0, .exit])) = some true := by
    decide +kernel
  obtain ⟨σ, hr, e⟩ := serExec_run (fun k hk => by rw [List.eq_of_mem_replicate hk]; exact tick_legal) _ h1
  obtain ⟨e1, e2⟩ := of_decide_eq_true e
  have hs : ∀ n, .skip n ∉ σ.out := fun n => by rw [e2]; simp
  obtain ⟨D, hD⟩ := C110_possible (tight_builds.ok tight_plain) copy (fun _ => 7) hr hs
  refine ⟨_, σ, D, hD, fun k hk => ?_, e1, hs, by rw [e2]; simp, by rw [e2]; simp⟩
  rw [List.eq_of_mem_replicate hk]
  exact ⟨fun n => by simp [serTick], fun t i n => by simp [serTick]⟩

/-- For `C110_completed`: the block is marked at its first call. -/
example : ∃ ks σ D, SerDataRun (pipe [Data.single]).view [0] (fun _ => twice) (fun _ => 7) ks σ D ∧
    (∀ b, .release b .failed ∈ σ.out → Restartable (MayStore b) twice) ∧ .release only .failed ∈ σ.out ∧
    ∀ x b, (pipe [Data.single]).BlockOf x b → .release b .success ∈ σ.out ∨ .skip b ∈ σ.out := by
  have h1 : (serExec (pipe [Data.single]).view [0] [serTick (anyPick only) [] [only],
      { serTick (anyPick only) with proc := fun _ => .set .success }]).map
      (fun σ => decide (σ.out = [.taskStart 0, .acquired 0, .call only, .release only .failed,
        .released 0, .acquired 0, .call only, .release only .success, .released 0, .taskDone 0, .exit])) = some true := by
    decide +kernel
  obtain ⟨σ, hr, e⟩ := serExec_run (fun k hk => by
    simp only [List.mem_cons, List.not_mem_nil, or_false] at hk
    rcases hk with rfl | rfl
    · exact tick_legal
    · exact anyPick_legal only) _ h1
  have e2 := of_decide_eq_true e
  obtain ⟨D, hD⟩ := C110_possible (single_builds.ok single_plain) (fun _ => twice) (fun _ => 7) hr
    (fun n => by rw [e2]; simp)
  refine ⟨_, σ, D, hD, fun b hb => ?_, by rw [e2]; simp, fun x b hb => Or.inl ?_⟩
  · rw [e2] at hb
    have : b = only := by simpa using hb
    rw [this]
    exact twice_restartable
  · rw [single_only hb, e2]
    simp

/-- For `C109_as_serial_partial`, without multiprocessing (the run with multiprocessing is in `ClusterDataNeeds`). -/
example : ∃ ks σ D, SerDataRun (pipe [Data.single]).view [0] (fun _ => twice) (fun _ => 7) ks σ D ∧
    (∀ k ∈ ks, SerTick.Succeeds k ∧ SerTick.NoSkips k) ∧ σ.ended = true := by
  have h1 : (serExec (pipe [Data.single]).view [0] [serTick (anyPick only)]).map
      (fun σ => decide (σ.ended = true ∧ σ.out = [.taskStart 0, .acquired 0, .call only, .release only .success,
        .released 0, .taskDone 0, .exit])) = some true := by
    decide +kernel
  obtain ⟨σ, hr, e⟩ := serExec_run (fun k hk => by rw [List.mem_singleton.1 hk]; exact tick_legal) _ h1
  obtain ⟨e1, e2⟩ := of_decide_eq_true e
  obtain ⟨D, hD⟩ := C110_possible (single_builds.ok single_plain) (fun _ => twice) (fun _ => 7) hr
    (fun n => by rw [e2]; simp)
  refine ⟨_, σ, D, hD, fun k hk => ?_, e1⟩
  rw [List.mem_singleton.1 hk]
  exact ⟨fun n => by simp [serTick], fun t i n => by simp [serTick]⟩

/-- For `C110_raised` and `C110_resumed`: the process function raises an exception after it has stored its temporary
value; a second run completes the block. -/
example : ∃ (k : SerTick (Block 1) Nat) (D' : Nat × Coord 1 → Nat) (ks' : List (SerTick (Block 1) Nat))
    (σ' : Serial (Block 1) Nat (Nat × Int)) (D'' : Nat × Coord 1 → Nat),
    SerDataRaises (pipe [Data.single]).view [0] (fun _ => twice) (Serial.init (pipe [Data.single]).view [0]) k
      (fun _ => 7) D' ∧ D' (0, c1 0) = 0 ∧ SerDataRun (pipe [Data.single]).view [0] (fun _ => twice) D' ks' σ' D'' ∧
    ∀ x b, (pipe [Data.single]).BlockOf x b → .release b .success ∈ σ'.out ∨ .skip b ∈ σ'.out := by
  have h1 : (serExec (pipe [Data.single]).view [0] [serTick (anyPick only)]).map
      (fun σ => decide (σ.out = [.taskStart 0, .acquired 0, .call only, .release only .success, .released 0, .taskDone 0,
        .exit])) = some true := by
    decide +kernel
  obtain ⟨σ, hr, e⟩ := serExec_run (fun k hk => by rw [List.mem_singleton.1 hk]; exact tick_legal) _ h1
  have e2 := of_decide_eq_true e
  have h2 : ((Serial.init (pipe [Data.single]).view [0]).pass (pipe [Data.single]).view [0]
      { serTick (anyPick only) with proc := fun _ => .raises }).map (fun _ => ()) = .error .userException := by
    decide +kernel
  have h3 : ((Serial.init (pipe [Data.single]).view [0]).pass (pipe [Data.single]).view [0]
      { serTick (anyPick only) with proc := fun _ => .keep }).map
      (fun σ => decide (.call only ∈ σ.out ∧ σ.out.all (fun o => match o with | .skip _ => false | _ => true) = true)) =
      .ok true := by
    decide +kernel
  obtain ⟨D, hD⟩ := C110_possible (single_builds.ok single_plain) (fun _ => twice) (upd (fun _ => 7) (0, c1 0) 0) hr
    (fun n => by rw [e2]; simp)
  refine ⟨{ serTick (anyPick only) with proc := fun _ => .raises }, upd (fun _ => 7) (0, c1 0) 0, _, σ, D,
    ⟨rfl, anyPick_legal only, ?_, only, ?_⟩, if_pos rfl, hD, fun x b hb => Or.inl ?_⟩
  · rcases hσ : (Serial.init (pipe [Data.single]).view [0]).pass (pipe [Data.single]).view [0]
      { serTick (anyPick only) with proc := fun _ => .raises } with e' | σ'
    · rw [hσ] at h2
      cases h2
      rfl
    · rw [hσ] at h2
      cases h2
  · rcases hσ : (Serial.init (pipe [Data.single]).view [0]).pass (pipe [Data.single]).view [0]
      { serTick (anyPick only) with proc := fun _ => .keep } with e' | σ'
    · rw [hσ] at h3
      cases h3
    · rw [hσ] at h3
      have h4 : decide (.call only ∈ σ'.out ∧
        σ'.out.all (fun o => match o with | .skip _ => false | _ => true) = true) = true := by
        injection h3
      obtain ⟨h5, h6⟩ := of_decide_eq_true h4
      refine ⟨σ', rfl, h5, fun m hm => ?_, _, .step (q := twice) rfl .refl⟩
      exact absurd (List.all_eq_true.1 h6 _ (List.mem_of_mem_drop hm)) (by simp)
  · rw [single_only hb, e2]
    simp

end Props

end Verif
