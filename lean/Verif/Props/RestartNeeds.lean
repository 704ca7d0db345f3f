import Verif.Props.Restart
import Verif.Props.SerialDataCases
import Verif.Spec.RestartExec

/-! # C111: cases that meet the conditions, and what the conditions are for -/

namespace Verif

open Spec Pipeline Props

namespace Ex.Restart

open Verif.Ex Verif.Ex.Data Verif.Ex.ClData Verif.Ex.SerData

theorem tight_order : Topological (pipe [tight]).view [right, left] := by
  refine ⟨by decide, fun n => by rw [tight_nodes], ?_⟩
  have : left ∉ (pipe [tight]).view.up right := by decide +kernel
  simpa using this

theorem copy_restartable {b : Block 1} (hb : b ∈ (pipe [tight]).view.nodes) : Restartable (MayStore b) (copy b) := by
  rw [tight_nodes] at hb
  simp only [List.mem_cons, List.not_mem_nil, or_false] at hb
  rcases hb with rfl | rfl
  · rw [copy_right]
    exact reader_restartable
  · rw [copy_left]
    exact writer_restartable

/-- Both blocks one after the other, the right one first. -/
theorem copy_both (D : Nat × Coord 1 → Nat) : oneByOne copy [right, left] D (0, c1 1) = 1 ∧
    oneByOne copy [right, left] D (0, c1 2) = D (0, c1 1) := by
  have e : oneByOne copy [right, left] D = (copy left).run ((copy right).run D) := rfl
  rw [e, copy_left, copy_right]
  constructor
  · change upd (upd D (0, c1 2) (D (0, c1 1))) (0, c1 1) 1 (0, c1 1) = 1
    exact if_pos rfl
  · change upd (upd D (0, c1 2) (D (0, c1 1))) (0, c1 1) 1 (0, c1 2) = D (0, c1 1)
    unfold upd
    rw [if_neg (by decide), if_pos rfl]

/-- Writes `[0,2)` in one block. -/
def pair : Task 1 := .node 0 ⟨r1 0 2, r1 0 2, r1 0 2, false, .valid, 1⟩ []

theorem pair_plain : PlainTasks [pair] := by
  refine plainTasks_of (L := [pair]) (by simp) (by simp [pair, TTree.requires])
    (by simp [pair, TTree.id]) ?_ ?_ ?_
  · intro t ht
    rw [List.mem_singleton] at ht
    subst ht
    exact ⟨by decide, by decide, by decide, by decide, Or.inl (by decide), by decide⟩
  · intro t ht hr
    rw [List.mem_singleton] at ht
    subst ht
    exact absurd rfl hr
  · intro t ht hr
    rw [List.mem_singleton] at ht
    subst ht
    exact absurd rfl hr

theorem pair_builds : Builds [pair] [pair] (pipe [pair]) := ⟨by rfl, by rfl, by rfl⟩

def wide : Block 1 := blk1 0 0 2 0 2 0

theorem pair_nodes : (pipe [pair]).view.nodes = [wide] := by decide +kernel

theorem pair_only {x : Nat} {b : Block 1} (h : (pipe [pair]).BlockOf x b) : b = wide := by
  have hb := pair_builds.mem_nodes pair_plain h
  rwa [pair_nodes, List.mem_singleton] at hb

/-- Stores 1 in both voxels. -/
def ones : Prog (Nat × Coord 1) Nat := .put (0, c1 0) 1 (.put (0, c1 1) 1 .done)

theorem ones_run (D : Nat × Coord 1 → Nat) : ones.run D (0, c1 0) = 1 ∧ ones.run D (0, c1 1) = 1 := by
  constructor
  · change upd (upd D (0, c1 0) 1) (0, c1 1) 1 (0, c1 0) = 1
    unfold upd
    rw [if_neg (by decide), if_pos rfl]
  · change upd (upd D (0, c1 0) 1) (0, c1 1) 1 (0, c1 1) = 1
    exact if_pos rfl

theorem ones_keeps : KeepToRois [pair] (pipe [pair]) (fun _ => ones) := by
  intro x b hx
  obtain rfl := pair_only hx
  exact ⟨⟨rfl, inRoi1 (by decide)⟩, ⟨rfl, inRoi1 (by decide)⟩, trivial⟩

theorem ones_restartable : Restartable (MayStore wide) ones := by
  intro D D' _ l hl
  obtain ⟨h1, h2⟩ := hl
  obtain ⟨v, h3, h4, h5⟩ := of_inRoi1 (show InRoi l.2 (r1 0 2) from h2)
  have e : l = (0, c1 v) := by rw [← h3, ← (show l.1 = 0 from h1)]
  have hv : v = 0 ∨ v = 1 := by omega
  rw [e]
  rcases hv with rfl | rfl
  · rw [(ones_run D).1, (ones_run D').1]
  · rw [(ones_run D).2, (ones_run D').2]

end Ex.Restart

namespace Props

open Verif.Ex Verif.Ex.Data Verif.Ex.ClData Verif.Ex.SerData Verif.Ex.Restart

/-- For `C111_graph` and `C111_marks`: a task with `read_write_conflict`.  The first run is lost when the right block is
marked but not released.  The second one skips it and is lost in the middle of the left block, the third one completes
the left block at its second attempt. -/
example : ∃ tr st D cur M, RestartRun (pipe [tight]).view copy (fun _ => 7) tr st D cur M ∧
    (∀ b ∈ (pipe [tight]).view.nodes, Done tr b) ∧ .skip right ∈ tr ∧ .bad left ∈ tr ∧ D (0, c1 1) = 1 ∧
    D (0, c1 2) = 7 := by
  have h1 : (restartExec (pipe [tight]).view (anyPick left) copy
      [.acq 0, .step right, .step right, .mark right, .restart, .acq 0, .step left, .restart, .acq 0, .step left,
        .bad left, .acq 0, .step left, .mark left, .good left] ⟨[], Sched.init (pipe [tight]).view, fun _ => 7, copy, []⟩).map
      (fun x => decide (x.tr = [.skip right, .hand left, .bad left, .hand left, .good left] ∧ x.D (0, c1 1) = 1 ∧
        x.D (0, c1 2) = 7)) = some true := by decide +kernel
  obtain ⟨x, hr, e⟩ := restartExec_map (anyPick_legal _) _ h1
  obtain ⟨e1, e2, e3⟩ := of_decide_eq_true e
  refine ⟨x.tr, x.st, x.D, x.cur, _, hr, fun b hb => ?_, by rw [e1]; decide, by rw [e1]; decide, e2, e3⟩
  rw [tight_nodes] at hb
  simp only [List.mem_cons, List.not_mem_nil, or_false] at hb
  rw [e1]
  rcases hb with rfl | rfl <;> decide

/-- For `C111_attempts_graph` and `C111_attempts`: two attempts with worker processes that are given up after the first
voxel was stored, and a run without. -/
example : ∃ D D', Relation.ReflTransGen (Attempt (pipe [pair]).view [0] (fun _ => ones) Nat) (fun _ => 0) D ∧
    Completion (pipe [pair]).view [0] (fun _ => ones) Nat D D' ∧ D (0, c1 0) = 1 := by
  have h1 : (clDataExec (pipe [pair]).view conf (anyPick wide) (fun _ => ones) (fun _ _ => true) (fun _ => 0)
      (start 1 ++ [.work 1])).map (fun x => decide (x.2.2.1 (0, c1 0) = 1)) = some true := by decide +kernel
  obtain ⟨es, x, D, cur, hr, e⟩ := clDataExec_map (mayP := Anybody) (anyPick_legal _) (fun _ _ _ => trivial) _ h1
  have e1 := of_decide_eq_true e
  have h2 : (serExec (pipe [pair]).view [0] [serTick (anyPick wide)]).map
      (fun σ => decide (σ.ended = true ∧ σ.out = [.taskStart 0, .acquired 0, .call wide, .release wide .success,
        .released 0, .taskDone 0, .exit])) = some true := by
    decide +kernel
  obtain ⟨σ, hs, e⟩ := serExec_run (fun k hk => by rw [List.mem_singleton.1 hk]; exact tick_legal) _ h2
  obtain ⟨e2, e3⟩ := of_decide_eq_true e
  obtain ⟨D', hD'⟩ := C110_possible (pair_builds.ok pair_plain) (fun _ => ones) D hs (fun n => by rw [e3]; simp)
  refine ⟨D, D', .single (.workers hr), .serial hD' (fun n hn => Or.inl ?_), e1⟩
  rw [pair_nodes, List.mem_singleton] at hn
  rw [hn, e3]
  simp

/-- C111, no marks and `read_write_conflict`: the right block copies what it finds in the left one, which comes after
it.  A run that starts with the results of an earlier one (and has no check functions) ends with other data. -/
theorem C111_needs_marks : ∃ (tasks r : List (Task 1)) (p : Pipeline 1) (P : Block 1 → Prog (Nat × Coord 1) Nat)
    (D₀ D D' : Nat × Coord 1 → Nat) (order : List (Block 1)), PlainTasks tasks ∧ Builds tasks r p ∧
    KeepToRois tasks p P ∧ (∀ x b, p.BlockOf x b → Restartable (MayStore b) (P b)) ∧ Topological p.view order ∧
    Attempt p.view (r.map TTree.id) P Nat D₀ D ∧ Completion p.view (r.map TTree.id) P Nat D D' ∧
    D = oneByOne P order D₀ ∧ D' ≠ oneByOne P order D₀ := by
  have h1 : (serExec (pipe [tight]).view [0] (List.replicate 2 (serTick (anyPick left)))).map
      (fun σ => decide (σ.ended = true ∧ σ.out = [.taskStart 0, .acquired 0, .call right, .release right .success,
        .released 0, .acquired 0, .call left, .release left .success, .released 0, .taskDone 0, .exit])) = some true := by
    decide +kernel
  obtain ⟨σ, hr, e⟩ := serExec_run (fun k hk => by rw [List.eq_of_mem_replicate hk]; exact tick_legal) _ h1
  obtain ⟨e1, e2⟩ := of_decide_eq_true e
  have hs : ∀ n, .skip n ∉ σ.out := fun n => by rw [e2]; simp
  have hall : ∀ n ∈ (pipe [tight]).view.nodes, .release n .success ∈ σ.out ∨ .skip n ∈ σ.out := by
    intro n hn
    rw [tight_nodes] at hn
    simp only [List.mem_cons, List.not_mem_nil, or_false] at hn
    rw [e2]
    rcases hn with rfl | rfl <;> simp
  obtain ⟨D, hD⟩ := C110_possible (tight_builds.ok tight_plain) copy (fun _ => 7) hr hs
  obtain ⟨D', hD'⟩ := C110_possible (tight_builds.ok tight_plain) copy D hr hs
  have hc : ∀ {D₀ D : Nat × Coord 1 → Nat} {ks : List (SerTick (Block 1) Nat)},
      SerDataRun (pipe [tight]).view [0] copy D₀ ks σ D → D = oneByOne copy [right, left] D₀ := fun hD =>
    C110_completed tight_plain tight_builds tight_keeps tight_order hD
      (fun b hb => by rw [e2] at hb; simp at hb)
      (fun x b hb => hall b (tight_builds.mem_nodes tight_plain hb))
  refine ⟨[tight], [tight], pipe [tight], copy, fun _ => 7, D, D', [right, left], tight_plain, tight_builds, tight_keeps,
    fun x b hb => copy_restartable (tight_builds.mem_nodes tight_plain hb), tight_order, .serial hD, .serial hD' hall,
    hc hD, fun h => ?_⟩
  have h2 := congrFun (hc hD') (0, c1 2)
  rw [h, (copy_both _).2, (copy_both _).2, hc hD, (copy_both _).1] at h2
  cases h2

/-- C111 with the check function of `examples/tutorial.py` 957-965, which accepts a block if there is a value greater
than 0 in its write ROI: the first run is given up after the first voxel was stored; in the second run the block is
skipped, and all blocks are completed, but the second voxel was never stored. -/
theorem C111_needs_whole_results : ∃ (tasks r : List (Task 1)) (p : Pipeline 1) (P : Block 1 → Prog (Nat × Coord 1) Nat)
    (D : Nat × Coord 1 → Nat) (tr : List (Ev (Block 1))) (st : Sched (Block 1) Nat (Nat × Int))
    (cur : Block 1 → Prog (Nat × Coord 1) Nat) (order : List (Block 1)) (chk : Nat → Block 1 → Check)
    (skips : List (Block 1)) (st' : Sched (Block 1) Nat (Nat × Int)), PlainTasks tasks ∧ Builds tasks r p ∧
    KeepToRois tasks p P ∧ (∀ t, Required tasks t → t.info.conflict = false) ∧
    (∀ x b, p.BlockOf x b → Restartable (MayStore b) (P b)) ∧ Topological p.view order ∧
    DataRun p.view P (fun _ => 0) tr st D cur ∧
    (∀ i x b, p.BlockOf x b → (chk i b = .accept ↔ ∃ v, InRoi v b.writeRoi ∧ 0 < D (x, v))) ∧
    (Sched.init p.view).acquireBlock p.view chk 0 = .ok (skips, none, st') ∧ (∀ x b, p.BlockOf x b → b ∈ skips) ∧
    D (0, c1 1) = 0 ∧ oneByOne P order (fun _ => 0) (0, c1 1) = 1 := by
  have h1 : (dataExec (pipe [pair]).view (anyPick wide) (fun _ => ones) [.call (.acq 0 []), .step wide]
      ([], Sched.init (pipe [pair]).view, fun _ => 0, fun _ => ones)).map
      (fun x => decide (x.2.2.1 (0, c1 0) = 1 ∧ x.2.2.1 (0, c1 1) = 0)) = some true := by decide +kernel
  obtain ⟨tr, st, D, cur, hr, e⟩ := dataExec_map (anyPick_legal _) _ h1
  obtain ⟨e1, e2⟩ := of_decide_eq_true e
  dsimp only at e1 e2
  have h2 : ((Sched.init (pipe [pair]).view).acquireBlock (pipe [pair]).view (fun _ _ => .accept) 0).map
      (fun x => decide (x.1 = [wide] ∧ x.2.1 = none)) = .ok true := by decide +kernel
  have h3 : ∃ st', (Sched.init (pipe [pair]).view).acquireBlock (pipe [pair]).view (fun _ _ => .accept) 0 =
      .ok ([wide], none, st') := by
    rcases hx : (Sched.init (pipe [pair]).view).acquireBlock (pipe [pair]).view (fun _ _ => .accept) 0 with
      e | ⟨skips, r, st'⟩
    · rw [hx] at h2
      cases h2
    · rw [hx] at h2
      have h4 : decide (skips = [wide] ∧ r = none) = true := by injection h2
      obtain ⟨rfl, rfl⟩ := of_decide_eq_true h4
      exact ⟨st', rfl⟩
  obtain ⟨st', h3⟩ := h3
  refine ⟨[pair], [pair], pipe [pair], fun _ => ones, D, tr, st, cur, [wide], fun _ _ => .accept, [wide], st',
    pair_plain, pair_builds, ones_keeps, fun t ht => ?_, fun x b hb => ?_, ?_, hr, fun i x b hb => ?_, h3,
    fun x b hb => ?_, e2, (ones_run (fun _ => 0)).2⟩
  · obtain ⟨u, hu, hut⟩ := ht
    rw [List.mem_singleton] at hu
    subst hu
    rcases Relation.ReflTransGen.cases_head hut with rfl | ⟨c, hc, _⟩
    · rfl
    · simp [pair, TTree.requires] at hc
  · rw [pair_only hb]
    exact ones_restartable
  · exact ⟨by simp, fun n => by rw [pair_nodes], by simp⟩
  · have hbt := built_of_init pair_builds.init (pair_builds.unique pair_plain)
    have hx : b.taskId = x := blockOf_taskId hbt.1 (pair_builds.wf pair_plain) hb
    have hb' := pair_only hb
    rw [hb'] at hx ⊢
    refine ⟨fun _ => ⟨c1 0, inRoi1 (show (0 : Int) ≤ 0 ∧ (0 : Int) < 2 by decide), ?_⟩, fun _ => rfl⟩
    rw [← hx, show D (wide.taskId, c1 0) = 1 from e1]
    decide
  · rw [pair_only hb]
    simp

end Props

end Verif
