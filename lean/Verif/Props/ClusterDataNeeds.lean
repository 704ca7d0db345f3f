import Verif.Props.ClusterData
import Verif.Props.DataNeeds
import Verif.Spec.ClusterDataExec

/-! # C109: what the conditions are for, and cases that meet them -/

namespace Verif

open Spec Pipeline Props

namespace Ex.ClData

open Verif.Ex Verif.Ex.Data

/-- One worker. -/
def conf : SysConf Nat := ⟨⟨[0], fun _ => none⟩, fun _ => 1, 3⟩

/-- Client `s` asks for a block, gets it and starts to work. -/
def start (s : Nat) : List (ClDataAct (Block 1) Nat Nat) :=
  [.ev (.connect s 0), .ev (.client s), .ev (.up s), .ev .loop, .ev (.down s), .ev (.client s)]

/-- Client `s` gives its block back, and the server notices. -/
def finish (s : Nat) : List (ClDataAct (Block 1) Nat Nat) := [.ev (.client s), .ev (.up s), .ev .loop]

/-- Stores 0 and then 1. -/
def twice : Prog (Nat × Coord 1) Nat := .put (0, c1 0) 0 (.put (0, c1 0) 1 .done)

/-- Stores 1. -/
def once : Prog (Nat × Coord 1) Nat := .put (0, c1 0) 1 .done

theorem twice_run (D : Nat × Coord 1 → Nat) : twice.run D (0, c1 0) = 1 := by
  change upd (upd D (0, c1 0) 0) (0, c1 0) 1 (0, c1 0) = 1
  exact if_pos rfl

theorem once_run (D : Nat × Coord 1 → Nat) : once.run D (0, c1 0) = 1 := by
  change upd D (0, c1 0) 1 (0, c1 0) = 1
  exact if_pos rfl

theorem only_store {l : Nat × Coord 1} (h : MayStore only l) : l = (0, c1 0) :=
  mayStore1 (show MayStore (blk1 0 0 1 0 (0 + 1) 0) l from h)

theorem twice_restartable : Restartable (MayStore only) twice := by
  intro D D' _ l hl
  rw [only_store hl, twice_run, twice_run]

theorem single_only {x : Nat} {b : Block 1} (h : (pipe [Data.single]).BlockOf x b) : b = only := by
  have hb := single_builds.mem_nodes single_plain h
  rwa [single_nodes, List.mem_singleton] at hb

theorem twice_keeps : KeepToRois [Data.single] (pipe [Data.single]) (fun _ => twice) := by
  intro x b hx
  obtain rfl := single_only hx
  exact ⟨⟨rfl, inRoi1 (by decide)⟩, ⟨rfl, inRoi1 (by decide)⟩, trivial⟩

theorem once_keeps : KeepToRois [Data.single] (pipe [Data.single]) (fun _ => once) := by
  intro x b hx
  obtain rfl := single_only hx
  exact ⟨⟨rfl, inRoi1 (by decide)⟩, trivial⟩

theorem once_straight : Straight (MayRead [Data.single] only) (MayStore only) once :=
  fun D => ⟨⟨⟨rfl, inRoi1 (by decide)⟩, (once_run D).symm⟩, trivial⟩

theorem single_order : Topological (pipe [Data.single]).view [only] :=
  ⟨by simp, fun n => by rw [single_nodes], by simp⟩

end Ex.ClData

namespace Props

open Verif.Ex Verif.Ex.Data Verif.Ex.ClData

/-- C109 is false in general: the process function stores 0 and then 1, and can be started again.  The connection of
the first process is closed while it works; a second process processes the block and the server stops with result
`True`; then the first process stores its temporary value, which stays there if the process is killed. -/
theorem C109_false : ∃ (tasks r : List (Task 1)) (p : Pipeline 1) (c : SysConf Nat)
    (P : Block 1 → Prog (Nat × Coord 1) Nat) (D₀ D : Nat × Coord 1 → Nat) (es : List (ClEv (Block 1) Nat Nat))
    (x : Cluster (Block 1) Nat (Nat × Int) Nat) (cur : Nat → Prog (Nat × Coord 1) Nat) (order : List (Block 1)),
    PlainTasks tasks ∧ Builds tasks r p ∧ KeepToRois tasks p P ∧ (∀ y b, p.BlockOf y b → Restartable (MayStore b) (P b)) ∧
    Topological p.view order ∧ ClDataRun p.view c P D₀ Anybody es x D cur ∧ x.sys.srv.stop = true ∧
    Server.result p.view x.sys.srv = true ∧ (∀ b, ¬ Dead p.view (evs x.sys.srv.out) b) ∧
    D (0, c1 0) = 0 ∧ oneByOne P order D₀ (0, c1 0) = 1 := by
  have h1 : (clDataExec (pipe [Data.single]).view conf (anyPick only) (fun _ => twice) (fun _ _ => true) (fun _ => 7)
      (start 1 ++ [.ev (.close 1), .ev .loop] ++ start 2 ++ [.work 2, .work 2] ++ finish 2 ++ [.work 1, .ev (.kill 1)])).map
      (fun x => decide (x.2.1.sys.srv.stop = true ∧ Server.result (pipe [Data.single]).view x.2.1.sys.srv = true ∧
        ¬ Dead (pipe [Data.single]).view (evs x.2.1.sys.srv.out) only ∧ x.2.2.1 (0, c1 0) = 0)) = some true := by
    decide +kernel
  obtain ⟨es, x, D, cur, hr, e⟩ := clDataExec_map (mayP := Anybody) (anyPick_legal _) (fun _ _ _ => trivial) _ h1
  obtain ⟨e1, e2, e3, e4⟩ := of_decide_eq_true e
  have hok := single_builds.ok single_plain
  obtain ⟨ks, hs⟩ := ClRun.srun hok (ClDataRun.run hr)
  refine ⟨[Data.single], [Data.single], pipe [Data.single], conf, fun _ => twice, fun _ => 7, D, es, x, cur, [only], single_plain,
    single_builds, twice_keeps, fun y b hb => ?_, single_order, hr, e1, e2, fun b hd => ?_, e4, twice_run (fun _ => 7)⟩
  · rw [single_only hb]
    exact twice_restartable
  · have hb := ((hs.inv hok).run.inv hok).node _ hd.1
    rw [single_nodes, List.mem_singleton] at hb
    exact e3 (hb ▸ hd)

/-- For `C109_plain_partial`: the process function raises an exception after it has stored its temporary value, and the
block is processed again. -/
example : ∃ es x D cur, ClDataRun (S := Nat) (pipe [Data.single]).view conf (fun _ => twice) (fun _ => 7) OnlyOpen es x D cur ∧
    (∀ b, .bad b ∈ evs x.sys.srv.out → Restartable (MayStore b) twice) ∧ .bad only ∈ evs x.sys.srv.out ∧
    x.sys.srv.stop = true ∧ (∀ b, ¬ Dead (pipe [Data.single]).view (evs x.sys.srv.out) b) ∧ D (0, c1 0) = 1 := by
  have h1 : (clDataExec (pipe [Data.single]).view conf (anyPick only) (fun _ => twice)
      (fun x s => decide (s ∉ x.sys.closed)) (fun _ => 7)
      (start 1 ++ [.work 1, .ev (.fail 1), .ev (.client 1), .ev (.up 1), .ev .loop] ++ start 2 ++ [.work 2, .work 2] ++
        finish 2)).map
      (fun x => decide (x.2.1.sys.srv.stop = true ∧ evs x.2.1.sys.srv.out = [.hand only, .bad only, .hand only, .good only] ∧
        ¬ Dead (pipe [Data.single]).view (evs x.2.1.sys.srv.out) only ∧ x.2.2.1 (0, c1 0) = 1)) = some true := by
    decide +kernel
  obtain ⟨es, x, D, cur, hr, e⟩ := clDataExec_map (mayP := OnlyOpen) (anyPick_legal _)
    (fun x s h => of_decide_eq_true (p := s ∉ x.sys.closed) h) _ h1
  obtain ⟨e1, e2, e3, e4⟩ := of_decide_eq_true e
  dsimp only at e2
  have hok := single_builds.ok single_plain
  obtain ⟨ks, hs⟩ := ClRun.srun hok (ClDataRun.run hr)
  refine ⟨es, x, D, cur, hr, fun b hb => ?_, by rw [e2]; decide, e1, fun b hd => ?_, e4⟩
  · rw [e2] at hb
    have : b = only := by simpa using hb
    rw [this]
    exact twice_restartable
  · have hb := ((hs.inv hok).run.inv hok).node _ hd.1
    rw [single_nodes, List.mem_singleton] at hb
    exact e3 (hb ▸ hd)

/-- For `C109_plain_straight_partial`: the first process goes on after its connection was closed, after the block was
processed by the second one. -/
example : ∃ es x D cur, ClDataRun (S := Nat) (pipe [Data.single]).view conf (fun _ => once) (fun _ => 7) Anybody es x D cur ∧
    1 ∈ x.sys.closed ∧ workOf x 1 = some only ∧ (∃ l, D l = 1) ∧ x.sys.srv.stop = true ∧
    (∀ y b, (pipe [Data.single]).BlockOf y b → Straight (MayRead [Data.single] b) (MayStore b) once) ∧
    (∀ b, ¬ Dead (pipe [Data.single]).view (evs x.sys.srv.out) b) := by
  have h1 : (clDataExec (pipe [Data.single]).view conf (anyPick only) (fun _ => once) (fun _ _ => true) (fun _ => 7)
      (start 1 ++ [.ev (.close 1), .ev .loop] ++ start 2 ++ [.work 2] ++ finish 2 ++ [.work 1])).map
      (fun x => decide (1 ∈ x.2.1.sys.closed ∧ workOf x.2.1 1 = some only ∧ x.2.2.1 (0, c1 0) = 1 ∧
        x.2.1.sys.srv.stop = true ∧ ¬ Dead (pipe [Data.single]).view (evs x.2.1.sys.srv.out) only)) = some true := by
    decide +kernel
  obtain ⟨es, x, D, cur, hr, e⟩ := clDataExec_map (mayP := Anybody) (anyPick_legal _) (fun _ _ _ => trivial) _ h1
  obtain ⟨e1, e2, e3, e4, e5⟩ := of_decide_eq_true e
  have hok := single_builds.ok single_plain
  obtain ⟨ks, hs⟩ := ClRun.srun hok (ClDataRun.run hr)
  refine ⟨es, x, D, cur, hr, e1, e2, ⟨_, e3⟩, e4, fun y b hb => ?_, fun b hd => ?_⟩
  · rw [single_only hb]
    exact once_straight
  · have hb := ((hs.inv hok).run.inv hok).node _ hd.1
    rw [single_nodes, List.mem_singleton] at hb
    exact e5 (hb ▸ hd)

end Props

end Verif
