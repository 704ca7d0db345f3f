import Verif.Props.Data
import Verif.Props.Asymmetric
import Verif.Spec.DataExec

/-! # C108: what the conditions are for -/

namespace Verif

open Spec Pipeline Props

namespace Ex.Data

/-- Writes `[1,3)` in blocks of 1 with context 1, without `read_write_conflict`. -/
def loose : Task 1 := task1 0 (r1 0 4) (r1 0 3) (r1 1 2) false .valid []

theorem loose_plain : PlainTasks [loose] := by
  refine plainTasks_of (L := [loose]) (by simp) (by simp [loose, task1, TTree.requires])
    (by simp [loose, task1, TTree.id]) ?_ ?_ ?_
  · intro t ht
    rw [List.mem_singleton] at ht
    subst ht
    exact ⟨by decide, by decide, by decide, by decide, Or.inl (by decide), by decide⟩
  · intro t ht hr
    rw [List.mem_singleton] at ht
    subst ht
    exact absurd rfl hr
  · intro t ht hr
    rw [List.mem_singleton] at ht
    subst ht
    exact absurd rfl hr

theorem loose_builds : Builds [loose] [loose] (pipe [loose]) := ⟨by rfl, by rfl, by rfl⟩

def left : Block 1 := blk1 0 0 3 1 2 1
def right : Block 1 := blk1 0 1 4 2 3 2

theorem loose_nodes : (pipe [loose]).view.nodes = [left, right] := by decide +kernel

/-- Stores 1. -/
def writer : Prog (Nat × Coord 1) Nat := .put (0, c1 1) 1 .done
/-- Copies the voxel to the left. -/
def reader : Prog (Nat × Coord 1) Nat := .look (0, c1 1) (fun v => .put (0, c1 2) v .done)

/-- The left block stores 1, the right block copies what it finds in the left block. -/
def copy (b : Block 1) : Prog (Nat × Coord 1) Nat := if b = left then writer else reader

theorem copy_left : copy left = writer := if_pos rfl
theorem copy_right : copy right = reader := if_neg (by decide)

theorem inRoi1 {v a b : Int} (h : a ≤ v ∧ v < b) : InRoi (c1 v) (r1 a b) := by
  intro i
  have : i = 0 := Subsingleton.elim _ _
  subst this
  change a ≤ v ∧ v < a + (b - a)
  omega

theorem of_inRoi1 {v : Coord 1} {a b : Int} (h : InRoi v (r1 a b)) : ∃ x, v = c1 x ∧ a ≤ x ∧ x < b := by
  have h0 := h 0
  change a ≤ v.get 0 ∧ v.get 0 < a + (b - a) at h0
  refine ⟨v.get 0, ?_, h0.1, by omega⟩
  apply Vec.ext_get
  intro i
  have : i = 0 := Subsingleton.elim _ _
  subst this
  rfl

theorem mayStore1 {a c v w : Int} {l : Nat × Coord 1} (h : MayStore (blk1 0 a c v (v + 1) w) l) : l = (0, c1 v) := by
  obtain ⟨h1, h2⟩ := h
  obtain ⟨x, h3, h4⟩ := of_inRoi1 (show InRoi l.2 (r1 v (v + 1)) from h2)
  have : x = v := by omega
  rw [← this, ← h3, ← (show l.1 = 0 from h1)]

theorem writer_restartable : Restartable (MayStore left) writer := by
  intro D D' _ l hl
  rw [mayStore1 (show MayStore (blk1 0 0 3 1 (1 + 1) 1) l from hl)]
  have e : ∀ D : Nat × Coord 1 → Nat, writer.run D (0, c1 1) = 1 :=
    fun D => by change upd D (0, c1 1) 1 (0, c1 1) = 1; exact if_pos rfl
  rw [e, e]

theorem reader_restartable : Restartable (MayStore right) reader := by
  intro D D' h l hl
  rw [mayStore1 (show MayStore (blk1 0 1 4 2 (2 + 1) 2) l from hl)]
  have e : ∀ D : Nat × Coord 1 → Nat, reader.run D (0, c1 2) = D (0, c1 1) :=
    fun D => by change upd D (0, c1 2) (D (0, c1 1)) (0, c1 2) = _; exact if_pos rfl
  rw [e, e]
  refine h (0, c1 1) ?_
  intro hx
  have := mayStore1 (show MayStore (blk1 0 1 4 2 (2 + 1) 2) _ from hx)
  revert this
  decide

/-- The same task with `read_write_conflict` and one retry. -/
def tight : Task 1 := .node 0 ⟨r1 0 4, r1 0 3, r1 1 2, true, .valid, 1⟩ []

theorem tight_plain : PlainTasks [tight] := by
  refine plainTasks_of (L := [tight]) (by simp) (by simp [tight, TTree.requires])
    (by simp [tight, TTree.id]) ?_ ?_ ?_
  · intro t ht
    rw [List.mem_singleton] at ht
    subst ht
    exact ⟨by decide, by decide, by decide, by decide, Or.inl (by decide), by decide⟩
  · intro t ht hr
    rw [List.mem_singleton] at ht
    subst ht
    exact absurd rfl hr
  · intro t ht hr
    rw [List.mem_singleton] at ht
    subst ht
    exact absurd rfl hr

theorem tight_builds : Builds [tight] [tight] (pipe [tight]) := ⟨by rfl, by rfl, by rfl⟩

theorem tight_nodes : (pipe [tight]).view.nodes = [right, left] := by decide +kernel

theorem tight_keeps : KeepToRois [tight] (pipe [tight]) copy := by
  intro x b hx
  have hb := tight_builds.mem_nodes tight_plain hx
  rw [tight_nodes] at hb
  simp only [List.mem_cons, List.not_mem_nil, or_false] at hb
  rcases hb.symm with rfl | rfl
  · rw [copy_left]
    exact ⟨⟨rfl, inRoi1 (by decide)⟩, trivial⟩
  · rw [copy_right]
    exact ⟨Or.inl (Or.inr (Or.inl ⟨tight, ⟨tight, by simp, Relation.ReflTransGen.refl⟩, rfl, rfl, rfl,
      inRoi1 (by decide)⟩)), fun v => ⟨⟨rfl, inRoi1 (by decide)⟩, trivial⟩⟩

/-- An execution of it in which both blocks fail once, the left one after it has stored its result.
The right block comes first. -/
example : ∃ tr st D cur, DataRun (pipe [tight]).view copy (fun _ => 7) tr st D cur ∧
    (∀ b, .bad b ∈ tr → Restartable (MayStore b) (copy b)) ∧ .bad left ∈ tr ∧ .bad right ∈ tr ∧
    (∀ b ∈ (pipe [tight]).view.nodes, Done tr b) ∧ D (0, c1 1) = 1 ∧ D (0, c1 2) = 7 := by
  have h1 : (dataExec (pipe [tight]).view (anyPick left) copy
      [.call (.acq 0 []), .step right, .call (.bad right), .call (.acq 0 []), .step right, .step right,
        .call (.good right), .call (.acq 0 []), .step left, .call (.bad left), .call (.acq 0 []), .step left,
        .call (.good left)] ([], Sched.init (pipe [tight]).view, fun _ => 7, copy)).map
      (fun x => decide (x.1 = [.hand right, .bad right, .hand right, .good right, .hand left, .bad left, .hand left,
        .good left] ∧ x.2.2.1 (0, c1 1) = 1 ∧ x.2.2.1 (0, c1 2) = 7)) = some true := by decide +kernel
  obtain ⟨tr, st, D, cur, hr, e⟩ := dataExec_map (anyPick_legal _) _ h1
  obtain ⟨e1, e2, e3⟩ := of_decide_eq_true e
  dsimp only at e1 e2 e3
  refine ⟨tr, st, D, cur, hr, fun b hb => ?_, by rw [e1]; decide, by rw [e1]; decide, fun b hb => ?_, e2, e3⟩
  · rw [e1] at hb
    have : b = right ∨ b = left := by simpa using hb
    rcases this with rfl | rfl
    · rw [copy_right]
      exact reader_restartable
    · rw [copy_left]
      exact writer_restartable
  · rw [tight_nodes] at hb
    simp only [List.mem_cons, List.not_mem_nil, or_false] at hb
    rw [e1]
    rcases hb with rfl | rfl <;> decide

/-- Writes `[0,1)` in one block, with one retry. -/
def single : Task 1 := .node 0 ⟨r1 0 1, r1 0 1, r1 0 1, false, .valid, 1⟩ []

theorem single_plain : PlainTasks [single] := by
  refine plainTasks_of (L := [single]) (by simp) (by simp [single, TTree.requires])
    (by simp [single, TTree.id]) ?_ ?_ ?_
  · intro t ht
    rw [List.mem_singleton] at ht
    subst ht
    exact ⟨by decide, by decide, by decide, by decide, Or.inl (by decide), by decide⟩
  · intro t ht hr
    rw [List.mem_singleton] at ht
    subst ht
    exact absurd rfl hr
  · intro t ht hr
    rw [List.mem_singleton] at ht
    subst ht
    exact absurd rfl hr

theorem single_builds : Builds [single] [single] (pipe [single]) := ⟨by rfl, by rfl, by rfl⟩

def only : Block 1 := blk1 0 0 1 0 1 0

theorem single_nodes : (pipe [single]).view.nodes = [only] := by decide +kernel

/-- Adds one. -/
def count : Prog (Nat × Coord 1) Nat := .look (0, c1 0) (fun v => .put (0, c1 0) (v + 1) .done)

end Ex.Data

namespace Props

open Verif.Ex Verif.Ex.Data

/-- Two executions of a plain task that complete all blocks without failures but end with different data: the blocks
look at each other's results (inside their read ROIs), and the task was made without `read_write_conflict`. -/
theorem C108_needs_conflict : ∃ (p : Pipeline 1) (P : Block 1 → Prog (Nat × Coord 1) Nat)
    (D₀ D D' : Nat × Coord 1 → Nat) (tr tr' : List (Ev (Block 1))) (st st' : Sched (Block 1) Nat (Nat × Int))
    (cur cur' : Block 1 → Prog (Nat × Coord 1) Nat), PlainTasks [loose] ∧ Builds [loose] [loose] p ∧
    (∀ b ∈ p.view.nodes, (P b).Uses (fun l => l.1 = b.taskId ∧ InRoi l.2 b.readRoi) (MayStore b)) ∧
    (∀ b ∈ p.view.nodes, Restartable (MayStore b) (P b)) ∧ DataRun p.view P D₀ tr st D cur ∧
    DataRun p.view P D₀ tr' st' D' cur' ∧ (∀ b ∈ p.view.nodes, Done tr b ∧ Done tr' b) ∧
    (∀ b, .bad b ∉ tr ∧ .bad b ∉ tr') ∧ D ≠ D' := by
  have h1 : (dataExec (pipe [loose]).view (anyPick left) copy
      [.call (.acq 0 []), .step left, .call (.good left), .call (.acq 0 []), .step right, .step right,
        .call (.good right)] ([], Sched.init (pipe [loose]).view, fun _ => 0, copy)).map
      (fun x => decide (x.1 = [.hand left, .good left, .hand right, .good right] ∧ x.2.2.1 (0, c1 2) = 1)) =
      some true := by decide +kernel
  have h2 : (dataExec (pipe [loose]).view (anyPick left) copy
      [.call (.acq 0 []), .call (.acq 0 []), .step right, .step left, .step right, .call (.good right),
        .call (.good left)] ([], Sched.init (pipe [loose]).view, fun _ => 0, copy)).map
      (fun x => decide (x.1 = [.hand left, .hand right, .good right, .good left] ∧ x.2.2.1 (0, c1 2) = 0)) =
      some true := by decide +kernel
  obtain ⟨tr, st, D, cur, hr, e⟩ := dataExec_map (anyPick_legal _) _ h1
  obtain ⟨tr', st', D', cur', hr', e'⟩ := dataExec_map (anyPick_legal _) _ h2
  obtain ⟨e1, e2⟩ := of_decide_eq_true e
  obtain ⟨f1, f2⟩ := of_decide_eq_true e'
  dsimp only at e1 e2 f1 f2
  refine ⟨pipe [loose], copy, fun _ => 0, D, D', tr, tr', st, st', cur, cur', loose_plain, loose_builds, ?_, ?_, hr, hr',
    ?_, ?_, ?_⟩
  · intro b hb
    rw [loose_nodes] at hb
    simp only [List.mem_cons, List.not_mem_nil, or_false] at hb
    rcases hb with rfl | rfl
    · rw [copy_left]
      exact ⟨⟨rfl, inRoi1 (by decide)⟩, trivial⟩
    · rw [copy_right]
      exact ⟨Or.inl ⟨rfl, inRoi1 (by decide)⟩, fun v => ⟨⟨rfl, inRoi1 (by decide)⟩, trivial⟩⟩
  · intro b hb
    rw [loose_nodes] at hb
    simp only [List.mem_cons, List.not_mem_nil, or_false] at hb
    rcases hb with rfl | rfl
    · rw [copy_left]
      exact writer_restartable
    · rw [copy_right]
      exact reader_restartable
  · intro b hb
    rw [loose_nodes] at hb
    simp only [List.mem_cons, List.not_mem_nil, or_false] at hb
    rw [e1, f1]
    rcases hb with rfl | rfl <;> decide
  · intro b
    rw [e1, f1]
    simp
  · intro h
    rw [h, f2] at e2
    cases e2

/-- Two executions of a plain task with one block that complete it but end with different data: in the second one the
first attempt fails after it has stored something that the second attempt looks at. -/
theorem C108_needs_restart : ∃ (p : Pipeline 1) (P : Block 1 → Prog (Nat × Coord 1) Nat)
    (D₀ D D' : Nat × Coord 1 → Nat) (tr tr' : List (Ev (Block 1))) (st st' : Sched (Block 1) Nat (Nat × Int))
    (cur cur' : Block 1 → Prog (Nat × Coord 1) Nat), PlainTasks [single] ∧ Builds [single] [single] p ∧
    KeepToRois [single] p P ∧ DataRun p.view P D₀ tr st D cur ∧
    DataRun p.view P D₀ tr' st' D' cur' ∧ (∀ b ∈ p.view.nodes, Done tr b ∧ Done tr' b) ∧ D ≠ D' := by
  have h1 : (dataExec (pipe [single]).view (anyPick only) (fun _ => count)
      [.call (.acq 0 []), .step only, .step only, .call (.good only)] ([], Sched.init (pipe [single]).view, fun _ => 0, fun _ => count)).map
      (fun x => decide (x.1 = [.hand only, .good only] ∧ x.2.2.1 (0, c1 0) = 1)) =
      some true := by decide +kernel
  have h2 : (dataExec (pipe [single]).view (anyPick only) (fun _ => count)
      [.call (.acq 0 []), .step only, .step only, .call (.bad only), .call (.acq 0 []), .step only, .step only,
        .call (.good only)] ([], Sched.init (pipe [single]).view, fun _ => 0, fun _ => count)).map
      (fun x => decide (x.1 = [.hand only, .bad only, .hand only, .good only] ∧ x.2.2.1 (0, c1 0) = 2)) =
      some true := by decide +kernel
  obtain ⟨tr, st, D, cur, hr, e⟩ := dataExec_map (anyPick_legal _) _ h1
  obtain ⟨tr', st', D', cur', hr', e'⟩ := dataExec_map (anyPick_legal _) _ h2
  obtain ⟨e1, e2⟩ := of_decide_eq_true e
  obtain ⟨f1, f2⟩ := of_decide_eq_true e'
  dsimp only at e1 e2 f1 f2
  refine ⟨pipe [single], fun _ => count, fun _ => 0, D, D', tr, tr', st, st', cur, cur', single_plain, single_builds, ?_,
    hr, hr', ?_, ?_⟩
  · intro x b hx
    have hb := single_builds.mem_nodes single_plain hx
    rw [single_nodes, List.mem_singleton] at hb
    subst hb
    exact ⟨Or.inr ⟨rfl, inRoi1 (by decide)⟩, fun v => ⟨⟨rfl, inRoi1 (by decide)⟩, trivial⟩⟩
  · intro b hb
    rw [single_nodes, List.mem_singleton] at hb
    subst hb
    rw [e1, f1]
    decide
  · intro h
    rw [h, f2] at e2
    cases e2

end Props

end Verif
