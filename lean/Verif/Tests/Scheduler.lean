import Verif.Props.Examples2
import Verif.Spec.Exec

/-! # `tests/test_scheduler.py`, run on the model

These are tests of the model, not proofs of properties: the model gives the results that the tests of the repository
ask of the code. -/

namespace Verif.Tests

open Verif Spec Verif.Ex

variable {d : Nat}

/-- A call in a test. -/
inductive Call where
  /-- `acquire_block(t)`, which is to return the block with this number, or `None` -/
  | take (t : Nat) (num : Option Int)
  /-- `release_block` of the block with this number -/
  | give (t : Nat) (num : Int) (s : BlockStatus)

/-- The pipeline the constructor builds. -/
def build (tasks : List (Task d)) : Pipeline d :=
  match Pipeline.init tasks with
  | .ok p => p
  | .error _ => ⟨TaskGraph.empty, fun _ => none⟩

/-- Run the calls; `none` if a call does not return what it should.  `held` are the blocks that are out. -/
def calls (g : DGraph (Block d) Nat (Nat × Int)) (pick : Nat → Finset (Block d) → Block d) :
    List Call → List (Block d) → Sched (Block d) Nat (Nat × Int) → Option (Sched (Block d) Nat (Nat × Int))
  | [], _, st => some st
  | .take t num :: cs, held, st =>
    match st.acquireBlock g (fun _ _ => .reject) t with
    | .ok (_, some b, st') => if num = some b.idNum ∧ b.taskId = t then calls g pick cs (b :: held) st' else none
    | .ok (_, none, st') => if num = none then calls g pick cs held st' else none
    | .error _ => none
  | .give t num s :: cs, held, st =>
    match held.find? (fun b => b.taskId = t ∧ b.idNum = num) with
    | none => none
    | some b =>
      match st.releaseBlock g pick b s with
      | .ok st' => calls g pick cs held st'
      | .error _ => none

/-- `set.pop` takes the first element in the order of the blocks. -/
def popFirst (g : DGraph (Block d) Nat (Nat × Int)) (b : Block d) : Nat → Finset (Block d) → Block d :=
  fun _ s => match g.nodes.find? (fun n => n ∈ s) with
    | some n => n
    | none => b

/-- `Roi((x, y), (w, h))`. -/
def roi2 (x y w h : Int) : Roi 2 := ⟨c2 x y, c2 w h⟩
/-- `Roi((x,), (w,))`. -/
def roi1 (x w : Int) : Roi 1 := ⟨c1 x, c1 w⟩

/-- Some block (`set.pop` is not called on empty sets). -/
def b2 : Block 2 := ⟨0, roi2 0 0 1 1, roi2 0 0 1 1, 0⟩
/-- Some block. -/
def b1 : Block 1 := ⟨0, roi1 0 1, roi1 0 1, 0⟩

/-- Run calls on a new scheduler and look at the result. -/
def test {α : Type} (b : Block d) (tasks : List (Task d)) (cs : List Call)
    (f : Sched (Block d) Nat (Nat × Int) → α) : Option α :=
  (calls (build tasks).view (popFirst (build tasks).view b) cs [] (Sched.init (build tasks).view)).map f

/-- Take these blocks. -/
def takes (t : Nat) (bs : List Int) : List Call := bs.map (fun b => .take t (some b))
/-- Give these blocks back with SUCCESS. -/
def gives (t : Nat) (bs : List Int) : List Call := bs.map (fun b => .give t b .success)
/-- Take these blocks, of which there are no more, and give them back. -/
def level (t : Nat) (bs : List Int) : List Call := takes t bs ++ [.take t none] ++ gives t bs

/-- Release every block that can be acquired (of the first task in `ts` that has one) with status `s`, at most `fuel`
times, until none is left. -/
def drain (g : DGraph (Block d) Nat (Nat × Int)) (pick : Nat → Finset (Block d) → Block d) (ts : List Nat)
    (s : BlockStatus) : Nat → Sched (Block d) Nat (Nat × Int) → Option (Sched (Block d) Nat (Nat × Int) × Nat)
  | 0, st => some (st, 0)
  | fuel + 1, st =>
    let rec first : List Nat → Sched (Block d) Nat (Nat × Int) →
        Option (Option (Block d) × Sched (Block d) Nat (Nat × Int))
      | [], st => some (none, st)
      | t :: ts, st =>
        match st.acquireBlock g (fun _ _ => .reject) t with
        | .error _ => none
        | .ok (_, none, st') => first ts st'
        | .ok (_, some b, st') => some (some b, st')
    match first ts st with
    | none => none
    | some (none, st') => some (st', 0)
    | some (some b, st') =>
      match st'.releaseBlock g pick b s with
      | .error _ => none
      | .ok st'' => (drain g pick ts s fuel st'').map (fun x => (x.1, x.2 + 1))

/-- `task_zero_levels` -/
def taskZeroLevels : Task 2 := .node 0 ⟨roi2 0 0 10 10, roi2 0 0 9 9, roi2 4 4 1 1, true, .overhang, 0⟩ []
/-- `task_1d` -/
def task1d : Task 1 := .node 0 ⟨roi1 0 4, roi1 0 3, roi1 1 1, true, .valid, 2⟩ []
/-- `task_no_conflicts` -/
def taskNoConflicts : Task 1 := .node 0 ⟨roi1 0 4, roi1 0 3, roi1 1 1, false, .valid, 2⟩ []
/-- `task_2d` -/
def task2d : Task 2 := .node 0 ⟨roi2 0 0 6 6, roi2 0 0 3 3, roi2 1 1 1 1, true, .valid, 2⟩ []
/-- `chained_task`, first task -/
def chained0 : Task 2 := .node 0 ⟨roi2 0 0 6 6, roi2 0 0 3 3, roi2 1 1 1 1, true, .valid, 2⟩ []
/-- `chained_task`, second task -/
def chained1 : Task 2 := .node 1 ⟨roi2 1 1 4 4, roi2 0 0 3 3, roi2 1 1 1 1, true, .valid, 2⟩ [chained0]
/-- `overlapping_tasks`, first task -/
def overlap0 : Task 1 := .node 0 ⟨roi1 0 100, roi1 0 10, roi1 1 8, true, .valid, 2⟩ []
/-- `overlapping_tasks`, second task -/
def overlap1 : Task 1 := .node 1 ⟨roi1 0 100, roi1 0 10, roi1 1 8, true, .valid, 2⟩ [overlap0]

/-- `acquire_block`, the block itself. -/
def acquired (tasks : List (Task d)) (t : Nat) (st : Sched (Block d) Nat (Nat × Int)) : Option (Block d) :=
  match st.acquireBlock (build tasks).view (fun _ _ => .reject) t with
  | .ok (_, b, _) => b
  | .error _ => none

/-- `test_simple_no_conflicts`, first block -/
example : test b1 [taskNoConflicts] [] (acquired [taskNoConflicts] 0) = some (some ⟨0, roi1 0 3, roi1 1 1, 1⟩) := by
  decide +kernel

/-- `test_simple_no_conflicts`, second block -/
example : test b1 [taskNoConflicts] [.take 0 (some 1)] (acquired [taskNoConflicts] 0) =
    some (some ⟨0, roi1 1 3, roi1 2 1, 2⟩) := by decide +kernel

/-- `test_simple_acquire_block` -/
example : test b1 [task1d] [] (acquired [task1d] 0) = some (some ⟨0, roi1 1 3, roi1 2 1, 2⟩) := by decide +kernel

/-- `test_retries` (the blocks are called 1 and 2 there) -/
example : test b1 [task1d] ([.take 0 (some 2), .give 0 2 .failed, .take 0 (some 2), .give 0 2 .success] ++
    [.take 0 (some 1), .give 0 1 .failed, .take 0 (some 1), .give 0 1 .failed, .take 0 (some 1), .give 0 1 .failed] ++
    [.take 0 none]) (fun st => ((st.states 0).completed, (st.states 0).failed)) = some (1, 1) := by decide +kernel

/-- `test_orphan_count` -/
example : test b1 [task1d] [.take 0 (some 2), .give 0 2 .failed, .take 0 (some 2), .give 0 2 .failed, .take 0 (some 2),
    .give 0 2 .failed, .take 0 none]
    (fun st => ((st.states 0).completed, (st.states 0).failed, (st.states 0).orphaned)) = some (0, 1, 1) := by
  decide +kernel

/-- `test_simple_release_block` -/
example : test b1 [task1d] [.take 0 (some 2), .give 0 2 .success] (acquired [task1d] 0) =
    some (some ⟨0, roi1 0 3, roi1 1 1, 1⟩) := by decide +kernel

/-- `test_complete_task` -/
example : test b2 [task2d]
    (level 0 [12, 23, 25, 40] ++ level 0 [8, 17, 19, 32] ++ level 0 [7, 16, 18, 31] ++ level 0 [4, 11, 13, 24])
    (fun st => (st.states 0).isDone) = some true := by decide +kernel

/-- The ids of the blocks, as a set. -/
def ids (bs : Except PyErr (List (Block d))) : Finset (Nat × Int) :=
  match bs with
  | .ok bs => (bs.map (fun b => (b.taskId, b.idNum))).toFinset
  | .error _ => ∅

/-- `test_downstream` -/
example : ids ((build [chained1]).upstream ⟨1, roi2 2 2 3 3, roi2 3 3 1 1, 12⟩) =
    {(0, 12), (0, 17), (0, 23), (0, 18), (0, 24), (0, 31), (0, 25), (0, 32), (0, 40)} := by decide +kernel

/-- `test_upstream` -/
example : ids ((build [chained1]).downstream ⟨0, roi2 2 2 3 3, roi2 3 3 1 1, 24⟩) =
    {(1, 4), (1, 7), (1, 8), (1, 12)} := by decide +kernel

/-- `test_chained_tasks` -/
example : test b2 [chained1]
    (takes 0 [12, 23, 25, 40] ++ gives 0 [12, 23, 25, 40] ++ [.take 1 none] ++
      takes 0 [8, 17, 19, 32] ++ gives 0 [8, 17, 19, 32] ++ [.take 1 none] ++
      takes 0 [7, 16, 18, 31] ++ gives 0 [7, 16, 18, 31] ++ [.take 1 none] ++
      takes 0 [4, 11, 13, 24] ++ gives 0 [24] ++ takes 1 [12] ++ gives 1 [12] ++
      gives 0 [13] ++ takes 1 [8] ++ gives 1 [8] ++ gives 0 [11] ++ takes 1 [7] ++ gives 1 [7] ++ gives 0 [4])
    (fun st => ((st.states 0).isDone, (st.states 1).isDone)) = some (true, false) ∧
  test b2 [chained1]
    (takes 0 [12, 23, 25, 40] ++ gives 0 [12, 23, 25, 40] ++ takes 0 [8, 17, 19, 32] ++ gives 0 [8, 17, 19, 32] ++
      takes 0 [7, 16, 18, 31] ++ gives 0 [7, 16, 18, 31] ++ takes 0 [4, 11, 13, 24] ++ gives 0 [24] ++ takes 1 [12] ++
      gives 1 [12] ++ gives 0 [13] ++ takes 1 [8] ++ gives 1 [8] ++ gives 0 [11] ++ takes 1 [7] ++ gives 1 [7] ++
      gives 0 [4] ++ takes 1 [4] ++ gives 1 [4])
    (fun st => (st.states 1).isDone) = some true := by decide +kernel

/-- `test_overlapping_tasks` -/
example : (drain (build [overlap1]).view (popFirst (build [overlap1]).view b1) [0, 1] .success 24
    (Sched.init (build [overlap1]).view)).map
    (fun x => ((x.1.states 0).completed, (x.1.states 1).completed, x.2)) = some (12, 12, 24) := by decide +kernel

/-- `test_zero_levels` -/
example : (drain (build [taskZeroLevels]).view (popFirst (build [taskZeroLevels]).view b2) [0] .success 5
    (Sched.init (build [taskZeroLevels]).view)).map (·.2) = some 4 ∧
    ∀ k ∈ [0, 1, 2, 3], (drain (build [taskZeroLevels]).view (popFirst (build [taskZeroLevels]).view b2) [0] .success k
      (Sched.init (build [taskZeroLevels]).view)).map (fun x => (x.1.states 0).ready) = some 1 := by decide +kernel

/-- `test_zero_levels_failure` -/
example : ((Sched.init (build [taskZeroLevels]).view).states 0).ready = 1 ∧
    (drain (build [taskZeroLevels]).view (popFirst (build [taskZeroLevels]).view b2) [0] .failed 2
    (Sched.init (build [taskZeroLevels]).view)).map
    (fun x => ((x.1.states 0).failed + (x.1.states 0).orphaned, (x.1.states 0).total, x.2)) = some (4, 4, 1) := by
  decide +kernel

end Verif.Tests
