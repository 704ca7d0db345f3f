import Verif.Tests.Scheduler

/-! # `tests/test_dependency_graph.py`, run on the model -/

namespace Verif.Tests

open Verif Spec Verif.Ex

/-- `BlockwiseDependencyGraph(...)` with `total_read_roi`. -/
def graph {d : Nat} (total read write : Roi d) (f : Fit) : Except PyErr (BGraph d) :=
  BGraph.init 0 read write true f (some total) none

/-- `test_downstream` for one task: the number of blocks that are enumerated, and the number that is calculated. -/
def numbers (write : Roi 1) (f : Fit) : Except PyErr (Nat × Int) := do
  let g ← graph (roi1 0 12) (roi1 0 5) write f
  let bs ← g.enumerateAll
  let n ← g.numBlocks
  return (bs.length, n)

/-- `test_downstream` -/
example : numbers (roi1 2 1) .valid = .ok (8, 8) ∧ numbers (roi1 1 3) .valid = .ok (3, 3) ∧
    numbers (roi1 2 1) .overhang = .ok (8, 8) ∧ numbers (roi1 1 3) .overhang = .ok (4, 4) ∧
    numbers (roi1 2 1) .shrink = .ok (8, 8) ∧ numbers (roi1 1 3) .shrink = .ok (4, 4) := by decide +kernel

/-- The read ROIs and write ROIs of blocks. -/
def rois {d : Nat} (bs : List (Block d)) : Finset (Roi d × Roi d) := (bs.map (fun b => (b.readRoi, b.writeRoi))).toFinset

/-- `test_get_subgraph_blocks` (the ids of blocks are compared there; here also their ROIs) -/
example : (match graph (roi2 0 0 16 16) (roi2 0 0 4 4) (roi2 1 1 2 2) .valid with
    | .ok g => decide (rois (g.subgraphBlocks (roi2 6 6 3 3) false) =
        {(roi2 4 4 4 4, roi2 5 5 2 2), (roi2 6 4 4 4, roi2 7 5 2 2), (roi2 4 6 4 4, roi2 5 7 2 2),
          (roi2 6 6 4 4, roi2 7 7 2 2)}) &&
      (g.subgraphBlocks (roi2 6 6 3 3) false).all (fun b => b.idNum == Block.computeId (roi2 0 0 16 16) b.writeRoi)
    | .error _ => false) = true := by decide +kernel

/-- `test_shrink_downstream_upstream_equivalence` -/
example : (match (do
    let g ← graph (roi1 0 100) (roi1 0 7) (roi1 1 5) .shrink
    let roots ← g.rootGen
    roots.mapM (fun b => do
      let downs ← g.downstream b
      downs.mapM (fun c => do
        let ups ← g.upstream c
        return decide (b ∈ ups)))) with
    | Except.ok l => l.flatten.all id && !l.flatten.isEmpty
    | Except.error (_ : PyErr) => false) = true := by decide +kernel

end Verif.Tests
