import Verif.Model.Block
import Mathlib.Data.List.Dedup

/-! # `BlockwiseDependencyGraph`, daisy/dependency_graph.py:16-554 -/

namespace Verif

/-- The `fit` argument.  Simplification: other strings (a `KeyError` in
`inclusion_criteria`) are not representable. -/
inductive Fit where
  | valid
  | overhang
  | shrink
  deriving DecidableEq, Repr

/-- The attributes set by `BlockwiseDependencyGraph.__init__`, dependency_graph.py:97-131,
except the derived `rounding_term`, `_level_stride`, `_level_offsets`, `_level_conflicts`, which
are pure functions of the others and appear as functions below. -/
structure BGraph (d : Nat) where
  taskId : Nat
  blockRead : Roi d
  blockWrite : Roi d
  conflict : Bool
  fit : Fit
  totalRead : Roi d
  totalWrite : Roi d
  deriving DecidableEq

namespace BGraph

variable {d : Nat}

/-- `read_write_context[0]`, dependency_graph.py:99-102. -/
def ctxLo (blockRead blockWrite : Roi d) : Coord d := blockWrite.lo - blockRead.lo
/-- `read_write_context[1]`, dependency_graph.py:99-102. -/
def ctxHi (blockRead blockWrite : Roi d) : Coord d := blockRead.hi - blockWrite.hi

/-- `BlockwiseDependencyGraph.__init__`, dependency_graph.py:87-145, including the assertion of
`compute_level_stride` (lines 326-328), which runs in the constructor. -/
def init (taskId : Nat) (blockRead blockWrite : Roi d) (conflict : Bool) (fit : Fit)
    (totalRead totalWrite : Option (Roi d)) : Except PyErr (BGraph d) :=
  let cl := ctxLo blockRead blockWrite
  let cu := ctxHi blockRead blockWrite
  let finish (tr tw : Roi d) : Except PyErr (BGraph d) :=
    if conflict && !blockRead.containsRoi blockWrite then .error .assertion
    else .ok ⟨taskId, blockRead, blockWrite, conflict, fit, tr, tw⟩
  match totalRead, totalWrite with
  | some tr, some tw =>
    if tw.lo - tr.lo = cl ∧ tr.hi - tw.hi = cu then finish tr (tr.grow (-cl) (-cu))
    else .error .assertion
  | some tr, none => finish tr (tr.grow (-cl) (-cu))
  | none, some tw => finish (tw.grow cl cu) tw
  | none, none => .error .valueError

/-- `rounding_term`, dependency_graph.py:133-140. -/
def roundingTerm (g : BGraph d) : Coord d :=
  match g.fit with
  | .valid => g.blockWrite.shape
  | .overhang => Vec.const d 1
  | .shrink => Vec.const d 1

/-- `compute_level_stride`, dependency_graph.py:312-374 (the assertion is in `init`). -/
def levelStride (g : BGraph d) : Coord d :=
  if g.conflict = false then g.blockWrite.shape
  else
    let maxContext := Coord.max (g.blockWrite.lo - g.blockRead.lo) (g.blockRead.hi - g.blockWrite.hi)
    let minLevelStride := maxContext + g.blockWrite.shape
    let w := g.blockWrite.shape
    let stride := ((minLevelStride - Vec.const d 1).floorDiv w + Vec.const d 1) * w
    let t := g.totalWrite.shape
    let rounded := match g.fit with
      | .valid => t - t.mod w
      | .overhang => t + ((-t).mod w).mod w
      | .shrink => t + ((-t).mod w).mod w
    Coord.min stride rounded

/-- `compute_level_offsets`, dependency_graph.py:376-397. -/
def levelOffsets (g : BGraph d) : List (Coord d) :=
  (vecProduct (Vec.zipWith (fun e step => pyRange 0 e step) g.levelStride g.blockWrite.shape)).reverse

/-- `num_levels`, dependency_graph.py:147-149. -/
def numLevels (g : BGraph d) : Nat := g.levelOffsets.length

/-- `get_offsets` inside `get_conflict_offsets`, dependency_graph.py:462-468. -/
def getOffsets (op ls : Int) : List Int :=
  if op < 0 then [op, op + ls]
  else if op = 0 then [op]
  else [op - ls, op]

/-- `get_conflict_offsets`, dependency_graph.py:455-477. -/
def getConflictOffsets (levelOffset prevLevelOffset levelStride : Coord d) : List (Coord d) :=
  vecProduct (Vec.zipWith getOffsets (prevLevelOffset - levelOffset) levelStride)

/-- The loop of `compute_level_conflicts`, dependency_graph.py:404-419, with
`prev_level_offset` as loop variable. -/
def levelConflictsAux (conflict : Bool) (stride : Coord d) :
    Option (Coord d) → List (Coord d) → List (List (Coord d))
  | _, [] => []
  | prev, lo :: rest =>
    (match prev with
      | some p => if conflict then getConflictOffsets lo p stride else []
      | none => []) :: levelConflictsAux conflict stride (some lo) rest

/-- `compute_level_conflicts`, dependency_graph.py:399-419. -/
def levelConflicts (g : BGraph d) : List (List (Coord d)) :=
  levelConflictsAux g.conflict g.levelStride none g.levelOffsets

/-- `shrink_possible`, dependency_graph.py:479-480. -/
def shrinkPossible (g : BGraph d) (b : Block d) : Bool := g.totalWrite.containsPoint b.writeRoi.lo

/-- `inclusion_criteria`, dependency_graph.py:158-166. -/
def included (g : BGraph d) (b : Block d) : Bool :=
  match g.fit with
  | .valid => g.totalWrite.containsRoi b.writeRoi
  | .overhang => g.totalWrite.containsPoint b.writeRoi.lo
  | .shrink => g.shrinkPossible b

/-- `shrink`, dependency_graph.py:482-493 (mutates the block in place; the id is kept). -/
def shrinkBlock (g : BGraph d) (b : Block d) : Block d :=
  { b with
    readRoi := g.totalRead.intersect b.readRoi
    writeRoi := g.totalWrite.intersect b.writeRoi }

/-- `fit_block`, dependency_graph.py:168-177. -/
def fitBlock (g : BGraph d) (b : Block d) : Block d :=
  match g.fit with
  | .valid => b
  | .overhang => b
  | .shrink => g.shrinkBlock b

/-- `_num_level_blocks`, dependency_graph.py:182-206, with Python's list-index error. -/
def numLevelBlocks (g : BGraph d) (level : Nat) : Except PyErr Int :=
  match g.levelOffsets[level]? with
  | none => .error .indexError
  | some lo =>
    .ok (Vec.zipWith Int.fdiv
      (g.totalWrite.shape - lo + g.levelStride - g.roundingTerm) g.levelStride).toList.prod

/-- `num_roots`, dependency_graph.py:179-180. -/
def numRoots (g : BGraph d) : Except PyErr Int := g.numLevelBlocks 0

/-- `num_blocks`, dependency_graph.py:151-156. -/
def numBlocks (g : BGraph d) : Except PyErr Int :=
  (List.range g.numLevels).foldlM (fun acc level => do return acc + (← g.numLevelBlocks level)) 0

/-- `_compute_level_block_offsets`, dependency_graph.py:421-441. -/
def levelBlockOffsets (g : BGraph d) (level : Nat) : Except PyErr (List (Coord d)) :=
  match g.levelOffsets[level]? with
  | none => .error .indexError
  | some lo =>
    let dims := Vec.zipWith (fun (a : Int × Int) (b : Int) => pyRange a.1 a.2 b)
      (Vec.zipWith Prod.mk lo (g.totalWrite.shape + Vec.const d 1 - g.roundingTerm)) g.levelStride
    .ok ((vecProduct dims).map (fun o => o + (g.totalRead.lo - g.blockRead.lo)))

/-- `level_blocks`, dependency_graph.py:208-222. -/
def levelBlocks (g : BGraph d) (level : Nat) : Except PyErr (List (Block d)) := do
  (← g.levelBlockOffsets level).mapM (fun o =>
    let b := Block.new g.totalRead (g.blockRead.shift o) (g.blockWrite.shift o) g.taskId
    if g.included b then Except.ok (g.fitBlock b) else Except.error .runtimeError)

/-- `root_gen`, dependency_graph.py:224-227 (the whole generator, as a list). -/
def rootGen (g : BGraph d) : Except PyErr (List (Block d)) := do
  return (← g.levelBlocks 0).map g.fitBlock

/-- `_block_offset`, dependency_graph.py:229-232. -/
def blockOffset (g : BGraph d) (b : Block d) : Coord d := b.readRoi.offset - g.totalRead.offset

/-- `_level`, dependency_graph.py:234-243. -/
def levelOf (g : BGraph d) (b : Block d) : Except PyErr Nat :=
  let lo := (g.blockOffset b).mod g.levelStride
  match g.levelOffsets.findIdx? (fun o => lo = o) with
  | some i => .ok i
  | none => .error .notImplemented

/-- The loop body shared by `upstream` and `downstream`: shift the block by `shift`, keep it if
included, fit it.  dependency_graph.py:257-272 and 285-300. -/
def shifted (g : BGraph d) (b : Block d) (shift : Coord d) : Block d :=
  Block.new g.totalRead ⟨b.readRoi.offset + shift, g.blockRead.shape⟩
    ⟨b.writeRoi.offset + shift, g.blockWrite.shape⟩ g.taskId

/-- `downstream`, dependency_graph.py:245-274.  `list(set(..))` is `dedup`; the order is
irrelevant to all theorems. -/
def downstream (g : BGraph d) (b : Block d) : Except PyErr (List (Block d)) := do
  let level ← g.levelOf b
  if g.numLevels ≤ level + 1 then return []
  else
    match g.levelConflicts[level + 1]? with
    | none => .error .indexError
    | some cs =>
      return (((cs.map (fun c => g.shifted b (-c))).filter g.included).map g.fitBlock).dedup

/-- `upstream`, dependency_graph.py:276-302. -/
def upstream (g : BGraph d) (b : Block d) : Except PyErr (List (Block d)) := do
  let level ← g.levelOf b
  match g.levelConflicts[level]? with
  | none => .error .indexError
  | some cs =>
    return (((cs.map (fun c => g.shifted b c)).filter g.included).map g.fitBlock).dedup

/-- All blocks of the task, level by level: the blocks enumerated by
`enumerate_all_dependencies`, dependency_graph.py:304-310. -/
def blocks (g : BGraph d) : Except PyErr (List (Block d)) := do
  return (← (List.range g.numLevels).mapM g.levelBlocks).flatten

/-- `compute_level_block_offsets`, dependency_graph.py:443-453. -/
def allLevelBlockOffsets (g : BGraph d) : Except PyErr (List (List (Coord d))) :=
  (List.range g.numLevels).mapM g.levelBlockOffsets

/-- `enumerate_all_dependencies`, dependency_graph.py:304-310, the whole generator as a list.  The
attribute `_level_block_offsets` it sets is not read anywhere; only an error in computing it would
show. -/
def enumerateAll (g : BGraph d) : Except PyErr (List (Block d × List (Block d))) := do
  let _ ← g.allLevelBlockOffsets
  return (← (List.range g.numLevels).mapM (fun level => do
    (← g.levelBlocks level).mapM (fun b => do return (b, ← g.upstream b)))).flatten

/-- `get_subgraph_blocks`, dependency_graph.py:495-554. -/
def subgraphBlocks (g : BGraph d) (subRoi : Roi d) (readRoi : Bool) : List (Block d) :=
  let cl := ctxLo g.blockRead g.blockWrite
  let cu := ctxHi g.blockRead g.blockWrite
  let sub := if readRoi then subRoi.grow cl cu else subRoi
  let sub := sub.intersect g.totalWrite
  let bg := sub.lo - g.totalWrite.offset
  let en := sub.hi - g.totalWrite.offset
  let w := g.blockWrite.shape
  let a0 := bg.floorDiv w
  let a1 := -((-en).floorDiv w)
  let dims := Vec.zipWith (fun (a : Int × Int) (s : Int) => pyRange a.1 a.2 s)
    (Vec.zipWith Prod.mk (a0 * w) (a1 * w)) w
  let offs := (vecProduct dims).map (fun o => o + g.totalRead.offset)
  let bs := offs.map (fun o => g.fitBlock (Block.new g.totalRead
    ((g.blockRead.shift o).shift (-g.blockRead.offset))
    ((g.blockWrite.shift o).shift (-g.blockRead.offset)) g.taskId))
  bs.filter g.included

end BGraph

end Verif
