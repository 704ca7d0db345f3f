import Verif.Geom.Roi
import Mathlib.Data.Nat.Factorial.Basic

/-! # `daisy/block.py` -/

namespace Verif

/-- `BlockStatus`, block.py:8-12. -/
inductive BlockStatus where
  | created
  | processing
  | success
  | failed
  deriving DecidableEq, Repr

/-- Product of `e, e+1, ..., e+n-1`. -/
def risingProd (e : Int) : Nat → Int
  | 0 => 1
  | n + 1 => risingProd e n * (e + n)

/-- `funlib.math.pyramide_volume(edge_length, dims)`: `e (e+1) ... (e+dims-1) / dims!`.
Simplification: exact integer arithmetic (funlib may go through a float). -/
def pyramideVolume (e : Int) (dims : Nat) : Int :=
  if e = 0 then 0 else risingProd e dims / (dims.factorial : Int)

/-- `funlib.math.cantor_number`, on the reversed coordinate list: the recursion strips the last
coordinate. -/
def cantorRev : List Int → Int
  | [] => 0
  | [x] => x
  | x :: y :: r => pyramideVolume (x + (y :: r).sum) (r.length + 2) + cantorRev (y :: r)

/-- `funlib.math.cantor_number(coordinates)`, used in block.py:91. -/
def cantorNumber {d : Nat} (c : Coord d) : Int := cantorRev c.toList.reverse

/-- `Block`, block.py:15-107.  Task ids are opaque labels.  `block_id` is the pair
`(task_id, number)`; the number is `idNum`.  The mutable `status` and `requested_context`
attributes live in the scheduler and client models.  Python compares blocks by `block_id`
(block.py:103-107); the model compares all fields, which agrees by theorem `C06_block_id`. -/
structure Block (d : Nat) where
  taskId : Nat
  readRoi : Roi d
  writeRoi : Roi d
  idNum : Int
  deriving DecidableEq

namespace Block

variable {d : Nat}

/-- `Block.__compute_block_id`, block.py:87-93: the index of the write ROI, counted in write
shapes from the begin of the *total read* ROI (Coordinate division truncates), as a Cantor
number. -/
def computeId (totalRoi writeRoi : Roi d) : Int :=
  cantorNumber ((writeRoi.offset - totalRoi.offset).truncDiv writeRoi.shape)

/-- `Block.__init__`, block.py:70-82. -/
def new (totalRoi readRoi writeRoi : Roi d) (taskId : Nat) : Block d :=
  ⟨taskId, readRoi, writeRoi, computeId totalRoi writeRoi⟩

/-- `block.block_id`. -/
def blockId (b : Block d) : Nat × Int := (b.taskId, b.idNum)

end Block

end Verif
