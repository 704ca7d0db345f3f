import Verif.Py.Basic
import Mathlib.Data.List.Basic

/-!
# Model of `daisy/block_bookkeeper.py`

`K` is the type of block ids, `N` of blocks, `S` of streams (compared by identity).  The dict
`sent_blocks` is an association list in insertion order.  Clock values are integers (the unit does
not matter); every call of `time.time()` is an argument. -/

namespace Verif

/-- `BlockLog`, `block_bookkeeper.py` 7-11. -/
structure BlockLog (N S : Type) where
  block : N
  stream : S
  sentAt : Int
  deriving DecidableEq

/-- `sent_blocks`, `block_bookkeeper.py` 17. -/
abbrev Book (N K S : Type) := List (K × BlockLog N S)

namespace Book

variable {N K S : Type} [DecidableEq K] [DecidableEq S]

/-- `self.sent_blocks.get(block_id)`. -/
def get (b : Book N K S) (k : K) : Option (BlockLog N S) :=
  (b.find? (fun e => e.1 = k)).map (·.2)

/-- `del self.sent_blocks[block_id]`: `KeyError` if missing. -/
def del (b : Book N K S) (k : K) : Except PyErr (Book N K S) :=
  match b.get k with
  | none => .error .keyError
  | some _ => .ok (b.filter (fun e => e.1 ≠ k))

/-- `notify_block_sent`, `block_bookkeeper.py` 19-28. -/
def notifySent (b : Book N K S) (k : K) (n : N) (s : S) (now : Int) : Except PyErr (Book N K S) :=
  match b.get k with
  | some _ => .error .assertion
  | none => .ok (b ++ [(k, ⟨n, s, now⟩)])

/-- `notify_block_returned`, `block_bookkeeper.py` 30-45 (the processing times it stores in the block
are not modelled). -/
def notifyReturned (b : Book N K S) (k : K) (s : S) : Except PyErr (Book N K S) :=
  match b.get k with
  | none => .error .assertion
  | some log => if s = log.stream then b.del k else .error .assertion

/-- `is_valid_return`, `block_bookkeeper.py` 47-63. -/
def isValidReturn (b : Book N K S) (k : K) (s : S) : Bool :=
  match b.get k with
  | none => false
  | some log => if log.stream ≠ s then false else true

/-- First loop of `get_lost_blocks`, `block_bookkeeper.py` 71-80.  `closed` is `stream.closed()`,
`clock i` is what `time.time()` returns in iteration `i`. -/
def lostIds (closed : S → Bool) (timeout : Option Int) (clock : Nat → Int) :
    Nat → Book N K S → List K
  | _, [] => []
  | i, (k, log) :: rest =>
    (if closed log.stream then [k] else []) ++
    (match timeout with
      | none => []
      | some d => if clock i - log.sentAt > d then [k] else []) ++
    lostIds closed timeout clock (i + 1) rest

/-- Second loop of `get_lost_blocks`, `block_bookkeeper.py` 82-86. -/
def popLost : List K → Book N K S → List N → Except PyErr (List N × Book N K S)
  | [], b, acc => .ok (acc, b)
  | k :: ks, b, acc =>
    match b.get k with
    | none => .error .keyError
    | some log =>
      match b.del k with
      | .error e => .error e
      | .ok b' => popLost ks b' (acc ++ [log.block])

/-- `get_lost_blocks`, `block_bookkeeper.py` 65-88. -/
def getLost (closed : S → Bool) (timeout : Option Int) (clock : Nat → Int) (b : Book N K S) :
    Except PyErr (List N × Book N K S) :=
  popLost (lostIds closed timeout clock 0 b) b []

end Book
end Verif
