import Verif.Py.Basic
import Mathlib.Data.Finset.Basic
import Mathlib.Data.Finset.Image

/-!
# Model of `daisy/ready_surface.py`

Nodes are an arbitrary type with decidable equality (Python: blocks, compared and hashed by their
`block_id`, `block.py` 103-107).  The two functions handed to `ReadySurface.__init__` (lines 22-27)
are the total functions `up` and `down`; exceptions raised by them are not represented here (the
theorems about `upstream` / `downstream` show that there are none).  The Python sets `surface` and
`boundary` are `Finset`s.  `set.pop()` takes an arbitrary element: every call of `mark_failure` gets
an oracle `pick`, over which all theorems quantify.
-/

namespace Verif

/-- What the ready surface and the scheduler know of the dependency graph
(`dependency_graph.py` 557-644).  `key` is `Block.block_id`, `task` is `Block.task_id`, `nodes` lists
the blocks of all tasks; it is used only to bound loops. -/
structure DGraph (N T K : Type) where
  up : N → List N
  down : N → List N
  task : N → T
  key : N → K
  /-- keys of `task_map` (`scheduler.py` 163-166), in insertion order -/
  tasks : List T
  /-- `dependency_graph.num_blocks(task_id)` -/
  total : T → Int
  /-- keys of `dependency_graph.roots()` -/
  rootTasks : List T
  numRoots : T → Int
  rootGen : T → List N
  /-- `Task.max_retries` -/
  maxRetries : T → Int
  nodes : List N

/-- `self.surface`, `self.boundary` (`ready_surface.py` 26-27). -/
structure RS (N : Type) where
  surface : Finset N
  boundary : Finset N

namespace RS

variable {N T K : Type} [DecidableEq N]

/-- `ready_surface.py` 22-27. -/
def init : RS N := ⟨∅, ∅⟩

/-- Python `set.remove`: `KeyError` if the element is missing. -/
def setRemove (s : Finset N) (n : N) : Except PyErr (Finset N) :=
  if n ∈ s then .ok (s.erase n) else .error .keyError

/-- `__add_to_boundary`, `ready_surface.py` 136-144. -/
def addToBoundary (g : DGraph N T K) (rs : RS N) (n : N) : Bool × RS N :=
  if n ∉ rs.boundary ∧ ∃ u ∈ g.up n, u ∈ rs.boundary then
    (true, { rs with boundary := insert n rs.boundary })
  else (false, rs)

/-- `__remove_from_boundary`, `ready_surface.py` 146-154 (the result is not used by the callers). -/
def removeFromBoundary (g : DGraph N T K) (rs : RS N) (n : N) : RS N :=
  if n ∈ rs.boundary ∧ ∀ u ∈ g.up n, u ∉ rs.surface then
    { rs with boundary := rs.boundary.erase n }
  else rs

/-- `(down_node in self.surface) - (down_node in self.boundary)`, `ready_surface.py` 63-66. -/
def contained (rs : RS N) (n : N) : Int :=
  (if n ∈ rs.surface then 1 else 0) - (if n ∈ rs.boundary then 1 else 0)

/-- One iteration of the loop over upstream nodes, `ready_surface.py` 60-72 and 117-129. -/
def cleanUp (g : DGraph N T K) (rs : RS N) (u : N) : Except PyErr (RS N) :=
  let downs := g.down u
  let cs := downs.map rs.contained
  if cs.all (fun c => 0 < c.natAbs) then
    match setRemove rs.surface u with
    | .error e => .error e
    | .ok s =>
      .ok ((downs.zip cs).foldl
        (fun r dc => if dc.2 < 0 then r.removeFromBoundary g dc.1 else r)
        { rs with surface := s })
  else .ok rs

/-- The loop over upstream nodes. -/
def cleanUps (g : DGraph N T K) : List N → RS N → Except PyErr (RS N)
  | [], rs => .ok rs
  | u :: us, rs =>
    match cleanUp g rs u with
    | .error e => .error e
    | .ok rs' => cleanUps g us rs'

/-- The loop over downstream nodes of `mark_success`, `ready_surface.py` 54-57. -/
def scanDown (g : DGraph N T K) : List N → RS N → List N → List N × RS N
  | [], rs, ready => (ready, rs)
  | m :: ms, rs, ready =>
    match addToBoundary g rs m with
    | (true, rs') => scanDown g ms rs' ready
    | (false, rs') =>
      if ∀ u ∈ g.up m, u ∈ rs'.surface then scanDown g ms rs' (ready ++ [m])
      else scanDown g ms rs' ready

/-- `mark_success`, `ready_surface.py` 29-77. -/
def markSuccess (g : DGraph N T K) (rs : RS N) (n : N) : Except PyErr (List N × RS N) :=
  let ups := g.up n
  if ¬ ∀ u ∈ ups, u ∈ rs.surface then .error .assertion
  else
    let (ready, rs2) := scanDown g (g.down n) { rs with surface := insert n rs.surface } []
    match cleanUps g ups rs2 with
    | .error e => .error e
    | .ok rs3 =>
      if (g.down n).isEmpty then
        match setRemove rs3.surface n with
        | .error e => .error e
        | .ok s => .ok (ready, { rs3 with surface := s })
      else .ok (ready, rs3)

/-- The `while` loop of `mark_failure`, `ready_surface.py` 105-114.  `work` is `down_nodes`; `pick k`
is the element the `k`-th `pop()` takes (any element of the set; if the oracle names something
that is not in the set it is not a possible behaviour and the loop reports an error). -/
def orphanLoop (g : DGraph N T K) (pick : Nat → Finset N → N) :
    Nat → Nat → Finset N → RS N → Finset N → Except PyErr (Finset N × RS N)
  | 0, _, _, _, _ => .error .outOfFuel
  | fuel + 1, k, work, rs, orphans =>
    if work = ∅ then .ok (orphans, rs)
    else
      let m := pick k work
      if m ∉ work then .error .valueError
      else
        let work' := work.erase m
        match addToBoundary g rs m with
        | (true, rs') =>
          orphanLoop g pick fuel (k + 1) (work' ∪ ((g.down m).toFinset \ orphans)) rs'
            (insert m orphans)
        | (false, rs') => orphanLoop g pick fuel (k + 1) work' rs' orphans

/-- Bound on the number of iterations of `orphanLoop`. -/
def orphanFuel (g : DGraph N T K) : Nat := (g.nodes.length + 2) * (g.nodes.length + 2)

/-- `mark_failure`, `ready_surface.py` 79-134 (the argument `count_all_orphans` is not used by the
code). -/
def markFailure (g : DGraph N T K) (pick : Nat → Finset N → N) (rs : RS N) (n : N) :
    Except PyErr (Finset N × RS N) :=
  let ups := g.up n
  if ¬ ∀ u ∈ ups, u ∈ rs.surface then .error .assertion
  else
    match orphanLoop g pick (orphanFuel g) 0 (g.down n).toFinset
        { rs with boundary := insert n rs.boundary } ∅ with
    | .error e => .error e
    | .ok (orphans, rs2) =>
      match cleanUps g ups rs2 with
      | .error e => .error e
      | .ok rs3 =>
        if (g.up n).isEmpty then
          match setRemove rs3.boundary n with
          | .error e => .error e
          | .ok b => .ok (orphans, { rs3 with boundary := b })
        else .ok (orphans, rs3)

end RS
end Verif
