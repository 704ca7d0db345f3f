import Verif.Model.Scheduler
import Verif.Model.Pipeline

/-!
# Model of `daisy/ready_surface.py` and `daisy/scheduler.py` with blocks as Python compares them

`Model/ReadySurface` and `Model/Scheduler` compare blocks structurally, and take for granted that `upstream` and
`downstream` do not raise.  Here blocks are compared by their ids (`block.py` 103-107): a set keeps the object that was added
first, and `upstream` and `downstream` look at the attributes of whatever object they are given, and may raise.  This makes a
difference for the block in a `ReleaseBlock` message, which is an object that user code had in its hands
(`server.py` 163-165, 217-223). -/

namespace Verif

variable {N T K : Type}

/-- A dependency graph whose `upstream` and `downstream` can be called with any block object. -/
structure IdGraph (N T K : Type) where
  g : DGraph N T K
  up : N → Except PyErr (List N)
  down : N → Except PyErr (List N)

/-- The dependency graph of a pipeline, dependency_graph.py:557-644. -/
def Pipeline.idGraph {d : Nat} (p : Pipeline d) : IdGraph (Block d) Nat (Nat × Int) := ⟨p.view, p.upstream, p.downstream⟩

namespace ById

variable [DecidableEq N] [DecidableEq T] [DecidableEq K]

/-- `n in s`. -/
def Has (key : N → K) (s : Finset N) (n : N) : Prop := ∃ m ∈ s, key m = key n

instance (key : N → K) (s : Finset N) (n : N) : Decidable (Has key s n) := by unfold Has; infer_instance

/-- `s.add(n)`. -/
def add (key : N → K) (s : Finset N) (n : N) : Finset N := if Has key s n then s else insert n s

/-- `s.remove(n)`. -/
def remove (key : N → K) (s : Finset N) (n : N) : Except PyErr (Finset N) :=
  if Has key s n then .ok (s.filter (fun m => key m ≠ key n)) else .error .keyError

/-- `set(l)`. -/
def ofList (key : N → K) (l : List N) : Finset N := l.foldl (add key) ∅

/-- `s - r`. -/
def diff (key : N → K) (s r : Finset N) : Finset N := s.filter (fun n => ¬ Has key r n)

/-- `s.union(r)`: objects of `s` are kept. -/
def union (key : N → K) (s r : Finset N) : Finset N := s ∪ diff key r s

/-- `__add_to_boundary`, `ready_surface.py` 136-144. -/
def addToBoundary (ig : IdGraph N T K) (rs : RS N) (n : N) : Except PyErr (Bool × RS N) :=
  match ig.up n with
  | .error e => .error e
  | .ok us =>
    if ¬ Has ig.g.key rs.boundary n ∧ ∃ u ∈ us, Has ig.g.key rs.boundary u then
      .ok (true, { rs with boundary := add ig.g.key rs.boundary n })
    else .ok (false, rs)

/-- `__remove_from_boundary`, `ready_surface.py` 146-154. -/
def removeFromBoundary (ig : IdGraph N T K) (rs : RS N) (n : N) : Except PyErr (RS N) :=
  match ig.up n with
  | .error e => .error e
  | .ok us =>
    if Has ig.g.key rs.boundary n ∧ ∀ u ∈ us, ¬ Has ig.g.key rs.surface u then
      match remove ig.g.key rs.boundary n with
      | .error e => .error e
      | .ok b => .ok { rs with boundary := b }
    else .ok rs

/-- `(down_node in self.surface) - (down_node in self.boundary)`, `ready_surface.py` 63-66. -/
def contained (key : N → K) (rs : RS N) (n : N) : Int :=
  (if Has key rs.surface n then 1 else 0) - (if Has key rs.boundary n then 1 else 0)

/-- The inner loop of `ready_surface.py` 69-72 and 126-129. -/
def removeAll (ig : IdGraph N T K) : List (N × Int) → RS N → Except PyErr (RS N)
  | [], rs => .ok rs
  | (m, c) :: l, rs =>
    if c < 0 then
      match removeFromBoundary ig rs m with
      | .error e => .error e
      | .ok rs' => removeAll ig l rs'
    else removeAll ig l rs

/-- One iteration of the loop over upstream nodes, `ready_surface.py` 60-72 and 117-129. -/
def cleanUp (ig : IdGraph N T K) (rs : RS N) (u : N) : Except PyErr (RS N) :=
  match ig.down u with
  | .error e => .error e
  | .ok downs =>
    let cs := downs.map (contained ig.g.key rs)
    if cs.all (fun c => 0 < c.natAbs) then
      match remove ig.g.key rs.surface u with
      | .error e => .error e
      | .ok s => removeAll ig (downs.zip cs) { rs with surface := s }
    else .ok rs

/-- The loop over upstream nodes. -/
def cleanUps (ig : IdGraph N T K) : List N → RS N → Except PyErr (RS N)
  | [], rs => .ok rs
  | u :: us, rs =>
    match cleanUp ig rs u with
    | .error e => .error e
    | .ok rs' => cleanUps ig us rs'

/-- The loop over downstream nodes of `mark_success`, `ready_surface.py` 54-57. -/
def scanDown (ig : IdGraph N T K) : List N → RS N → List N → Except PyErr (List N × RS N)
  | [], rs, ready => .ok (ready, rs)
  | m :: ms, rs, ready =>
    match addToBoundary ig rs m with
    | .error e => .error e
    | .ok (true, rs') => scanDown ig ms rs' ready
    | .ok (false, rs') =>
      match ig.up m with
      | .error e => .error e
      | .ok us =>
        if ∀ u ∈ us, Has ig.g.key rs'.surface u then scanDown ig ms rs' (ready ++ [m]) else scanDown ig ms rs' ready

/-- `mark_success`, `ready_surface.py` 29-77. -/
def markSuccess (ig : IdGraph N T K) (rs : RS N) (n : N) : Except PyErr (List N × RS N) :=
  match ig.up n with
  | .error e => .error e
  | .ok ups =>
    if ¬ ∀ u ∈ ups, Has ig.g.key rs.surface u then .error .assertion
    else
      match ig.down n with
      | .error e => .error e
      | .ok downs =>
        match scanDown ig downs { rs with surface := add ig.g.key rs.surface n } [] with
        | .error e => .error e
        | .ok (ready, rs2) =>
          match cleanUps ig ups rs2 with
          | .error e => .error e
          | .ok rs3 =>
            if downs.isEmpty then
              match remove ig.g.key rs3.surface n with
              | .error e => .error e
              | .ok s => .ok (ready, { rs3 with surface := s })
            else .ok (ready, rs3)

/-- The `while` loop of `mark_failure`, `ready_surface.py` 105-114. -/
def orphanLoop (ig : IdGraph N T K) (pick : Nat → Finset N → N) :
    Nat → Nat → Finset N → RS N → Finset N → Except PyErr (Finset N × RS N)
  | 0, _, _, _, _ => .error .outOfFuel
  | fuel + 1, k, work, rs, orphans =>
    if work = ∅ then .ok (orphans, rs)
    else
      let m := pick k work
      if m ∉ work then .error .valueError
      else
        let work' := work.erase m
        match addToBoundary ig rs m with
        | .error e => .error e
        | .ok (true, rs') =>
          match ig.down m with
          | .error e => .error e
          | .ok downs =>
            orphanLoop ig pick fuel (k + 1) (union ig.g.key work' (diff ig.g.key (ofList ig.g.key downs) orphans)) rs'
              (add ig.g.key orphans m)
        | .ok (false, rs') => orphanLoop ig pick fuel (k + 1) work' rs' orphans

/-- `mark_failure`, `ready_surface.py` 79-134. -/
def markFailure (ig : IdGraph N T K) (pick : Nat → Finset N → N) (rs : RS N) (n : N) :
    Except PyErr (Finset N × RS N) :=
  match ig.up n with
  | .error e => .error e
  | .ok ups =>
    if ¬ ∀ u ∈ ups, Has ig.g.key rs.surface u then .error .assertion
    else
      match ig.down n with
      | .error e => .error e
      | .ok downs =>
        match orphanLoop ig pick (RS.orphanFuel ig.g) 0 (ofList ig.g.key downs)
            { rs with boundary := add ig.g.key rs.boundary n } ∅ with
        | .error e => .error e
        | .ok (orphans, rs2) =>
          match cleanUps ig ups rs2 with
          | .error e => .error e
          | .ok rs3 =>
            if ups.isEmpty then
              match remove ig.g.key rs3.boundary n with
              | .error e => .error e
              | .ok b => .ok (orphans, { rs3 with boundary := b })
            else .ok (orphans, rs3)

/-- `release_block`, `scheduler.py` 110-160, given any block object. -/
def releaseBlock (ig : IdGraph N T K) (pick : Nat → Finset N → N) (st : Sched N T K) (n : N)
    (status : BlockStatus) : Except PyErr (Sched N T K) :=
  match st.removeFromProcessing ig.g n with
  | .error e => .error e
  | .ok st1 =>
    match status with
    | .success =>
      match markSuccess ig st1.rs n with
      | .error e => .error e
      | .ok (newBlocks, rs') =>
        .ok ((({ st1 with rs := rs' }).modState (ig.g.task n)
          (fun s => { s with completed := s.completed + 1 })).updateReadyQueue ig.g newBlocks)
    | .failed =>
      if ig.g.maxRetries (ig.g.task n) ≤ (st1.queues (ig.g.task n)).retries (ig.g.key n) then
        match markFailure ig pick st1.rs n with
        | .error e => .error e
        | .ok (orphans, rs') =>
          .ok ((({ st1 with rs := rs' }).modState (ig.g.task n)
            (fun s => { s with failed := s.failed + 1 })).countOrphans ig.g orphans)
      else
        .ok ((st1.queueReadyBlock ig.g n).modQueue (ig.g.task n)
          (fun q => { q with retries := upd q.retries (ig.g.key n) (q.retries (ig.g.key n) + 1) }))
    | _ => .error .runtimeError

/-- The loop of `acquire_block`, `scheduler.py` 71-108. -/
def acquireLoop (ig : IdGraph N T K) (t : T) :
    Nat → (Nat → N → Check) → Nat → Sched N T K → List N →
      Except PyErr (List N × Option N × Sched N T K)
  | 0, _, _, _, _ => .error .outOfFuel
  | fuel + 1, chk, k, st, skips =>
    match (st.queues t).getNext with
    | .error e => .error e
    | .ok (none, q) => .ok (skips, none, st.modQueue t (fun _ => q))
    | .ok (some n, q) =>
      let st1 := (st.modQueue t (fun _ => q)).modState t
        (fun s => { s with ready := s.ready - 1, processing := s.processing + 1 })
      if Sched.precheck (chk k n) then
        let st2 := (st1.modState t (fun s => { s with skipped := s.skipped + 1 })).modQueue t
          (fun q => { q with processing := insert (ig.g.key n) q.processing })
        match releaseBlock ig (fun _ _ => n) st2 n .success with
        | .error e => .error e
        | .ok st3 => acquireLoop ig t fuel chk (k + 1) st3 (skips ++ [n])
      else
        .ok (skips, some n, (st1.modState t (fun s => { s with started := true })).modQueue t
          (fun q => { q with processing := insert (ig.g.key n) q.processing }))

/-- `acquire_block`, `scheduler.py` 71-108. -/
def acquireBlock (ig : IdGraph N T K) (chk : Nat → N → Check) (st : Sched N T K) (t : T) :
    Except PyErr (List N × Option N × Sched N T K) :=
  acquireLoop ig t (ig.g.nodes.length + 1) chk 0 st []

end ById
end Verif
