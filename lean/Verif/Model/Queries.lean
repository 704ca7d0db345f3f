import Verif.Model.Scheduler

/-!
# The ready surface and the scheduler, counting how often they ask for dependencies

The same functions as in `Model/ReadySurface` and `Model/Scheduler`, once more, in a form in which every call of
`self.upstream` and `self.downstream` (`ready_surface.py` 23-24) is counted.  `Proofs/Queries` shows that without the
counter they are the functions of those files.  `Scheduler` itself does not ask (`scheduler.py` 47-51 hands the two
functions of the dependency graph to the ready surface). -/

namespace Verif

/-- A result, and how often the dependency graph has been asked to get it. -/
structure Asked (α : Type) where
  val : α
  asks : Nat

namespace Asked

instance : Monad Asked where
  pure a := ⟨a, 0⟩
  bind x f := ⟨(f x.val).val, x.asks + (f x.val).asks⟩

variable {α β : Type}

@[simp] theorem val_pure (a : α) : (pure a : Asked α).val = a := rfl
@[simp] theorem asks_pure (a : α) : (pure a : Asked α).asks = 0 := rfl
@[simp] theorem val_bind (x : Asked α) (f : α → Asked β) : (x >>= f).val = (f x.val).val := rfl
@[simp] theorem asks_bind (x : Asked α) (f : α → Asked β) : (x >>= f).asks = x.asks + (f x.val).asks := rfl

end Asked

variable {N T K : Type} [DecidableEq N]

/-- `self.upstream`, `ready_surface.py` 24. -/
def askUp (g : DGraph N T K) (n : N) : Asked (List N) := ⟨g.up n, 1⟩

/-- `self.downstream`, `ready_surface.py` 23. -/
def askDown (g : DGraph N T K) (n : N) : Asked (List N) := ⟨g.down n, 1⟩

namespace Counted

/-- `__add_to_boundary`, `ready_surface.py` 136-144. -/
def addToBoundary (g : DGraph N T K) (rs : RS N) (n : N) : Asked (Bool × RS N) := do
  let ups ← askUp g n
  if n ∉ rs.boundary ∧ ∃ u ∈ ups, u ∈ rs.boundary then
    return (true, { rs with boundary := insert n rs.boundary })
  else return (false, rs)

/-- `__remove_from_boundary`, `ready_surface.py` 146-154. -/
def removeFromBoundary (g : DGraph N T K) (rs : RS N) (n : N) : Asked (RS N) := do
  let ups ← askUp g n
  if n ∈ rs.boundary ∧ ∀ u ∈ ups, u ∉ rs.surface then
    return { rs with boundary := rs.boundary.erase n }
  else return rs

/-- `for down_node, c in zip(down_nodes, contained)`, `ready_surface.py` 69-72 and 126-129. -/
def removeAll (g : DGraph N T K) : List (N × Int) → RS N → Asked (RS N)
  | [], rs => return rs
  | (d, c) :: dcs, rs => do
    if c < 0 then
      let rs' ← removeFromBoundary g rs d
      removeAll g dcs rs'
    else removeAll g dcs rs

/-- One iteration of the loop over upstream nodes, `ready_surface.py` 60-72 and 117-129. -/
def cleanUp (g : DGraph N T K) (rs : RS N) (u : N) : Asked (Except PyErr (RS N)) := do
  let downs ← askDown g u
  let cs := downs.map rs.contained
  if cs.all (fun c => 0 < c.natAbs) then
    match RS.setRemove rs.surface u with
    | .error e => return .error e
    | .ok s =>
      let rs' ← removeAll g (downs.zip cs) { rs with surface := s }
      return .ok rs'
  else return .ok rs

/-- The loop over upstream nodes. -/
def cleanUps (g : DGraph N T K) : List N → RS N → Asked (Except PyErr (RS N))
  | [], rs => return .ok rs
  | u :: us, rs => do
    match ← cleanUp g rs u with
    | .error e => return .error e
    | .ok rs' => cleanUps g us rs'

/-- The loop over downstream nodes of `mark_success`, `ready_surface.py` 54-57. -/
def scanDown (g : DGraph N T K) : List N → RS N → List N → Asked (List N × RS N)
  | [], rs, ready => return (ready, rs)
  | m :: ms, rs, ready => do
    match ← addToBoundary g rs m with
    | (true, rs') => scanDown g ms rs' ready
    | (false, rs') =>
      let ups ← askUp g m
      if ∀ u ∈ ups, u ∈ rs'.surface then scanDown g ms rs' (ready ++ [m])
      else scanDown g ms rs' ready

/-- `mark_success`, `ready_surface.py` 29-77. -/
def markSuccess (g : DGraph N T K) (rs : RS N) (n : N) : Asked (Except PyErr (List N × RS N)) := do
  let ups ← askUp g n
  if ¬ ∀ u ∈ ups, u ∈ rs.surface then return .error .assertion
  else
    let downs ← askDown g n
    let (ready, rs2) ← scanDown g downs { rs with surface := insert n rs.surface } []
    match ← cleanUps g ups rs2 with
    | .error e => return .error e
    | .ok rs3 =>
      let downs' ← askDown g n
      if downs'.isEmpty then
        match RS.setRemove rs3.surface n with
        | .error e => return .error e
        | .ok s => return .ok (ready, { rs3 with surface := s })
      else return .ok (ready, rs3)

/-- The `while` loop of `mark_failure`, `ready_surface.py` 105-114. -/
def orphanLoop (g : DGraph N T K) (pick : Nat → Finset N → N) :
    Nat → Nat → Finset N → RS N → Finset N → Asked (Except PyErr (Finset N × RS N))
  | 0, _, _, _, _ => return .error .outOfFuel
  | fuel + 1, k, work, rs, orphans => do
    if work = ∅ then return .ok (orphans, rs)
    else
      let m := pick k work
      if m ∉ work then return .error .valueError
      else
        match ← addToBoundary g rs m with
        | (true, rs') =>
          let downs ← askDown g m
          orphanLoop g pick fuel (k + 1) (work.erase m ∪ (downs.toFinset \ orphans)) rs' (insert m orphans)
        | (false, rs') => orphanLoop g pick fuel (k + 1) (work.erase m) rs' orphans

/-- `mark_failure`, `ready_surface.py` 79-134. -/
def markFailure (g : DGraph N T K) (pick : Nat → Finset N → N) (rs : RS N) (n : N) :
    Asked (Except PyErr (Finset N × RS N)) := do
  let ups ← askUp g n
  if ¬ ∀ u ∈ ups, u ∈ rs.surface then return .error .assertion
  else
    let downs ← askDown g n
    match ← orphanLoop g pick (RS.orphanFuel g) 0 downs.toFinset { rs with boundary := insert n rs.boundary } ∅ with
    | .error e => return .error e
    | .ok (orphans, rs2) =>
      match ← cleanUps g ups rs2 with
      | .error e => return .error e
      | .ok rs3 =>
        let ups' ← askUp g n
        if ups'.isEmpty then
          match RS.setRemove rs3.boundary n with
          | .error e => return .error e
          | .ok b => return .ok (orphans, { rs3 with boundary := b })
        else return .ok (orphans, rs3)

variable [DecidableEq T] [DecidableEq K]

/-- `release_block`, `scheduler.py` 110-160. -/
def releaseBlock (g : DGraph N T K) (pick : Nat → Finset N → N) (st : Sched N T K) (n : N) (status : BlockStatus) :
    Asked (Except PyErr (Sched N T K)) := do
  match st.removeFromProcessing g n with
  | .error e => return .error e
  | .ok st1 =>
    match status with
    | .success =>
      match ← markSuccess g st1.rs n with
      | .error e => return .error e
      | .ok (newBlocks, rs') =>
        return .ok ((({ st1 with rs := rs' }).modState (g.task n)
          (fun s => { s with completed := s.completed + 1 })).updateReadyQueue g newBlocks)
    | .failed =>
      if g.maxRetries (g.task n) ≤ (st1.queues (g.task n)).retries (g.key n) then
        match ← markFailure g pick st1.rs n with
        | .error e => return .error e
        | .ok (orphans, rs') =>
          return .ok ((({ st1 with rs := rs' }).modState (g.task n)
            (fun s => { s with failed := s.failed + 1 })).countOrphans g orphans)
      else
        return .ok ((st1.queueReadyBlock g n).modQueue (g.task n)
          (fun q => { q with retries := upd q.retries (g.key n) (q.retries (g.key n) + 1) }))
    | _ => return .error .runtimeError

/-- `acquire_block`, `scheduler.py` 71-108. -/
def acquireLoop (g : DGraph N T K) (t : T) :
    Nat → (Nat → N → Check) → Nat → Sched N T K → List N → Asked (Except PyErr (List N × Option N × Sched N T K))
  | 0, _, _, _, _ => return .error .outOfFuel
  | fuel + 1, chk, k, st, skips =>
    match (st.queues t).getNext with
    | .error e => return .error e
    | .ok (none, q) => return .ok (skips, none, st.modQueue t (fun _ => q))
    | .ok (some n, q) =>
      let st1 := (st.modQueue t (fun _ => q)).modState t
        (fun s => { s with ready := s.ready - 1, processing := s.processing + 1 })
      if Sched.precheck (chk k n) then do
        let st2 := (st1.modState t (fun s => { s with skipped := s.skipped + 1 })).modQueue t
          (fun q => { q with processing := insert (g.key n) q.processing })
        match ← releaseBlock g (fun _ _ => n) st2 n .success with
        | .error e => return .error e
        | .ok st3 => acquireLoop g t fuel chk (k + 1) st3 (skips ++ [n])
      else
        return .ok (skips, some n, (st1.modState t (fun s => { s with started := true })).modQueue t
          (fun q => { q with processing := insert (g.key n) q.processing }))

/-- `acquire_block` with enough fuel for its `while True` loop. -/
def acquireBlock (g : DGraph N T K) (chk : Nat → N → Check) (st : Sched N T K) (t : T) :
    Asked (Except PyErr (List N × Option N × Sched N T K)) :=
  acquireLoop g t (g.nodes.length + 1) chk 0 st []

end Counted
end Verif
