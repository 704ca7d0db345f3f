import Verif.Model.Queries

/-!
# `count_all_orphans`

`Scheduler.__init__` stores its argument `count_all_orphans` (`scheduler.py` 38 and 59) and hands it to `mark_failure`
(144-146), which has an argument of that name (`ready_surface.py` 79). -/

namespace Verif.Counted

variable {N T K : Type} [DecidableEq N] [DecidableEq T] [DecidableEq K]

/-- `mark_failure(node, count_all_orphans)`, `ready_surface.py` 79-134: nothing in its body looks at the second argument. -/
def markFailureFlag (g : DGraph N T K) (_countAll : Bool) (pick : Nat → Finset N → N) (rs : RS N) (n : N) :
    Asked (Except PyErr (Finset N × RS N)) :=
  markFailure g pick rs n

/-- `release_block`, `scheduler.py` 110-160, of a scheduler with `count_all_orphans=countAll`. -/
def releaseBlockFlag (g : DGraph N T K) (countAll : Bool) (pick : Nat → Finset N → N) (st : Sched N T K) (n : N)
    (status : BlockStatus) : Asked (Except PyErr (Sched N T K)) := do
  match st.removeFromProcessing g n with
  | .error e => return .error e
  | .ok st1 =>
    match status with
    | .success =>
      match ← markSuccess g st1.rs n with
      | .error e => return .error e
      | .ok (newBlocks, rs') =>
        return .ok ((({ st1 with rs := rs' }).modState (g.task n)
          (fun s => { s with completed := s.completed + 1 })).updateReadyQueue g newBlocks)
    | .failed =>
      if g.maxRetries (g.task n) ≤ (st1.queues (g.task n)).retries (g.key n) then
        match ← markFailureFlag g countAll pick st1.rs n with
        | .error e => return .error e
        | .ok (orphans, rs') =>
          return .ok ((({ st1 with rs := rs' }).modState (g.task n)
            (fun s => { s with failed := s.failed + 1 })).countOrphans g orphans)
      else
        return .ok ((st1.queueReadyBlock g n).modQueue (g.task n)
          (fun q => { q with retries := upd q.retries (g.key n) (q.retries (g.key n) + 1) }))
    | _ => return .error .runtimeError

end Verif.Counted
