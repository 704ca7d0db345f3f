import Verif.Model.WorkerPool

/-! # `set_num_workers` for arbitrary integers -/

namespace Verif.Pool

/-- `set_num_workers`, `worker_pool.py` 43-70, for an arbitrary integer: nothing checks `Task.num_workers` (`task.py` 157).
`range(diff)` is empty unless `diff` is positive. -/
def setNumInt (p : Pool) (next : Nat) (n : Int) : Pool × Nat :=
  let diff := n - (p.workers.length : Int)
  if 0 < diff then p.start next diff.toNat
  else if diff < 0 then ((p.stopN (-diff).toNat).1, next)
  else (p, next)

end Verif.Pool
