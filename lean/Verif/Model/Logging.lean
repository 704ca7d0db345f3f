import Verif.Model.Context

/-!
# Model of `daisy/logging.py`

Only the names of the log files; files and file descriptors are not modelled.  Paths are those of `pathlib` on
POSIX (a path starting with exactly two slashes is taken as an absolute path like any other). -/

namespace Verif

/-- A `pathlib.Path`: whether it is absolute, and its parts. -/
structure PyPath where
  abs : Bool
  parts : List PyStr
  deriving DecidableEq, Repr

namespace PyPath

/-- `Path(s)`: empty parts and parts `.` are dropped, parts `..` are kept. -/
def ofStr (s : PyStr) : PyPath :=
  ⟨s.head? == some '/', (pySplit '/' s).filter (fun w => w ≠ [] ∧ w ≠ ['.'])⟩

/-- `p / q`. -/
def div (p q : PyPath) : PyPath := if q.abs then q else ⟨p.abs, p.parts ++ q.parts⟩

/-- `str(p)`. -/
def toStr (p : PyPath) : PyStr :=
  if p.abs then '/' :: pyJoin '/' p.parts
  else if p.parts = [] then ['.'] else pyJoin '/' p.parts

/-- `name` without its suffix: what is before the last dot, unless that dot is the first or the last character. -/
def stem (name : PyStr) : PyStr :=
  let i := name.length - 1 - name.reverse.idxOf '.'
  if '.' ∈ name ∧ 0 < i ∧ i < name.length - 1 then name.take i else name

/-- `p.with_suffix(suffix)` for a suffix that is a dot and further characters. -/
def withSuffix (p : PyPath) (suffix : PyStr) : Except PyErr PyPath :=
  match p.parts.getLast? with
  | none => .error .valueError
  | some name => .ok ⟨p.abs, p.parts.dropLast ++ [stem name ++ suffix]⟩

end PyPath

namespace Logging

/-- `get_worker_log_basename`, `logging.py` 32-42; `base` is `LOG_BASEDIR`.  `f"worker_{worker_id}"` uses
`str(worker_id)`. -/
def basename (base : Option PyPath) (workerId : PyStr) (taskId : Option PyStr) : Option PyPath :=
  match base with
  | none => none
  | some b =>
    let b := match taskId with
      | some t => b.div (.ofStr t)
      | none => b
    some (b.div (.ofStr ("worker_".toList ++ workerId)))

/-- The files `redirect_stdouterr` opens, `logging.py` 45-62: none, or those for `stdout` and `stderr`. -/
def redirect (base : Option PyPath) : Except PyErr (Option (PyPath × PyPath)) :=
  match base with
  | none => .ok none
  | some b =>
    match b.withSuffix ".out".toList with
    | .error e => .error e
    | .ok o =>
      match b.withSuffix ".err".toList with
      | .error e => .error e
      | .ok e => .ok (some (o, e))

/-- The files a worker writes to, `worker.py` 92-98.  `logdir` is the value of the context (set by
`Context.__init__`), `current` the `LOG_BASEDIR` of the process, used if the context has no such key. -/
def workerFiles (logdir : Option (Option PyPath)) (current : Option PyPath) (workerId : Nat) (taskId : Option PyStr) :
    Except PyErr (Option (PyPath × PyPath)) :=
  let base := match logdir with
    | some d => d
    | none => current
  redirect (basename base (pyStrNat workerId) taskId)

/-- What the monitor prints for a failed block, `cl_monitor.py` 148-151, as the two names meant:
`f"{log_basename}.err / .out"`. -/
def announced (base : Option PyPath) (workerId : PyStr) (taskId : PyStr) : PyStr × PyStr :=
  match basename base workerId (some taskId) with
  | none => ("None.err".toList, "None.out".toList)
  | some p => (p.toStr ++ ".err".toList, p.toStr ++ ".out".toList)

end Logging
end Verif
