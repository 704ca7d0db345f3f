import Verif.Model.Scheduler

/-!
# Model of the function arguments of `Task`, `daisy/task.py`

`process_function` is modelled by its signature, as `inspect.getfullargspec` and a call see it; `check_function` by
what is passed for it and what its functions do when they are called. -/

namespace Verif

/-- A parameter of a function: its name, and whether it has a default value. -/
structure Param where
  name : String
  default : Bool
  deriving DecidableEq, Repr

/-- The signature of a function that is not a wrapper.  `bound` is the name of the first parameter if the
function is a bound method (it is `self` for usual methods, `cls` for class methods): `getfullargspec` reports it, a
call does not supply it.  Parameters that are positional-only are not distinguished; `**kwargs` does not matter. -/
structure Sig where
  bound : Option String
  params : List Param
  varargs : Bool
  kwonly : List Param
  deriving DecidableEq, Repr

/-- What is passed as `process_function`: a function; or the result of a decorator that hands all its arguments
on, `def wrapper(*args, **kwargs): return f(*args, **kwargs)`, with or without `functools.wraps`
(`getfullargspec` does not follow `__wrapped__`). -/
inductive Fn where
  | plain (s : Sig)
  | wrapped (f : Fn)

namespace Fn

/-- `getfullargspec(process_function).args`, `task.py` 171. -/
def args : Fn → List String
  | .plain s => s.bound.toList ++ s.params.map (·.name)
  | .wrapped _ => []

end Fn

/-- What `spawn_worker_function` is: the process function itself, or `_process_blocks`. -/
inductive FnKind where
  | spawn
  | block
  deriving DecidableEq, Repr

/-- `Task.__init__`, `task.py` 171-181. -/
def Fn.classify (f : Fn) : Except PyErr FnKind :=
  let args := if "self" ∈ f.args then f.args.erase "self" else f.args
  if args.length = 0 then .ok .spawn
  else if args.length = 1 then .ok .block
  else .error .valueError

/-- What can be passed as `check_function`, `task.py` 44-57: nothing, a function, or a tuple of two functions. -/
inductive CheckKind where
  | none
  | fn
  | pair
  deriving DecidableEq, Repr

/-- What `__precheck` gets from the check function, `scheduler.py` 190-200, if `pre` is what the function (the first
one of a tuple) does at its `k`-th call.  A tuple cannot be called: `check_function(block)` raises `TypeError`. -/
def CheckKind.call {N : Type} (c : CheckKind) (pre : Nat → N → Check) : Nat → N → Check :=
  match c with
  | .none => fun _ _ => .reject
  | .fn => pre
  | .pair => fun _ _ => .raises

end Verif
