import Verif.Py.Basic

/-!
# Model of `daisy/context.py` and of how the context gets from the server to a client

Strings are lists of characters.  The values of a context are represented by their `str(v)`, which is
all `to_env` uses. -/

namespace Verif

abbrev PyStr := List Char

/-- `s.split(c)` for a separator of one character. -/
def pySplit (c : Char) : PyStr → List PyStr
  | [] => [[]]
  | x :: xs =>
    if x = c then [] :: pySplit c xs
    else match pySplit c xs with
      | [] => [[x]]
      | w :: ws => (x :: w) :: ws

/-- `c.join(words)`. -/
def pyJoin (c : Char) : List PyStr → PyStr
  | [] => []
  | [w] => w
  | w :: ws => w ++ c :: pyJoin c ws

/-- A decimal digit. -/
def digitChar (n : Nat) : Char := Char.ofNat (48 + n)

/-- `str(n)` of a non-negative integer. -/
def pyStrNat (n : Nat) : PyStr :=
  if n < 10 then [digitChar n] else pyStrNat (n / 10) ++ [digitChar (n % 10)]
decreasing_by omega

/-- `int(s)`.  Only non-empty sequences of decimal digits are accepted (Python also accepts signs,
white space and underscores, which do not occur). -/
def pyInt (s : PyStr) : Except PyErr Nat :=
  if s ≠ [] ∧ s.all (fun c => 48 ≤ c.toNat && c.toNat < 58) then
    .ok (s.foldl (fun a c => 10 * a + (c.toNat - 48)) 0)
  else .error .valueError

/-- The dict of a `Context`, in insertion order. -/
abbrev Ctx := List (PyStr × PyStr)

namespace Ctx

/-- `d[k] = v` on a dict: the position of an existing key is kept. -/
def put (c : Ctx) (k v : PyStr) : Ctx :=
  if c.any (fun e => e.1 = k) then c.map (fun e => if e.1 = k then (k, v) else e) else c ++ [(k, v)]

/-- `Context.__init__`, `context.py` 12-13 (keyword arguments differ from `logdir`). -/
def new (logdir : PyStr) (kwargs : List (PyStr × PyStr)) : Ctx := ("logdir".toList, logdir) :: kwargs

/-- `to_env`, `context.py` 18-19. -/
def toEnv (c : Ctx) : PyStr := pyJoin ':' (c.map (fun e => e.1 ++ '=' :: e.2))

/-- `__setitem__`, `context.py` 21-30. -/
def set (c : Ctx) (k v : PyStr) : Except PyErr Ctx :=
  if '=' ∈ k ∨ ':' ∈ k then .error .runtimeError
  else if '=' ∈ v ∨ ':' ∈ v then .error .runtimeError
  else .ok (c.put k v)

/-- `__getitem__`, `context.py` 32-33. -/
def get (c : Ctx) (k : PyStr) : Except PyErr PyStr :=
  match c.find? (fun e => e.1 = k) with
  | none => .error .keyError
  | some e => .ok e.2

/-- The loop of `from_env`, `context.py` 52-54. -/
def readTokens : List PyStr → Ctx → Except PyErr Ctx
  | [], c => .ok c
  | t :: ts, c =>
    match pySplit '=' t with
    | [k, v] =>
      match c.set k v with
      | .error e => .error e
      | .ok c' => readTokens ts c'
    | _ => .error .valueError

/-- `from_env`, `context.py` 41-56.  `logdir` is the log directory of the reading process. -/
def fromEnv (logdir : PyStr) (env : Option PyStr) : Except PyErr Ctx :=
  match env with
  | none => .error .keyError
  | some s => readTokens (pySplit ':' s) (new logdir [])

/-- The context `TaskWorkerPools.__init__` makes for a task, `task_worker_pools.py` 17-19. -/
def pool (logdir hostname : PyStr) (port : Nat) (taskId : PyStr) : Ctx :=
  new logdir [("hostname".toList, hostname), ("port".toList, pyStrNat port), ("task_id".toList, taskId)]

/-- The context of a worker, `worker.py` 42-47. -/
def worker (c : Ctx) (workerId : Nat) : Except PyErr Ctx := c.set "worker_id".toList (pyStrNat workerId)

end Ctx

/-- What `Client.__init__` takes from the context. -/
structure ClientConf where
  logdir : PyStr
  host : PyStr
  port : Nat
  workerId : Nat
  taskId : PyStr
  deriving DecidableEq

/-- `Client.__init__` without a context argument, `client.py` 54-64. -/
def ClientConf.read (logdir : PyStr) (env : Option PyStr) : Except PyErr ClientConf :=
  match Ctx.fromEnv logdir env with
  | .error e => .error e
  | .ok c =>
    match c.get "logdir".toList with
    | .error e => .error e
    | .ok dir =>
      match c.get "hostname".toList with
      | .error e => .error e
      | .ok host =>
        match c.get "port".toList with
        | .error e => .error e
        | .ok port =>
          match pyInt port with
          | .error e => .error e
          | .ok port =>
            match c.get "worker_id".toList with
            | .error e => .error e
            | .ok wid =>
              match pyInt wid with
              | .error e => .error e
              | .ok wid =>
                match c.get "task_id".toList with
                | .error e => .error e
                | .ok task => .ok ⟨dir, host, port, wid, task⟩

end Verif
