import Verif.Model.Logging
import Verif.Model.Client

/-!
# Model of `redirect_stdouterr`, `daisy/logging.py` 45-74, with file descriptors, and of `_spawn_wrapper`

A process has a table of file descriptors, which refer to open file descriptions.  `open` uses the lowest free
descriptor (POSIX).  Not modelled: the limit on the number of descriptors, the buffers of file objects (what is printed
is written at once), threads that open files between `os.close` and `os.dup2` (a worker process has one thread when it
redirects its output), and the state that a call leaves behind when it raises. -/

namespace Verif

/-- An open file description: one opening of a file.  `file` is `none` for what was there before: a terminal, a pipe. -/
structure Desc where
  id : Nat
  file : Option PyPath
  deriving DecidableEq, Repr

/-- The output of a process.  `out0` and `err0` are the descriptors of `sys.__stdout__` and `sys.__stderr__`; Python sets
these to `None` if it is started without.  `out` and `err` are the descriptors of `sys.stdout` and `sys.stderr` if these
are file objects that nothing else refers to; such an object is closed when the name is assigned anew. -/
structure Io where
  table : List (Option Desc)
  /-- the number of the next description -/
  next : Nat
  out0 : Option Nat
  err0 : Option Nat
  out : Option Nat
  err : Option Nat
  deriving DecidableEq, Repr

namespace Io

/-- What a descriptor refers to. -/
def look (l : List (Option Desc)) (fd : Nat) : Option Desc :=
  match l[fd]? with
  | some x => x
  | none => none

/-- The table with one entry changed. -/
def put (l : List (Option Desc)) (fd : Nat) (x : Option Desc) : List (Option Desc) :=
  if fd < l.length then l.set fd x else l ++ List.replicate (fd - l.length) none ++ [x]

/-- The lowest free descriptor. -/
def lowest (l : List (Option Desc)) : Nat := l.findIdx (fun x => x.isNone)

/-- `open(filename, mode)`, as far as descriptors are concerned. -/
def openFile (canOpen : PyPath → Bool) (filename : PyPath) (io : Io) : Except PyErr (Nat × Io) :=
  if canOpen filename then
    let fd := lowest io.table
    .ok (fd, { io with table := put io.table fd (some ⟨io.next, some filename⟩), next := io.next + 1 })
  else .error .osError

/-- `os.close(fd)`. -/
def close (fd : Nat) (io : Io) : Except PyErr Io :=
  if (look io.table fd).isSome then .ok { io with table := put io.table fd none } else .error .osError

/-- `os.dup2(fd, fd2)`. -/
def dup2 (fd fd2 : Nat) (io : Io) : Except PyErr Io :=
  match look io.table fd with
  | some d => .ok { io with table := put io.table fd2 (some d) }
  | none => .error .osError

/-- `_file_reopen`, `logging.py` 67-74.  `fileObj` is the descriptor of `file_obj`, or `None`, which has no `fileno`. -/
def fileReopen (canOpen : PyPath → Bool) (filename : PyPath) (fileObj : Option Nat) (io : Io) : Except PyErr (Nat × Io) :=
  match openFile canOpen filename io with
  | .error e => .error e
  | .ok (newfd, io1) =>
    match fileObj with
    | none => .error .attributeError
    | some targetfd =>
      match close targetfd io1 with
      | .error e => .error e
      | .ok io2 =>
        match dup2 newfd targetfd io2 with
        | .error e => .error e
        | .ok io3 => .ok (newfd, io3)

/-- A file object to which nothing refers any more is closed; errors are ignored. -/
def drop (fd : Option Nat) (io : Io) : Io :=
  match fd with
  | none => io
  | some fd => { io with table := put io.table fd none }

/-- `sys.stdout = new`, where `fd` is the descriptor of `new`. -/
def setOut (fd : Nat) (io : Io) : Io := { drop io.out io with out := some fd }

/-- `sys.stderr = new`. -/
def setErr (fd : Nat) (io : Io) : Io := { drop io.err io with err := some fd }

/-- `redirect_stdouterr`, `logging.py` 45-64.  `mkdir` says whether the directory exists or can be created. -/
def redirect (mkdir : PyPath → Bool) (canOpen : PyPath → Bool) (base : Option PyPath) (io : Io) : Except PyErr Io :=
  match base with
  | none => .ok io
  | some b =>
    if !mkdir b then .error .osError
    else
      match b.withSuffix ".out".toList with
      | .error e => .error e
      | .ok fo =>
        match fileReopen canOpen fo io.out0 io with
        | .error e => .error e
        | .ok (fd, io1) =>
          let io2 := setOut fd io1
          match b.withSuffix ".err".toList with
          | .error e => .error e
          | .ok fe =>
            match fileReopen canOpen fe io2.err0 io2 with
            | .error e => .error e
            | .ok (fd', io3) => .ok (setErr fd' io3)

end Io

/-- Something is printed: on `stderr` or `stdout`, by Python code through `sys.stdout` / `sys.stderr` or by other code
(a library, a child process) through the standard descriptors 1 and 2. -/
structure Print where
  err : Bool
  py : Bool
  text : PyStr
  deriving DecidableEq, Repr

namespace Io

/-- The descriptor used. -/
def fdOf (io : Io) (p : Print) : Option Nat :=
  if p.py then
    if p.err then (match io.err with | some fd => some fd | none => io.err0)
    else (match io.out with | some fd => some fd | none => io.out0)
  else if p.err then some 2 else some 1

/-- The description it arrives at; `none` if it is lost. -/
def descOf (io : Io) (p : Print) : Option Desc :=
  match io.fdOf p with
  | none => none
  | some fd => look io.table fd

/-- What has been written to a description.  (All descriptors of one description share its position, so that nothing is
overwritten.) -/
def written (io : Io) (ps : List Print) (d : Desc) : List PyStr :=
  (ps.filter (fun p => io.descOf p = some d)).map (·.text)

end Io

/-- The name of an exception that can come up before a spawn function is called. -/
def PyErr.toClient : PyErr → ClientErr
  | .osError => .exception "OSError"
  | .attributeError => .exception "AttributeError"
  | .valueError => .exception "ValueError"
  | _ => .exception "Exception"

/-- `Worker._spawn_wrapper`, `worker.py` 86-113, with the redirection of the output: whether the spawn function is
called, with which output, and how the process ends.  `raised` is what the spawn function does.  (Setting the environment
variable does not raise: the context consists of strings.) -/
def spawnProcess (mkdir : PyPath → Bool) (canOpen : PyPath → Bool) (base : Option PyPath) (io : Io) (exitArg : Int)
    (raised : Option ClientErr) : Option Io × WorkerEnd :=
  match Io.redirect mkdir canOpen base io with
  | .error e => (none, spawnWrapper exitArg (some e.toClient))
  | .ok io' => (some io', spawnWrapper exitArg raised)

end Verif
