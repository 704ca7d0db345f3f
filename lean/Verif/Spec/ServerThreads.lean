import Verif.Model.ServerThreads
import Verif.Spec.Strangers

/-! # Executions of the server with the IO loop between its statements -/

namespace Verif.Spec

open FineSrv

variable {N T K S : Type} [DecidableEq N] [DecidableEq T] [DecidableEq K] [DecidableEq S]

/-- A closed stream. -/
def Shut (l : Link) : Prop := l.inner = false ∨ l.dead = true

/-- All that the IO loop does while one block is looked at. -/
def Look.all (l : Look N T S) : List (SrvIo N T S) := l.a ++ l.b ++ l.c

/-- What the IO loop does in an iteration before block `i` of the list of sent blocks is looked at. -/
def ioBefore (k : FineTick N T S) (i : Nat) : List (SrvIo N T S) :=
  k.io0 ++ k.io1 ++ (List.range i).flatMap (fun j => Look.all (k.look j))

/-- The IO loop does this step in this iteration. -/
def Does (k : FineTick N T S) (e : SrvIo N T S) : Prop := e ∈ k.io0 ∨ e ∈ k.io1 ∨ ∃ i, e ∈ Look.all (k.look i)

/-- Any messages may come; blocks in them are genuine (see `Genuine`), `set.pop` takes elements of sets. -/
def FineLegal (g : DGraph N T K) (k : FineTick N T S) : Prop :=
  (∀ m s, Does k (.arrive m s) → Genuine g m) ∧ LegalPick k.pick ∧ ∀ n, LegalPick (k.pickLost n)

/-- All executions of the event loop, as long as nothing is raised. -/
inductive FineRun (g : DGraph N T K) (cfg : SConf T) : List (FineTick N T S) → FineSrv N T K S → Prop where
  | init : FineRun g cfg [] (FineSrv.init g)
  | step {ks : List (FineTick N T S)} {x x' : FineSrv N T K S} (k : FineTick N T S) :
      FineRun g cfg ks x → x.srv.stop = false → FineLegal g k → x.iteration g cfg k = .ok x' →
      FineRun g cfg (ks ++ [k]) x'

/-- What the event loop gets: an exception if there was one when it looked, otherwise the first message, if there was one
when it looked for messages. -/
def Gets (x : FineSrv N T K S) (k : FineTick N T S) : Server.Recv N T S → Prop
  | .closed => ∃ r, (x.ioRun k.io0).excs = .closed :: r
  | .msg m s => (x.ioRun k.io0).excs = [] ∧ (x.ioRun (k.io0 ++ k.io1)).queue.head? = some (m, s)
  | .nothing => (x.ioRun k.io0).excs = [] ∧ (x.ioRun (k.io0 ++ k.io1)).queue = []

/-- While the event loop looks whether the stream of block `i` in `book` is closed, `TCPStream.stream` becomes `None`
after it was found not to be. -/
def Caught (x : FineSrv N T K S) (k : FineTick N T S) (book : Book N K S) : Prop :=
  ∃ i key log, book[i]? = some (key, log) ∧
    ((x.ioRun (ioBefore k i ++ (k.look i).a)).links log.stream).inner = true ∧
    ((x.ioRun (ioBefore k i ++ (k.look i).a ++ (k.look i).b)).links log.stream).inner = false

/-- The stream that a step of the IO loop is about. -/
def streamOf : SrvIo N T S → S
  | .arrive _ s => s
  | .dies s => s
  | .lost s => s
  | .half s => s
  | .bad s _ => s
  | .bye s => s
  | .writeFails s => s
  | .put s => s

/-- `get_message` without interruption. -/
def getNow (x : FineSrv N T K S) : Except PyErr (Server.Recv N T S × FineSrv N T K S) :=
  match x.excs, x.queue with
  | .other e :: _, _ => .error e
  | .closed :: r, _ => .ok (.closed, { x with excs := r })
  | [], [] => .ok (.nothing, x)
  | [], (m, s) :: q => .ok (.msg m s, { x with queue := q })

/-- The same steps, in an order that is the same for every stream. -/
def SameSteps (es es' : List (SrvIo N T S)) : Prop :=
  ∀ s, es.filter (fun e => decide (streamOf e = s)) = es'.filter (fun e => decide (streamOf e = s))

/-- No client has two blocks. -/
def OneEach (out : List (Out N T S)) : Prop := ∀ n n' s, holder out n = some s → holder out n' = some s → n = n'

end Verif.Spec
