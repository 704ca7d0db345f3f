import Verif.Spec.ClusterSpec
import Verif.Spec.Again

/-! # Fair executions of the server with its workers -/

namespace Verif.Spec

open Verif

variable {N T K S : Type} [DecidableEq N] [DecidableEq T] [DecidableEq K] [DecidableEq S]

/-- An execution without end, unless the server stops. -/
structure ClForever (g : DGraph N T K) (c : SysConf T) (x : Nat → Cluster N T K S) (e : Nat → ClEv N T S) : Prop where
  init : Cluster.init g c = .ok (x 0)
  stopped : ∀ i, (x i).sys.srv.stop = true → x (i + 1) = x i
  legal : ∀ i, (x i).sys.srv.stop = false → LegalCl c (x i) (e i)
  step : ∀ i, (x i).sys.srv.stop = false → (x i).step g c (e i) = .ok (x (i + 1))

/-- The event is a failure of client `s`: its process is terminated or interrupted, its connection breaks or is
closed. -/
def Fault (x : Cluster N T K S) (s : S) : ClEv N T S → Prop
  | .kill s' => s' = s
  | .breaks s' _ => s' = s
  | .client s' body => s' = s ∧ (∃ n, WorksOn x s n) ∧ ∃ e, body.raised = some e ∧ e.isException = false
  | .sys (.close s') => s' = s
  | .sys (.loop k) => s ∈ k.closing
  | _ => False

/-- Client `s` never fails. -/
def Reliable (x : Nat → Cluster N T K S) (e : Nat → ClEv N T S) (s : S) : Prop :=
  ∀ i, (x i).sys.srv.stop = false → ¬ Fault (x i) s (e i)

/-- A new client of task `t` that never fails connects. -/
def Joins (x : Nat → Cluster N T K S) (e : Nat → ClEv N T S) (t : T) (i : Nat) : Prop :=
  ∃ s w, e i = .connect s t w ∧ Reliable x e s

/-- What processes, network and operating system have to do so that the server can be expected to finish, unless it
has stopped. -/
structure ClLive (g : DGraph N T K) (x : Nat → Cluster N T K S) (e : Nat → ClEv N T S) : Prop where
  /-- a process goes on some day; in particular the process function ends -/
  runs : ∀ i s k, (x i).conn s = some k → ¬ Phase.Over k.phase → ∃ j, i ≤ j ∧ ((x j).sys.srv.stop = true ∨
    s ∈ (x j).sys.closed ∨ (∃ body, e j = .client s body) ∨ e j = .kill s)
  /-- what a client sends arrives some day, unless the connection is closed -/
  sent : ∀ i s k, (x i).conn s = some k → k.gone = false → k.tcp.outbox ≠ [] → ∃ j, i ≤ j ∧
    ((x j).sys.srv.stop = true ∨ s ∈ (x j).sys.closed ∨ e j = .up s)
  /-- what the server sends arrives some day, unless the connection is closed or the process has ended -/
  received : ∀ i s k, (x i).conn s = some k → k.down ≠ [] → ∃ j, i ≤ j ∧ ((x j).sys.srv.stop = true ∨
    s ∈ (x j).sys.closed ∨ (∃ k', (x j).conn s = some k' ∧ Phase.Over k'.phase) ∨ e j = .down s)
  /-- again and again there is a moment without messages, ... -/
  idle : ∀ i, ∃ j, i ≤ j ∧ ((x j).sys.srv.stop = true ∨ ∃ l, e j = .sys (.loop l) ∧ (x j).sys.recv.1 = .nothing)
  /-- ... and a second passes -/
  late : ∀ i, ∃ j, i ≤ j ∧ ((x j).sys.srv.stop = true ∨ ∃ l, e j = .sys (.loop l) ∧ l.late = true)
  /-- a task that has workers has a client that does not fail, unless it is finished -/
  staffed : ∀ i t, Recruited (x i).sys.srv t → ∃ j, (x j).sys.srv.stop = true ∨
    TaskFinished g (evs (x j).sys.srv.out) t ∨ Joins x e t j

/-- What has to happen in addition if clients can fail. -/
structure ClFair (g : DGraph N T K) (x : Nat → Cluster N T K S) (e : Nat → ClEv N T S) : Prop extends
    ClLive g x e where
  /-- the connection of a process that has ended is closed some day, unless the client has said goodbye -/
  noticed : ∀ i s k, (x i).conn s = some k → Phase.Over k.phase → ∃ j, i ≤ j ∧ ((x j).sys.srv.stop = true ∨
    s ∈ (x j).sys.closed ∨ ∃ k', (x j).conn s = some k' ∧ k'.gone = true)
  /-- if a block is taken back from a client that fails, another client of its task comes, unless the task is
  finished -/
  replaced : ∀ i n, TakenBack (fun j => (x j).sys.srv) i n →
    (∃ s, holder (x i).sys.srv.out n = some s ∧ Reliable x e s) ∨
    ∃ j, i < j ∧ ((x j).sys.srv.stop = true ∨ TaskFinished g (evs (x j).sys.srv.out) (g.task n) ∨ Joins x e (g.task n) j)

/-- No client ever fails. -/
def AllReliable (x : Nat → Cluster N T K S) (e : Nat → ClEv N T S) : Prop :=
  ∀ i s t w, (x i).sys.srv.stop = false → e i = .connect s t w → Reliable x e s

/-- The process functions do their work. -/
def WorksWell (x : Nat → Cluster N T K S) (e : Nat → ClEv N T S) : Prop :=
  ∀ i s n body, (x i).sys.srv.stop = false → e i = .client s body → WorksOn (x i) s n → EndsWell body

/-- What the event loop sees at event `e`; at events that are no iterations, an iteration in which nothing happens
(`pk` is not used then). -/
def tickAt (pk : Nat → Finset N → N) (x : Cluster N T K S) : ClEv N T S → Server.Tick N T S
  | .sys (.loop l) => if x.sys.srv.stop then quiet else x.sys.tickOf l
  | _ => quiet
where
  quiet : Server.Tick N T S := ⟨.closed, fun _ _ => .accept, pk, 0, fun _ => false, fun _ => 0, fun _ => pk, false⟩

end Verif.Spec
