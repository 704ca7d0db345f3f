import Verif.Tests.Scheduler
import Verif.Spec.SerialExec
import Verif.Spec.ClusterExec

/-! # `test_server.py`, `test_client.py`, `test_dead_workers.py`, `test_worker_spawning.py` and `test_tcp.py`, run on
the model, with one schedule each -/

namespace Verif.Tests

open Verif Spec Verif.Ex

/-- The task of `test_server.py`. -/
def serverTask : Task 1 := .node 0 ⟨roi1 0 100, roi1 0 10, roi1 1 8, true, .valid, 2⟩ []

/-- `test_server.py`, `test_basic` with `SerialServer` -/
example : (serExec (build [serverTask]).view [0]
    (List.replicate 12 (serTick (popFirst (build [serverTask]).view b1)))).map
    (fun σ => (σ.ended, (σ.sched.states 0).isDone, (σ.sched.states 0).completed)) = some (true, true, 12) := by
  decide +kernel

/-- One iteration of the event loop, in which nothing else happens. -/
def turn (p : Pipeline 1) : ClEv (Block 1) Nat Nat :=
  .sys (.loop ⟨fun _ _ => .reject, popFirst p.view b1, 0, fun _ => 0, fun _ => popFirst p.view b1, false, [], []⟩)

/-- The process function returns. -/
def returns : BodyEnd := ⟨.enum .processing, none⟩

/-- Client `s` asks for a block. -/
def asks (p : Pipeline 1) (s : Nat) : List (ClEv (Block 1) Nat Nat) :=
  [.client s returns, .up s, turn p, .down s, .client s returns]

/-- Client `s` asks for a block, processes it and gives it back. -/
def works (p : Pipeline 1) (s : Nat) : List (ClEv (Block 1) Nat Nat) :=
  asks p s ++ [.client s returns, .up s, turn p]

/-- The result of an execution: whether the server has stopped, whether the task is done, the number of completed
blocks, and the number of workers that were started. -/
def outcome (p : Pipeline 1) (workers : Nat) (es : List (ClEv (Block 1) Nat Nat)) : Option (Bool × Bool × Int × Nat) :=
  (clExec p.view ⟨⟨[0], fun _ => none⟩, fun _ => workers, 3⟩ es).map (fun x =>
    (x.sys.srv.stop, (x.sys.srv.sched.states 0).isDone, (x.sys.srv.sched.states 0).completed, x.sys.pools.next))

/-- `test_server.py`, `test_basic` with `Server` -/
example : outcome (build [serverTask]) 1
    (.connect 7 0 0 :: (List.replicate 12 (works (build [serverTask]) 7)).flatten) = some (true, true, 12, 1) := by
  decide +kernel

/-- The task of `test_dead_workers.py`. -/
def deadTask : Task 1 := .node 0 ⟨roi1 0 10, roi1 0 10, roi1 0 10, false, .valid, 2⟩ []

/-- `test_dead_worker_replacement`: the first worker exits with code 1 before it connects; the second one does the
work. -/
example : outcome (build [deadTask]) 1
    ([.sys (.proc (.exit 0 0 1)), turn (build [deadTask]), .connect 7 0 1] ++ works (build [deadTask]) 7) =
    some (true, true, 1, 2) := by decide +kernel

/-- `test_reap_distinguishes_normal_from_crash` -/
example : (Pool.mk [⟨0, some (.exited 0)⟩, ⟨1, some (.exited 1)⟩] []).reap = (⟨[⟨0, none⟩], []⟩, 1) := by decide

/-- The task of `test_worker_spawning.py`. -/
def spawnTask : Task 1 := .node 0 ⟨roi1 0 40, roi1 0 10, roi1 0 10, false, .valid, 2⟩ []

/-- `test_normal_exit_no_respawn`: the first of two workers processes one block and exits with code 0; the second one
does the rest, and no third worker is started. -/
example : outcome (build [spawnTask]) 2
    ([.connect 7 0 0, .connect 8 0 1] ++ works (build [spawnTask]) 7 ++
      [.kill 7, .sys (.close 7), .sys (.proc (.exit 0 0 0)), turn (build [spawnTask])] ++ works (build [spawnTask]) 8 ++
      works (build [spawnTask]) 8 ++ [turn (build [spawnTask])] ++ works (build [spawnTask]) 8) =
    some (true, true, 4, 2) := by decide +kernel

/-- `test_client.py`: a client that is connected asks for a block, gets block 5, and leaves the `with` statement after
the status was set to SUCCESS: it has sent `AcquireBlock` and `ReleaseBlock`. -/
example : (match Client.enter 1 (⟨[], true, true, [], []⟩ : TcpClient Nat Nat) [[], [.arrives (.sendBlock 5)]] with
    | .block b c => some (b, c.outbox, Client.leave c b ⟨.enum .success, none⟩ [] [])
    | _ => none) = some (5, [.acquire 1],
      (none, ⟨[], true, true, [], [.acquire 1, .release 5 (.enum .success)]⟩)) := by decide +kernel

/-- `test_tcp.py`: the client sends a message, gets a reply, gets nothing more and disconnects; then it can neither send
nor receive. -/
example : ∃ c1 c2 c3 c4 : TcpClient Nat Nat,
    (⟨[], true, true, [], []⟩ : TcpClient Nat Nat).send (.acquire 1) = .ok c1 ∧ c1.outbox = [.acquire 1] ∧
    (c1.net (.arrives (.sendBlock 5))).getMessage = .ok (some (.sendBlock 5), c2) ∧
    c2.getMessage = .ok (none, c3) ∧ c3.disconnect [[.ack]] = some (.ok c4) ∧
    c4.send (.acquire 1) = .error (.notConnected, c4) ∧ c4.getMessage = .error (.notConnected, c4) :=
  ⟨_, _, _, _, rfl, rfl, rfl, rfl, rfl, rfl, rfl⟩

end Verif.Tests
