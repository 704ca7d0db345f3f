import Verif.Model.TcpThreads

/-! # Spec for `Model/TcpThreads`: calls as if at once, sensible states, what an atomic schedule is -/

namespace Verif.Spec.Threads

open FineTcp

variable {B T : Type}

/-- A call, interleaved with the steps `evs` of the IO loop, looks as if it had been made at once, after some of them
and before the others (it may end before all of them have happened). -/
def AtOnce {α : Type} (s : FineTcp B T) (call : FineTcp B T → α × FineTcp B T) (evs : List (IoEv B))
    (result : α × FineTcp B T) : Prop :=
  ∃ a b, (a ++ b) <+: evs ∧ result = ((call (s.ioRun a)).1, (call (s.ioRun a)).2.ioRun b)

/-- What holds in all states that a connected client can get into: `self.stream` is `None` exactly if `_receive` has
returned, and it is closed before. -/
structure Sound (s : FineTcp B T) : Prop where
  outer : s.outer = false ↔ s.io = .over
  clearing : s.io = .clearing → s.inner = false
  over : s.io = .over → s.inner = false

/-- The connection is up and nothing has gone wrong. -/
structure Alive (s : FineTcp B T) : Prop where
  excs : s.excs = []
  outer : s.outer = true
  inner : s.inner = true
  io : s.io = .reading

/-- `_receive` has met no other exception than a lost connection, and nobody put an `AttributeError` into the queue. -/
structure OnlyLost (s : FineTcp B T) : Prop where
  raising : ∀ e, s.io = .raising e → e = .streamClosed ∧ s.inner = false
  excs : ∀ e ∈ s.excs, e ≠ attributeError

/-- The server can be understood. -/
def Understood (evs : List (IoEv B)) : Prop := ∀ ev ∈ evs, ∀ e, ev ≠ .bad e

/-- Only messages arrive. -/
def OnlyRecv (evs : List (IoEv B)) : Prop := ∀ ev ∈ evs, ∃ m, ev = .recv m

/-- The connection is lost and `_receive` runs to its end. -/
def Gone (evs : List (IoEv B)) : Prop := List.Sublist [.lost, .go, .go, .go] evs

/-- Nothing is wrong but that the server may vanish: proper messages arrive, and the connection may be lost. -/
def Calm (evs : List (IoEv B)) : Prop :=
  ∀ ev ∈ evs, ev = .lost ∨ ev = .go ∨ ∃ m, m ≠ .other ∧ ev = .recv m

/-- What the events of `Model/Client` are, step by step. -/
def expand : NetEv B → List (IoEv B)
  | .arrives m => [.recv m]
  | .ack => [.ack, .go, .go]
  | .fails e => [if e = .streamClosed then .lost else .bad e, .go, .go, .go]
  | .writeFails => [.writeFails]

/-- The same events, all before a call of `send_message`. -/
def sendAtOnce (evs : List (NetEv B)) : SendEnv B := ⟨evs.flatMap expand, [], [], []⟩

/-- The same events, all before a call of `get_message`. -/
def getAtOnce (evs : List (NetEv B)) : GetEnv B := ⟨evs.flatMap expand, [], []⟩

/-- Nothing happens during a call of `disconnect` before it waits. -/
def byeAtOnce : ByeEnv B := ⟨[], [], []⟩

/-- The same state of affairs; whether a stream that is gone could be written to does not matter. -/
structure Same (s : FineTcp B T) (c : TcpClient B T) : Prop where
  excs : s.excs = c.excs
  outer : s.outer = c.connected
  inner : c.connected = true → s.inner = c.writable
  inbox : s.inbox = c.inbox
  posted : s.posted = c.outbox
  io : s.io = if c.connected then .reading else .over

/-- The same way of getting to the `yield`. -/
def SameEntered : FineTcp.Entered B T → Verif.Entered B T → Prop
  | .raises e s, .raises e' c => e = e' ∧ Same s c
  | .waiting, .waiting => True
  | .none s, .none c => Same s c
  | .block b s, .block b' c => b = b' ∧ Same s c
  | _, _ => False

end Verif.Spec.Threads
