import Verif.Spec.ServerSpec

/-! # Fair executions of the server

An execution that goes on forever is a sequence of states; after the loop has ended nothing changes. -/

namespace Verif.Spec

variable {N T K S : Type} [DecidableEq N] [DecidableEq T] [DecidableEq K] [DecidableEq S]

/-- A message with which client `s` gives block `n` back. -/
def GivesBack (k : Server.Tick N T S) (n : N) (s : S) : Prop :=
  (∃ status, k.recv = .msg (.release n status) s) ∨ ∃ w, k.recv = .msg (.blockFailed n w) s

/-- An execution of the event loop from the beginning, without end unless the loop stops. -/
structure Forever (g : DGraph N T K) (cfg : SConf T) (σ : Nat → Server N T K S) (k : Nat → Server.Tick N T S) :
    Prop where
  init : σ 0 = Server.init g
  good : ∀ i, GoodTick g cfg (k i)
  stopped : ∀ i, (σ i).stop = true → σ (i + 1) = σ i
  step : ∀ i, (σ i).stop = false → (σ i).iteration g cfg (k i) = .ok (σ (i + 1))

/-- What the outside world has to do so that the server can be expected to finish, unless it has stopped:
whoever has a block gives it back some day or is disconnected; a task that has workers and is not
finished is asked for some day or has a request waiting; and again and again there is a moment without
messages, and a second passes. -/
structure Fair (g : DGraph N T K) (σ : Nat → Server N T K S) (k : Nat → Server.Tick N T S) : Prop where
  returned : ∀ i n s, holder (σ i).out n = some s →
    ∃ j, i ≤ j ∧ ((σ j).stop = true ∨ GivesBack (k j) n s ∨ (k j).closed s = true)
  asked : ∀ i t, Recruited (σ i) t → ∃ j, i ≤ j ∧ ((σ j).stop = true ∨ TaskFinished g (evs (σ j).out) t ∨
    (∃ s, (k j).recv = .msg (.acquire t) s) ∨ (σ j).pending t ≠ [])
  idle : ∀ i, ∃ j, i ≤ j ∧ ((σ j).stop = true ∨ (k j).recv = .nothing)
  late : ∀ i, ∃ j, i ≤ j ∧ ((σ j).stop = true ∨ (k j).late = true)

end Verif.Spec
