import Verif.Spec.Fair

/-! # Clients that ask again -/

namespace Verif.Spec

variable {N T K S : Type} [DecidableEq N] [DecidableEq T] [DecidableEq K] [DecidableEq S]

/-- Block `n` is taken back (given back by its client, or lost with it) in iteration `i`. -/
def TakenBack (σ : Nat → Server N T K S) (i : Nat) (n : N) : Prop :=
  ∃ os status, (σ (i + 1)).out = (σ i).out ++ os ∧ .release n status ∈ os

/-- After a block was taken back, somebody asks for a block of its task unless the task is finished: the client
that gave the block back asks for the next one, and a client that vanished is replaced. -/
def AsksAgain (g : DGraph N T K) (σ : Nat → Server N T K S) (k : Nat → Server.Tick N T S) : Prop :=
  ∀ i n, TakenBack σ i n → ∃ j, i < j ∧ ((σ j).stop = true ∨ TaskFinished g (evs (σ j).out) (g.task n) ∨
    ∃ s, (k j).recv = .msg (.acquire (g.task n)) s)

/-- No block of the task waits for a block of another task. -/
def RootTask (g : DGraph N T K) (t : T) : Prop :=
  ∀ n ∈ g.nodes, g.task n = t → ∀ u ∈ g.up n, g.task u = t

end Verif.Spec
