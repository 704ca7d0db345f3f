import Verif.Model.Server
import Verif.Spec.History

/-! # Histories of the server

The notions below speak only about the log of what the server did. -/

namespace Verif

variable {N T K S : Type} [DecidableEq N] [DecidableEq T] [DecidableEq K] [DecidableEq S]

namespace Spec

/-- The event of the scheduler's history that an action of the server amounts to. -/
def toEv : Out N T S → Option (Ev N)
  | .skip n => some (.skip n)
  | .send _ n => some (.hand n)
  | .release n .success => some (.good n)
  | .release n .failed => some (.bad n)
  | _ => none

/-- The scheduler's history. -/
def evs (out : List (Out N T S)) : List (Ev N) := out.filterMap toEv

/-- How an action changes who has block `n`. -/
def holderStep (n : N) (h : Option S) : Out N T S → Option S
  | .send s m => if m = n then some s else h
  | .release m _ => if m = n then none else h
  | _ => h

/-- The client that has block `n`: the one it was sent to last, if it has not been released since. -/
def holder (out : List (Out N T S)) (n : N) : Option S := out.foldl (holderStep n) none

/-- Messages that a correct client sends: it asks for blocks of a task of this run, and releases blocks
of this run as SUCCESS or FAILED.  Nothing is assumed about the order of messages or about which
client sends which. -/
def GoodMsg (g : DGraph N T K) (cfg : SConf T) : Msg N T → Prop
  | .acquire t => t ∈ cfg.served
  | .release n status => n ∈ g.nodes ∧ (status = .success ∨ status = .failed)
  | .blockFailed n _ => n ∈ g.nodes
  | .clientException => False
  | .other => False

/-- The messages of an iteration are those of correct clients, and `set.pop` takes elements of sets. -/
def GoodTick (g : DGraph N T K) (cfg : SConf T) (k : Server.Tick N T S) : Prop :=
  (∀ m s, k.recv = .msg m s → GoodMsg g cfg m) ∧ LegalPick k.pick ∧ ∀ n, LegalPick (k.pickLost n)

end Spec

open Spec

/-- All executions of the event loop: in each iteration anything may happen outside (`Tick`). -/
inductive SRun (g : DGraph N T K) (cfg : SConf T) : List (Server.Tick N T S) → Server N T K S → Prop where
  | init : SRun g cfg [] (Server.init g)
  | step {ks : List (Server.Tick N T S)} {σ σ' : Server N T K S} (k : Server.Tick N T S) :
      SRun g cfg ks σ → σ.stop = false → GoodTick g cfg k → σ.iteration g cfg k = .ok σ' →
      SRun g cfg (ks ++ [k]) σ'

/-- A piece of an execution of the event loop, from `σ` to `σ'`. -/
inductive SSteps (g : DGraph N T K) (cfg : SConf T) (σ : Server N T K S) :
    List (Server.Tick N T S) → Server N T K S → Prop where
  | nil : SSteps g cfg σ [] σ
  | step {ks : List (Server.Tick N T S)} {σ₁ σ₂ : Server N T K S} (k : Server.Tick N T S) :
      SSteps g cfg σ ks σ₁ → σ₁.stop = false → GoodTick g cfg k → σ₁.iteration g cfg k = .ok σ₂ →
      SSteps g cfg σ (ks ++ [k]) σ₂

theorem SRun.steps {g : DGraph N T K} {cfg : SConf T} {ks ks' : List (Server.Tick N T S)}
    {σ σ' : Server N T K S} (h : SRun g cfg ks σ) (h' : SSteps g cfg σ ks' σ') :
    SRun g cfg (ks ++ ks') σ' := by
  induction h' with
  | nil => simpa using h
  | step k _ hs hk he ih => rw [← List.append_assoc]; exact SRun.step k ih hs hk he

namespace Spec

/-- The number of requests for blocks of task `t` that client `s` has sent. -/
def requests (t : T) (s : S) : List (Server.Tick N T S) → Nat
  | [] => 0
  | k :: ks => (match k.recv with
    | .msg (.acquire t') s' => if t' = t ∧ s' = s then 1 else 0
    | _ => 0) + requests t s ks

/-- The number of answers that client `s` got to its requests for blocks of task `t`: blocks sent and
requests to shut down. -/
def answers (g : DGraph N T K) (t : T) (s : S) : List (Out N T S) → Nat
  | [] => 0
  | o :: os => (match o with
    | .send s' n => if g.task n = t ∧ s' = s then 1 else 0
    | .shutdown s' t' => if t' = t ∧ s' = s then 1 else 0
    | _ => 0) + answers g t s os

/-- Every block of the task has completed, has failed permanently, or is downstream of a permanently
failed block. -/
def TaskFinished (g : DGraph N T K) (tr : List (Ev N)) (t : T) : Prop :=
  ∀ n ∈ g.nodes, g.task n = t → Done tr n ∨ Dead g tr n ∨ Orphan g tr n

/-- Workers have been recruited for the task. -/
def Recruited (σ : Server N T K S) (t : T) : Prop := ∃ ts, .recruit ts ∈ σ.out ∧ t ∈ ts

/-- The tasks can be ranked such that blocks depend only on blocks of their own task or of tasks of
lower rank. -/
def TaskOrder (g : DGraph N T K) (trank : T → Nat) : Prop :=
  ∀ n ∈ g.nodes, ∀ u ∈ g.up n, g.task u = g.task n ∨ trank (g.task u) < trank (g.task n)

end Spec

end Verif
