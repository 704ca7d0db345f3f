import Verif.Model.Resume
import Verif.Spec.ServerSpec

/-! # Series of runs with the same scheduler -/

namespace Verif

open Spec

variable {N T K S : Type} [DecidableEq N] [DecidableEq T] [DecidableEq K] [DecidableEq S]

/-- What can happen from `σ₀` on: the event loop goes on as in `SRun`, or the run is interrupted and the scheduler is given
to another run.  Clients of earlier runs may go on sending messages. -/
inductive SSeries (g : DGraph N T K) (cfg : SConf T) (σ₀ : Server N T K S) : Server N T K S → Prop where
  | nil : SSeries g cfg σ₀ σ₀
  | step {σ σ' : Server N T K S} (k : Server.Tick N T S) : SSeries g cfg σ₀ σ → σ.stop = false → GoodTick g cfg k →
      σ.iteration g cfg k = .ok σ' → SSeries g cfg σ₀ σ'
  | again {σ : Server N T K S} : SSeries g cfg σ₀ σ → SSeries g cfg σ₀ (σ.resume g)

theorem SSeries.steps {g : DGraph N T K} {cfg : SConf T} {σ₀ σ σ' : Server N T K S} {ks : List (Server.Tick N T S)}
    (h : SSeries g cfg σ₀ σ) (h' : SSteps g cfg σ ks σ') : SSeries g cfg σ₀ σ' := by
  induction h' with
  | nil => exact h
  | step k _ hs hk he ih => exact SSeries.step k ih hs hk he

theorem SRun.series {g : DGraph N T K} {cfg : SConf T} {σ : Server N T K S} {ks : List (Server.Tick N T S)}
    (h : SRun g cfg ks σ) : SSeries g cfg (Server.init g) σ := by
  induction h with
  | init => exact SSeries.nil
  | step k _ hs hk he ih => exact SSeries.step k ih hs hk he

/-- What the serial server can do from `σ₀` on. -/
inductive SerMore {N T K : Type} [DecidableEq N] [DecidableEq T] [DecidableEq K] (g : DGraph N T K) (served : List T)
    (σ₀ : Serial N T K) : Serial N T K → Prop where
  | nil : SerMore g served σ₀ σ₀
  | pass {σ σ' : Serial N T K} (k : SerTick N T) : SerMore g served σ₀ σ → σ.ended = false → LegalPick k.pick →
      σ.pass g served k = .ok σ' → SerMore g served σ₀ σ'

end Verif
