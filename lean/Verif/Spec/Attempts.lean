import Verif.Spec.SerialData
import Verif.Spec.ClusterData

/-! # Attempts at a computation

Runs of either server over data that an earlier run has left behind. -/

namespace Verif

open Spec

variable {N T K L V : Type} [DecidableEq N] [DecidableEq T] [DecidableEq K] [DecidableEq L]

/-- A run over the data `D` that was given up, at any time and for any reason, when the data were `D'`.  With worker
processes (`S`: their names) those whose connections are closed may go on until then.  Without, either between two
passes or inside a process function (an exception). -/
inductive Attempt (g : DGraph N T K) (served : List T) (P : N → Prog L V) (S : Type) [DecidableEq S] (D D' : L → V) :
    Prop where
  | workers {c : SysConf T} {may : Cluster N T K S → S → Prop} {es : List (ClEv N T S)} {x : Cluster N T K S}
      {cur : S → Prog L V} : ClDataRun g c P D may es x D' cur → Attempt g served P S D D'
  | serial {ks : List (SerTick N T)} {σ : Serial N T K} : SerDataRun g served P D ks σ D' → Attempt g served P S D D'
  | inside {ks : List (SerTick N T)} {σ : Serial N T K} {k : SerTick N T} {D₁ : L → V} :
      SerDataRun g served P D ks σ D₁ → SerDataRaises g served P σ k D₁ D' → Attempt g served P S D D'

/-- A run over the data `D` that has completed all blocks; `D'` are the data.  Worker processes do nothing to the data
once their connections are closed. -/
inductive Completion (g : DGraph N T K) (served : List T) (P : N → Prog L V) (S : Type) [DecidableEq S] (D D' : L → V) :
    Prop where
  | workers {c : SysConf T} {es : List (ClEv N T S)} {x : Cluster N T K S} {cur : S → Prog L V} :
      ClDataRun g c P D OnlyOpen es x D' cur → (∀ n ∈ g.nodes, Done (evs x.sys.srv.out) n) → Completion g served P S D D'
  | serial {ks : List (SerTick N T)} {σ : Serial N T K} : SerDataRun g served P D ks σ D' →
      (∀ n ∈ g.nodes, .release n .success ∈ σ.out ∨ .skip n ∈ σ.out) → Completion g served P S D D'

end Verif
