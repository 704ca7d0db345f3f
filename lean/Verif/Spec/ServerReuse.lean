import Verif.Model.ServerReuse
import Verif.Spec.ServerThreads

/-! # Executions of a server that was used before -/

namespace Verif.Spec

variable {N T K S : Type} [DecidableEq N] [DecidableEq T] [DecidableEq K] [DecidableEq S]

/-- Executions of the event loop from state `x₀`, as long as nothing is raised. -/
inductive FineSteps (g : DGraph N T K) (cfg : SConf T) (x₀ : FineSrv N T K S) :
    List (FineSrv.FineTick N T S) → FineSrv N T K S → Prop where
  | nil : FineSteps g cfg x₀ [] x₀
  | step {ks : List (FineSrv.FineTick N T S)} {x x' : FineSrv N T K S} (k : FineSrv.FineTick N T S) :
      FineSteps g cfg x₀ ks x → x.srv.stop = false → FineLegal g k → x.iteration g cfg k = .ok x' →
      FineSteps g cfg x₀ (ks ++ [k]) x'

end Verif.Spec
