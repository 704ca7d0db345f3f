import Verif.Spec.SerialSpec
import Verif.Spec.Data

/-! # Data of the serial server

As `Spec/Data`, for executions of `SerialServer`: process functions are called one after the other. -/

namespace Verif

open Spec

variable {N T K L V : Type} [DecidableEq N] [DecidableEq T] [DecidableEq K] [DecidableEq L]

/-- Some steps of a program, as many as it likes. -/
inductive Prog.Steps : Prog L V → (L → V) → Prog L V → (L → V) → Prop where
  | refl {q : Prog L V} {D : L → V} : Steps q D q D
  | step {q q' q'' : Prog L V} {D D' D'' : L → V} :
      q.step D = some (q', D') → Steps q' D' q'' D'' → Steps q D q'' D''

namespace Spec

/-- What a call of a process function does to the data: a call that marks its block as failed may have stopped
anywhere, every other call that returns has come to its end. -/
def CallDid (P : Prog L V) (p : Proc) (D D' : L → V) : Prop :=
  if p = .set .failed then ∃ q, P.Steps D q D' else D' = P.run D

/-- What a pass whose new log entries are `os` does to the data. -/
def PassData (P : N → Prog L V) (k : SerTick N T) (os : List (SerOut N T)) (D D' : L → V) : Prop :=
  (∃ n, .call n ∈ os ∧ CallDid (P n) (k.proc n) D D') ∨ ((∀ n, .call n ∉ os) ∧ D' = D)

end Spec

/-- Executions of the serial server with data.  A check function accepts a block only if its results are there. -/
inductive SerDataRun (g : DGraph N T K) (served : List T) (P : N → Prog L V) (D₀ : L → V) :
    List (SerTick N T) → Serial N T K → (L → V) → Prop where
  | init : SerDataRun g served P D₀ [] (Serial.init g served) D₀
  | pass {ks : List (SerTick N T)} {σ σ' : Serial N T K} {k : SerTick N T} {D D' : L → V} :
      SerDataRun g served P D₀ ks σ D → σ.ended = false → LegalPick k.pick → σ.pass g served k = .ok σ' →
      (∀ n, .skip n ∈ σ'.out.drop σ.out.length → Present (P n) D) →
      PassData P k (σ'.out.drop σ.out.length) D D' → SerDataRun g served P D₀ (ks ++ [k]) σ' D'

/-- A pass in which the process function raises an exception, after any number of steps: the block is the one that is
called if the process function returns. -/
def SerDataRaises (g : DGraph N T K) (served : List T) (P : N → Prog L V) (σ : Serial N T K) (k : SerTick N T)
    (D D' : L → V) : Prop :=
  σ.ended = false ∧ LegalPick k.pick ∧ σ.pass g served k = .error .userException ∧
  ∃ n σ', σ.pass g served { k with proc := fun _ => .keep } = .ok σ' ∧ .call n ∈ σ'.out.drop σ.out.length ∧
    (∀ m, .skip m ∈ σ'.out.drop σ.out.length → Present (P m) D) ∧ ∃ q, (P n).Steps D q D'

end Verif
