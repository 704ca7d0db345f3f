import Verif.Model.SerialServer
import Verif.Spec.History
import Verif.Spec.ServerSpec

/-! # Executions of the serial server -/

namespace Verif

open Spec

variable {N T K : Type} [DecidableEq N] [DecidableEq T] [DecidableEq K]

/-- What an entry of the log says about blocks. -/
def SerOut.toEv : SerOut N T → Option (Ev N)
  | .skip n => some (.skip n)
  | .call n => some (.hand n)
  | .release n .success => some (.good n)
  | .release n .failed => some (.bad n)
  | _ => none

/-- The history of blocks in a log. -/
def serEvs (os : List (SerOut N T)) : List (Ev N) := os.filterMap SerOut.toEv

/-- Executions of the serial server: passes of the loop as long as it has not been left, with any
behaviour of check functions and process functions. -/
inductive SerRun (g : DGraph N T K) (served : List T) : List (SerTick N T) → Serial N T K → Prop where
  | init : SerRun g served [] (Serial.init g served)
  | pass {ks : List (SerTick N T)} {σ σ' : Serial N T K} {k : SerTick N T} :
      SerRun g served ks σ → σ.ended = false → LegalPick k.pick →
      σ.pass g served k = .ok σ' → SerRun g served (ks ++ [k]) σ'

namespace Spec

/-- The process function does not raise. -/
def SerTick.Returns (k : SerTick N T) : Prop := ∀ n, k.proc n ≠ .raises

/-- The process function does not raise and does not mark the block as failed. -/
def SerTick.Succeeds (k : SerTick N T) : Prop := ∀ n, k.proc n ≠ .raises ∧ k.proc n ≠ .set .failed

/-- No check function accepts a block. -/
def SerTick.NoSkips (k : SerTick N T) : Prop := ∀ t i n, k.chk t i n ≠ .accept

end Spec

end Verif
