import Verif.Spec.ClusterSpec
import Verif.Spec.Data

/-! # Data of the server with its workers

As `Spec/Data`, but with processes: a process that is in the process function runs the program of its block, location
by location, while everything else goes on.  If the connection of a process is closed, the process may go on. -/

namespace Verif

open Spec

variable {N T K S L V : Type} [DecidableEq N] [DecidableEq T] [DecidableEq K] [DecidableEq S] [DecidableEq L]

namespace Spec

/-- The block that process `s` works on. -/
def workOf (x : Cluster N T K S) (s : S) : Option N :=
  match x.conn s with
  | none => none
  | some k => match k.phase with
    | .working n => some n
    | _ => none

/-- The programs after an event that leads from `x` to `y`: a process that starts to work has the program of its block
before it. -/
def begun (P : N → Prog L V) (x y : Cluster N T K S) (cur : S → Prog L V) (s : S) : Prog L V :=
  match workOf y s with
  | none => cur s
  | some n => if workOf x s = none then P n else cur s

/-- Everybody who is in the process function may do something to the data. -/
def Anybody (_ : Cluster N T K S) (_ : S) : Prop := True

/-- Processes whose connections the server considers closed do nothing to the data any more. -/
def OnlyOpen (x : Cluster N T K S) (s : S) : Prop := s ∉ x.sys.closed

/-- The program looks only at locations at which it does not store, and every value that it stores is the one that is
in `F`, if it finds the values of `F`. -/
def Stores (R W : L → Prop) (F : L → V) : Prog L V → Prop
  | .done => True
  | .look l k => (R l ∧ ¬ W l) ∧ Stores R W F (k (F l))
  | .put l v k => (W l ∧ v = F l) ∧ Stores R W F k

/-- A program that looks only at locations at which it does not store, and stores no temporary values: whatever it
stores at a location is there when it has ended. -/
def Straight (R W : L → Prop) (P : Prog L V) : Prop := ∀ D, Stores R W (P.run D) P

end Spec

/-- All executions with data.  `cur s` is what process `s` has still to do.  Processes that may (`may`) make steps while
they are in the process function, in any order.  The process function ends well only if its program has come to its end
(and otherwise as it likes).  Check functions accept only blocks whose results are there. -/
inductive ClDataRun (g : DGraph N T K) (c : SysConf T) (P : N → Prog L V) (D₀ : L → V)
    (may : Cluster N T K S → S → Prop) :
    List (ClEv N T S) → Cluster N T K S → (L → V) → (S → Prog L V) → Prop where
  | init {x : Cluster N T K S} : Cluster.init g c = .ok x → ClDataRun g c P D₀ may [] x D₀ (fun _ => .done)
  | event {es : List (ClEv N T S)} {x y : Cluster N T K S} {D : L → V} {cur : S → Prog L V} (e : ClEv N T S) :
      ClDataRun g c P D₀ may es x D cur → LegalCl c x e → x.step g c e = .ok y →
      (∀ n, .skip n ∈ y.sys.srv.out.drop x.sys.srv.out.length → Present (P n) D) →
      (∀ s body n, e = .client s body → WorksOn x s n → EndsWell body → cur s = .done) →
      ClDataRun g c P D₀ may (es ++ [e]) y D (begun P x y cur)
  | work {es : List (ClEv N T S)} {x : Cluster N T K S} {D D' : L → V} {cur : S → Prog L V} {s : S} {n : N}
      {q : Prog L V} :
      ClDataRun g c P D₀ may es x D cur → may x s → WorksOn x s n → (cur s).step D = some (q, D') →
      ClDataRun g c P D₀ may es x D' (upd cur s q)

end Verif
