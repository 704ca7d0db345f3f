import Verif.Spec.Marks
import Verif.Spec.ClusterDataExec

/-! # Concrete executions of the server with its workers, data and marks -/

namespace Verif

open Spec

variable {N T K S L V : Type} [DecidableEq N] [DecidableEq T] [DecidableEq K] [DecidableEq S] [DecidableEq L]

/-- An event, an iteration of the event loop, one step of the program that a process runs, or its mark. -/
inductive ClMarkAct (N T S : Type) where
  | ev (a : SimpleCl N T S)
  | loop
  | work (s : S)
  | mark (s : S)

/-- History, state, data, what the processes have still to do, and the marked blocks. -/
structure ClMarkState (N T K S L V : Type) where
  es : List (ClEv N T S)
  x : Cluster N T K S
  D : L → V
  cur : S → Prog L V
  marks : List N

/-- The state belongs to an execution. -/
def ClMarkState.Ok (g : DGraph N T K) (c : SysConf T) (P : N → Prog L V) (D₀ : L → V) (l₀ : List N)
    (z : ClMarkState N T K S L V) : Prop :=
  ClMarkRun g c P D₀ (fun n => n ∈ l₀) z.es z.x z.D z.cur (fun n => n ∈ z.marks)

/-- Not an iteration of the event loop. -/
def SimpleCl.quiet : SimpleCl N T S → Bool
  | .loop => false
  | _ => true

/-- The process function ends well only if the block is marked. -/
def markedB (x : Cluster N T K S) (l : List N) : SimpleCl N T S → Bool
  | .client s => match workOf x s with
    | none => true
    | some n => decide (n ∈ l)
  | _ => true

/-- An iteration; the check functions accept the blocks in `l`. -/
def marksEnv (pick : Nat → Finset N → N) (l : List N) : LoopEnv N T S :=
  { envOf pick with chk := fun _ n => if n ∈ l then .accept else .reject }

/-- One action. -/
def clMarkExec1 (g : DGraph N T K) (c : SysConf T) (pick : Nat → Finset N → N) (P : N → Prog L V)
    (z : ClMarkState N T K S L V) : ClMarkAct N T S → Option (ClMarkState N T K S L V)
  | .ev a =>
    if clLegalB c z.x (a.ev pick) = true ∧ markedB z.x z.marks a = true ∧ a.quiet = true then
      match z.x.step g c (a.ev pick) with
      | .ok y => some ⟨z.es ++ [a.ev pick], y, z.D, begun P z.x y z.cur, z.marks⟩
      | .error _ => none
    else none
  | .loop =>
    if clLegalB c z.x (.sys (.loop (marksEnv pick z.marks))) = true then
      match z.x.step g c (.sys (.loop (marksEnv pick z.marks))) with
      | .ok y => some ⟨z.es ++ [.sys (.loop (marksEnv pick z.marks))], y, z.D, begun P z.x y z.cur, z.marks⟩
      | .error _ => none
    else none
  | .work s =>
    if s ∉ z.x.sys.closed then
      match workOf z.x s with
      | none => none
      | some _ =>
        match (z.cur s).step z.D with
        | some (q, D') => some ⟨z.es, z.x, D', upd z.cur s q, z.marks⟩
        | none => none
    else none
  | .mark s =>
    if s ∉ z.x.sys.closed then
      match workOf z.x s with
      | none => none
      | some n =>
        match z.cur s with
        | .done => some ⟨z.es, z.x, z.D, z.cur, n :: z.marks⟩
        | _ => none
    else none

/-- Many actions. -/
def clMarkExecFrom (g : DGraph N T K) (c : SysConf T) (pick : Nat → Finset N → N) (P : N → Prog L V) :
    List (ClMarkAct N T S) → ClMarkState N T K S L V → Option (ClMarkState N T K S L V)
  | [], z => some z
  | a :: as, z =>
    match clMarkExec1 g c pick P z a with
    | some y => clMarkExecFrom g c pick P as y
    | none => none

/-- Many actions from the beginning. -/
def clMarkExec (g : DGraph N T K) (c : SysConf T) (pick : Nat → Finset N → N) (P : N → Prog L V) (D₀ : L → V)
    (l₀ : List N) (as : List (ClMarkAct N T S)) : Option (ClMarkState N T K S L V) :=
  match Cluster.init g c with
  | .ok x => clMarkExecFrom g c pick P as ⟨[], x, D₀, fun _ => .done, l₀⟩
  | .error _ => none

theorem clMarkExec1_run {g : DGraph N T K} {c : SysConf T} {pick : Nat → Finset N → N} (hp : LegalPick pick)
    {P : N → Prog L V} {D₀ : L → V} {l₀ : List N} {a : ClMarkAct N T S} {z y : ClMarkState N T K S L V}
    (h : z.Ok g c P D₀ l₀) (he : clMarkExec1 g c pick P z a = some y) : y.Ok g c P D₀ l₀ := by
  cases a with
  | ev a =>
    simp only [clMarkExec1] at he
    split at he
    · next hc =>
      split at he
      · next w hw =>
        cases he
        refine ClMarkRun.event _ h (clLegal_of (simpleCl_legal hp [a] _ (by simp)) hc.1) hw ?_ ?_
        · intro k e
          cases a with
          | loop => cases hc.2.2
          | _ => cases e
        · intro s body n e hwk hb
          cases a with
          | client s' =>
            cases e
            have h2 := hc.2.1
            simp only [markedB, workOf_some.2 hwk] at h2
            exact of_decide_eq_true h2
          | fail s' =>
            cases e
            rcases hb with ⟨h, _⟩ | ⟨e, h1, h2, h3⟩
            · cases h
            · cases h3
          | interrupt s' =>
            cases e
            rcases hb with ⟨h, _⟩ | ⟨e, h1, h2, h3⟩
            · cases h
            · cases h3
          | _ => cases e
      · cases he
    · cases he
  | loop =>
    simp only [clMarkExec1] at he
    split at he
    · next hc =>
      split at he
      · next w hw =>
        cases he
        refine ClMarkRun.event _ h (clLegal_of ?_ hc) hw ?_ ?_
        · intro k e
          cases e
          exact ⟨hp, fun _ => hp⟩
        · intro k e i n
          cases e
          by_cases hn : n ∈ z.marks <;> simp [marksEnv, hn]
        · intro s body n e
          cases e
      · cases he
    · cases he
  | work s =>
    simp only [clMarkExec1] at he
    split at he
    · next hc =>
      split at he
      · cases he
      · next n hw =>
        split at he
        · next q D' hq =>
          cases he
          exact ClMarkRun.work h hc (workOf_some.1 hw) hq
        · cases he
    · cases he
  | mark s =>
    simp only [clMarkExec1] at he
    split at he
    · next hc =>
      split at he
      · cases he
      · next n hw =>
        split at he
        · next hq =>
          cases he
          have := ClMarkRun.mark h hc (workOf_some.1 hw) hq
          unfold ClMarkState.Ok
          have e : (fun m => m ∈ n :: z.marks) = (fun m => m = n ∨ m ∈ z.marks) := funext fun m => by simp
          dsimp only
          rw [e]
          exact this
        · cases he
    · cases he

theorem clMarkExecFrom_run {g : DGraph N T K} {c : SysConf T} {pick : Nat → Finset N → N} (hp : LegalPick pick)
    {P : N → Prog L V} {D₀ : L → V} {l₀ : List N} {as : List (ClMarkAct N T S)} : ∀ {z y : ClMarkState N T K S L V},
    z.Ok g c P D₀ l₀ → clMarkExecFrom g c pick P as z = some y → y.Ok g c P D₀ l₀ := by
  induction as with
  | nil => intro x y h he; cases he; exact h
  | cons a as ih =>
    intro x y h he
    simp only [clMarkExecFrom] at he
    split at he
    · next z hz => exact ih (clMarkExec1_run hp h hz) he
    · cases he

theorem clMarkExec_run {g : DGraph N T K} {c : SysConf T} {pick : Nat → Finset N → N} (hp : LegalPick pick)
    {P : N → Prog L V} {D₀ : L → V} {l₀ : List N} {as : List (ClMarkAct N T S)} {z : ClMarkState N T K S L V}
    (h : clMarkExec g c pick P D₀ l₀ as = some z) : z.Ok g c P D₀ l₀ := by
  unfold clMarkExec at h
  split at h
  · next x hx => exact clMarkExecFrom_run hp (z := ⟨[], x, D₀, fun _ => .done, l₀⟩) (ClMarkRun.init hx) h
  · cases h

end Verif
