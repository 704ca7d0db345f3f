import Verif.Spec.ClusterData
import Verif.Spec.ClusterExec

/-! # Concrete executions of the server with its workers and data -/

namespace Verif

open Spec

variable {N T K S L V : Type} [DecidableEq N] [DecidableEq T] [DecidableEq K] [DecidableEq S] [DecidableEq L]

/-- An event, or one step of the program that a process runs. -/
inductive ClDataAct (N T S : Type) where
  | ev (a : SimpleCl N T S)
  | work (s : S)

/-- History, state, data and what the processes have still to do. -/
abbrev ClDataState (N T K S L V : Type) := List (ClEv N T S) × Cluster N T K S × (L → V) × (S → Prog L V)

/-- The program has come to its end. -/
def Prog.over : Prog L V → Bool
  | .done => true
  | _ => false

/-- The process function ends well only if its program has come to its end. -/
def endsB (x : Cluster N T K S) (cur : S → Prog L V) : SimpleCl N T S → Bool
  | .client s => match workOf x s with
    | none => true
    | some _ => (cur s).over
  | _ => true

/-- One action; check functions accept nothing. -/
def clDataExec1 (g : DGraph N T K) (c : SysConf T) (pick : Nat → Finset N → N) (P : N → Prog L V)
    (may : Cluster N T K S → S → Bool) :
    ClDataAct N T S → ClDataState N T K S L V → Option (ClDataState N T K S L V)
  | .ev a, (es, x, D, cur) =>
    if clLegalB c x (a.ev pick) = true ∧ endsB x cur a = true then
      match x.step g c (a.ev pick) with
      | .ok y =>
        if (y.sys.srv.out.drop x.sys.srv.out.length).all
            (fun o => match o with | .skip _ => false | _ => true) = true then
          some (es ++ [a.ev pick], y, D, begun P x y cur)
        else none
      | .error _ => none
    else none
  | .work s, (es, x, D, cur) =>
    if may x s = true then
      match workOf x s with
      | none => none
      | some _ =>
        match (cur s).step D with
        | some (q, D') => some (es, x, D', upd cur s q)
        | none => none
    else none

/-- Many actions. -/
def clDataExecFrom (g : DGraph N T K) (c : SysConf T) (pick : Nat → Finset N → N) (P : N → Prog L V)
    (may : Cluster N T K S → S → Bool) :
    List (ClDataAct N T S) → ClDataState N T K S L V → Option (ClDataState N T K S L V)
  | [], x => some x
  | a :: as, x =>
    match clDataExec1 g c pick P may a x with
    | some y => clDataExecFrom g c pick P may as y
    | none => none

/-- Many actions from the beginning. -/
def clDataExec (g : DGraph N T K) (c : SysConf T) (pick : Nat → Finset N → N) (P : N → Prog L V)
    (may : Cluster N T K S → S → Bool) (D₀ : L → V) (as : List (ClDataAct N T S)) :
    Option (ClDataState N T K S L V) :=
  match Cluster.init g c with
  | .ok x => clDataExecFrom g c pick P may as ([], x, D₀, fun _ => .done)
  | .error _ => none

omit [DecidableEq N] [DecidableEq T] [DecidableEq K] [DecidableEq S] in
theorem workOf_some {x : Cluster N T K S} {s : S} {n : N} : workOf x s = some n ↔ WorksOn x s n := by
  unfold workOf WorksOn
  rcases hx : x.conn s with _ | k
  · simp
  · cases hp : k.phase <;> simp [hp]

theorem clDataExec1_run {g : DGraph N T K} {c : SysConf T} {pick : Nat → Finset N → N} (hp : LegalPick pick)
    {P : N → Prog L V} {D₀ : L → V} {may : Cluster N T K S → S → Bool} {mayP : Cluster N T K S → S → Prop}
    (hm : ∀ x s, may x s = true → mayP x s) {a : ClDataAct N T S} {x y : ClDataState N T K S L V}
    (h : ClDataRun g c P D₀ mayP x.1 x.2.1 x.2.2.1 x.2.2.2) (he : clDataExec1 g c pick P may a x = some y) :
    ClDataRun g c P D₀ mayP y.1 y.2.1 y.2.2.1 y.2.2.2 := by
  obtain ⟨es, x, D, cur⟩ := x
  cases a with
  | ev a =>
    simp only [clDataExec1] at he
    split at he
    · next hc =>
      split at he
      · next z hz =>
        split at he
        · next hs =>
          cases he
          refine ClDataRun.event _ h (clLegal_of (simpleCl_legal hp [a] _ (by simp)) hc.1) hz (fun n hn => ?_) ?_
          · cases List.all_eq_true.1 hs _ hn
          · intro s body n e hw hb
            cases a with
            | client s' =>
              cases e
              have h2 := hc.2
              simp only [endsB, workOf_some.2 hw] at h2
              cases hd : cur s with
              | done => rfl
              | look l k => rw [hd] at h2; cases h2
              | put l v k => rw [hd] at h2; cases h2
            | fail s' =>
              cases e
              rcases hb with ⟨h, _⟩ | ⟨e, h1, h2, h3⟩
              · cases h
              · cases h3
            | interrupt s' =>
              cases e
              rcases hb with ⟨h, _⟩ | ⟨e, h1, h2, h3⟩
              · cases h
              · cases h3
            | _ => cases e
        · cases he
      · cases he
    · cases he
  | work s =>
    simp only [clDataExec1] at he
    split at he
    · next hc =>
      split at he
      · cases he
      · next n hw =>
        split at he
        · next q D' hq =>
          cases he
          exact ClDataRun.work h (hm _ _ hc) (workOf_some.1 hw) hq
        · cases he
    · cases he

theorem clDataExecFrom_run {g : DGraph N T K} {c : SysConf T} {pick : Nat → Finset N → N} (hp : LegalPick pick)
    {P : N → Prog L V} {D₀ : L → V} {may : Cluster N T K S → S → Bool} {mayP : Cluster N T K S → S → Prop}
    (hm : ∀ x s, may x s = true → mayP x s) {as : List (ClDataAct N T S)} : ∀ {x y : ClDataState N T K S L V},
    ClDataRun g c P D₀ mayP x.1 x.2.1 x.2.2.1 x.2.2.2 → clDataExecFrom g c pick P may as x = some y →
    ClDataRun g c P D₀ mayP y.1 y.2.1 y.2.2.1 y.2.2.2 := by
  induction as with
  | nil => intro x y h he; cases he; exact h
  | cons a as ih =>
    intro x y h he
    simp only [clDataExecFrom] at he
    split at he
    · next z hz => exact ih (clDataExec1_run hp hm h hz) he
    · cases he

theorem clDataExec_map {g : DGraph N T K} {c : SysConf T} {pick : Nat → Finset N → N} (hp : LegalPick pick)
    {P : N → Prog L V} {D₀ : L → V} {may : Cluster N T K S → S → Bool} {mayP : Cluster N T K S → S → Prop}
    (hm : ∀ x s, may x s = true → mayP x s) {as : List (ClDataAct N T S)} (f : ClDataState N T K S L V → Bool)
    (h : (clDataExec g c pick P may D₀ as).map f = some true) :
    ∃ es x D cur, ClDataRun g c P D₀ mayP es x D cur ∧ f (es, x, D, cur) = true := by
  unfold clDataExec at h
  split at h
  · next x hx =>
    rcases he : clDataExecFrom g c pick P may as ([], x, D₀, fun _ => .done) with _ | ⟨es, y, D, cur⟩
    · rw [he] at h; cases h
    · rw [he] at h
      exact ⟨es, y, D, cur, clDataExecFrom_run hp hm (x := ([], x, D₀, fun _ => .done)) (.init hx) he, by simpa using h⟩
  · cases h

end Verif
