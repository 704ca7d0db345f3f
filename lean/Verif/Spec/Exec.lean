import Verif.Spec.History
import Mathlib.Data.Fintype.Basic
import Mathlib.Data.List.FinRange
import Mathlib.Data.Finset.Max

/-! # Concrete executions

A small driver that runs a list of calls on a concrete graph, used to exhibit executions; every
result it computes is an execution in the sense of `Run`. -/

namespace Verif

open Spec

variable {N T K : Type} [DecidableEq N] [DecidableEq T] [DecidableEq K]

instance (tr : List (Ev N)) (n : N) : Decidable (Held tr n) := by unfold Held; infer_instance
instance (tr : List (Ev N)) (n : N) : Decidable (Done tr n) := by unfold Done; infer_instance
instance (g : DGraph N T K) (tr : List (Ev N)) (n : N) : Decidable (Dead g tr n) := by
  unfold Dead; infer_instance
instance (g : DGraph N T K) (tr : List (Ev N)) (n : N) : Decidable (Ready g tr n) := by
  unfold Ready; infer_instance

/-- One call. -/
inductive Act (N T : Type) where
  /-- `acquire_block(t)`; the check function accepts exactly the listed blocks -/
  | acq (t : T) (accepted : List N)
  /-- `release_block` with SUCCESS -/
  | good (n : N)
  /-- `release_block` with FAILED -/
  | bad (n : N)

/-- Run a list of calls from a given history and state. -/
def execFrom (g : DGraph N T K) (pick : Nat → Finset N → N) :
    List (Act N T) → List (Ev N) → Sched N T K → Option (List (Ev N) × Sched N T K)
  | [], tr, st => some (tr, st)
  | .acq t acc :: as, tr, st =>
    match st.acquireBlock g (fun _ n => if n ∈ acc then .accept else .reject) t with
    | .ok (skips, r, st') => execFrom g pick as (tr ++ acquireEvents skips r) st'
    | .error _ => none
  | .good n :: as, tr, st =>
    if Held tr n then
      match st.releaseBlock g pick n .success with
      | .ok st' => execFrom g pick as (tr ++ [.good n]) st'
      | .error _ => none
    else none
  | .bad n :: as, tr, st =>
    if Held tr n then
      match st.releaseBlock g pick n .failed with
      | .ok st' => execFrom g pick as (tr ++ [.bad n]) st'
      | .error _ => none
    else none

/-- Run a list of calls on a new scheduler. -/
def exec (g : DGraph N T K) (pick : Nat → Finset N → N) (as : List (Act N T)) :
    Option (List (Ev N) × Sched N T K) := execFrom g pick as [] (Sched.init g)

theorem execFrom_run {g : DGraph N T K} {pick : Nat → Finset N → N} (hp : LegalPick pick) :
    ∀ (as : List (Act N T)) {tr tr' : List (Ev N)} {st st' : Sched N T K}, Run g tr st →
      execFrom g pick as tr st = some (tr', st') → Run g tr' st'
  | [], _, _, _, _, h, he => by cases he; exact h
  | .acq t acc :: as, tr, tr', st, st', h, he => by
    simp only [execFrom] at he
    split at he
    · rename_i hacq
      exact execFrom_run hp as (Run.acquire _ t h hacq) he
    · cases he
  | .good n :: as, tr, tr', st, st', h, he => by
    simp only [execFrom] at he
    split at he
    · rename_i hh
      split at he
      · rename_i hr
        exact execFrom_run hp as (Run.good pick h hh hp hr) he
      · cases he
    · cases he
  | .bad n :: as, tr, tr', st, st', h, he => by
    simp only [execFrom] at he
    split at he
    · rename_i hh
      split at he
      · rename_i hr
        exact execFrom_run hp as (Run.bad pick h hh hp hr) he
      · cases he
    · cases he

theorem exec_run {g : DGraph N T K} {pick : Nat → Finset N → N} (hp : LegalPick pick)
    {as : List (Act N T)} {tr : List (Ev N)} {st : Sched N T K} (h : exec g pick as = some (tr, st)) :
    Run g tr st := execFrom_run hp as Run.init h

theorem exec_map {α : Type} {g : DGraph N T K} {pick : Nat → Finset N → N} (hp : LegalPick pick)
    {as : List (Act N T)} (f : List (Ev N) × Sched N T K → α) {v : α}
    (h : (exec g pick as).map f = some v) : ∃ tr st, Run g tr st ∧ f (tr, st) = v := by
  rcases he : exec g pick as with _ | ⟨tr, st⟩
  · rw [he] at h; cases h
  · rw [he] at h
    exact ⟨tr, st, exec_run hp he, by simpa using h⟩

/-- `set.pop` takes the smallest element. -/
def pickMin {k : Nat} [NeZero k] : Nat → Finset (Fin k) → Fin k :=
  fun _ s => if h : s.Nonempty then s.min' h else 0

/-- `set.pop` takes the largest element. -/
def pickMax {k : Nat} [NeZero k] : Nat → Finset (Fin k) → Fin k :=
  fun _ s => if h : s.Nonempty then s.max' h else 0

theorem pickMin_legal {k : Nat} [NeZero k] : LegalPick (pickMin (k := k)) := by
  intro i s h
  rw [pickMin, dif_pos h]
  exact Finset.min'_mem s h

theorem pickMax_legal {k : Nat} [NeZero k] : LegalPick (pickMax (k := k)) := by
  intro i s h
  rw [pickMax, dif_pos h]
  exact Finset.max'_mem s h

/-- The dependency graph on blocks `0, …, k-1` with given upstream lists. -/
def finGraph (k j : Nat) (up : Fin k → List (Fin k)) (task : Fin k → Fin j) (maxRetries : Fin j → Int)
    (rootTasks : List (Fin j)) : DGraph (Fin k) (Fin j) (Fin k) where
  up := up
  down := fun n => (List.finRange k).filter (fun m => n ∈ up m)
  task := task
  key := id
  tasks := List.finRange j
  total := fun t => ((List.finRange k).filter (fun n => task n = t)).length
  rootTasks := rootTasks
  numRoots := fun t => ((List.finRange k).filter (fun n => task n = t ∧ up n = [])).length
  rootGen := fun t => (List.finRange k).filter (fun n => task n = t ∧ up n = [])
  maxRetries := maxRetries
  nodes := List.finRange k

/-- Such a graph is consistent when upstream blocks come earlier and all blocks without upstream
blocks belong to root tasks. -/
theorem finGraph_ok {k j : Nat} {up : Fin k → List (Fin k)} {task : Fin k → Fin j}
    {maxRetries : Fin j → Int} {rootTasks : List (Fin j)} (h1 : ∀ b, ∀ a ∈ up b, a < b)
    (h2 : ∀ b, (up b).Nodup) (h3 : rootTasks.Nodup) (h4 : ∀ n, task n ∉ rootTasks → up n ≠ []) :
    (finGraph k j up task maxRetries rootTasks).OK where
  nodes_nodup := List.nodup_finRange k
  up_mem := fun _ _ m _ => List.mem_finRange m
  down_mem := fun _ _ m _ => List.mem_finRange m
  up_nodup := fun n _ => h2 n
  down_nodup := fun n _ => (List.nodup_finRange k).filter _
  dual := by intro a _ b _; simp [finGraph]
  acyclic := ⟨fun n => n.1, fun b _ a ha => h1 b a ha⟩
  key_inj := fun a _ b _ h => h
  tasks_nodup := List.nodup_finRange j
  task_mem := fun n _ => List.mem_finRange _
  total_eq := fun t _ => ⟨(List.finRange k).filter (fun n => task n = t),
    (List.nodup_finRange k).filter _, by intro n; simp [finGraph], rfl⟩
  rootTasks_nodup := h3
  rootTasks_mem := fun t _ => List.mem_finRange t
  numRoots_eq := fun t _ => rfl
  rootGen_nodup := fun t _ => (List.nodup_finRange k).filter _
  rootGen_mem := by intro t _ n; simp [finGraph]
  other_tasks := fun n _ h => h4 n h

end Verif
