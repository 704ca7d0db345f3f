import Verif.Spec.History

/-! # Data: what process functions read and write

daisy itself never touches data; the process functions do.  Here a process function is any deterministic program
that looks at and stores single values at locations `L` (in pipelines: a voxel in the output of a task).  In an
execution the programs of all blocks that are out run at the same time, interleaved location by location, while the
scheduler goes on. -/

namespace Verif

/-- A deterministic program: what it does next may depend on everything it has seen. -/
inductive Prog (L V : Type) where
  | done
  | look (l : L) (k : V → Prog L V)
  | put (l : L) (v : V) (k : Prog L V)

namespace Prog

variable {L V : Type} [DecidableEq L]

/-- One step: the rest of the program and the data afterwards. -/
def step : Prog L V → (L → V) → Option (Prog L V × (L → V))
  | done, _ => none
  | look l k, D => some (k (D l), D)
  | put l v k, D => some (k, upd D l v)

/-- The data after the whole program has run, with nobody else at work. -/
def run : Prog L V → (L → V) → L → V
  | done, D => D
  | look l k, D => (k (D l)).run D
  | put l v k, D => k.run (upd D l v)

/-- The program looks at locations in `R` or `W` only, and stores at locations in `W` only. -/
def Uses (R W : L → Prop) : Prog L V → Prop
  | done => True
  | look l k => (R l ∨ W l) ∧ ∀ v, (k v).Uses R W
  | put l _ k => W l ∧ k.Uses R W

end Prog

namespace Spec

variable {N T K L V : Type} [DecidableEq L]

/-- Blocks are processed one after the other, without scheduler and workers. -/
def oneByOne (P : N → Prog L V) (order : List N) (D : L → V) : L → V :=
  order.foldl (fun D n => (P n).run D) D

/-- All blocks, each one once and none before a block it depends on. -/
structure Topological (g : DGraph N T K) (order : List N) : Prop where
  nodup : order.Nodup
  mem : ∀ n, n ∈ order ↔ n ∈ g.nodes
  sorted : order.Pairwise (fun a b => b ∉ g.up a)

/-- A second attempt gives the same results as a first one, whatever an interrupted attempt has left behind. -/
def Restartable (W : L → Prop) (P : Prog L V) : Prop :=
  ∀ D D' : L → V, (∀ l, ¬ W l → D l = D' l) → ∀ l, W l → P.run D l = P.run D' l

/-- The results of the program are there already: to run it would change nothing. -/
def Present (P : Prog L V) (D : L → V) : Prop := ∀ l, P.run D l = D l

/-- What the programs of the blocks of a graph may look at (`R`) and where they may store (`W`): different blocks
store at different locations, and of two blocks of which one looks at something that the other one stores one is
upstream of the other. -/
structure Disciplined (g : DGraph N T K) (R W : N → L → Prop) (P : N → Prog L V) : Prop where
  uses : ∀ n ∈ g.nodes, (P n).Uses (R n) (W n)
  apart : ∀ a ∈ g.nodes, ∀ b ∈ g.nodes, ∀ l, W a l → W b l → a = b
  ordered : ∀ a ∈ g.nodes, ∀ b ∈ g.nodes, ∀ l, W a l → R b l → a ≠ b → Anc g a b ∨ Anc g b a

end Spec

open Spec

/-- Executions with data.  `D` is the data now, `cur n` what block `n` has still to do.  Only programs of blocks
that are out make steps, in any order.  A block can be released with SUCCESS when its program has come to its end
and with FAILED at any time.  A check function accepts a block only if its results are there.  (The data are looked
at by check functions in one go when `acquire_block` is called.) -/
inductive DataRun {N T K L V : Type} [DecidableEq N] [DecidableEq T] [DecidableEq K] [DecidableEq L]
    (g : DGraph N T K) (P : N → Prog L V) (D₀ : L → V) :
    List (Ev N) → Sched N T K → (L → V) → (N → Prog L V) → Prop where
  | init : DataRun g P D₀ [] (Sched.init g) D₀ P
  | acquire {tr : List (Ev N)} {st st' : Sched N T K} {D : L → V} {cur : N → Prog L V} {skips : List N}
      {r : Option N} (chk : Nat → N → Check) (t : T) :
      DataRun g P D₀ tr st D cur → st.acquireBlock g chk t = .ok (skips, r, st') →
      (∀ n ∈ skips, Present (P n) D) →
      DataRun g P D₀ (tr ++ acquireEvents skips r) st' D (fun n => if r = some n then P n else cur n)
  | step {tr : List (Ev N)} {st : Sched N T K} {D D' : L → V} {cur : N → Prog L V} {n : N} {q : Prog L V} :
      DataRun g P D₀ tr st D cur → Held tr n → (cur n).step D = some (q, D') →
      DataRun g P D₀ tr st D' (upd cur n q)
  | good {tr : List (Ev N)} {st st' : Sched N T K} {D : L → V} {cur : N → Prog L V} {n : N}
      (pick : Nat → Finset N → N) :
      DataRun g P D₀ tr st D cur → Held tr n → LegalPick pick → cur n = .done →
      st.releaseBlock g pick n .success = .ok st' → DataRun g P D₀ (tr ++ [.good n]) st' D cur
  | bad {tr : List (Ev N)} {st st' : Sched N T K} {D : L → V} {cur : N → Prog L V} {n : N}
      (pick : Nat → Finset N → N) :
      DataRun g P D₀ tr st D cur → Held tr n → LegalPick pick →
      st.releaseBlock g pick n .failed = .ok st' → DataRun g P D₀ (tr ++ [.bad n]) st' D cur

end Verif
