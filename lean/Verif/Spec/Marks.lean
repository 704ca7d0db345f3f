import Verif.Spec.SerialData
import Verif.Spec.ClusterData

/-! # Servers whose process functions mark their blocks

Runs of either server over data and marks that an earlier run has left behind.  A process function marks its block after
it has stored its results, and before it returns; check functions accept the marked blocks (`examples/tutorial.py`
135-162: files that are touched; 998: "we recommend including a step in your process function after you write out the
result of a block, in which you write out the block id to a database or a file. Then, the pre-check function can just
check if the block id is in the file system or database"). -/

namespace Verif

open Spec

variable {N T K S L V : Type} [DecidableEq N] [DecidableEq T] [DecidableEq K] [DecidableEq S] [DecidableEq L]

/-- All executions of the server with its workers.  `D` are the data, `M` the marks, `cur s` is what process `s` has still
to do.  Processes that are in the process function make steps, mark their block when their program has come to its end,
and return normally only after that.  Processes whose connections are closed do nothing to data and marks. -/
inductive ClMarkRun (g : DGraph N T K) (c : SysConf T) (P : N → Prog L V) (D₀ : L → V) (M₀ : N → Prop) :
    List (ClEv N T S) → Cluster N T K S → (L → V) → (S → Prog L V) → (N → Prop) → Prop where
  | init {x : Cluster N T K S} : Cluster.init g c = .ok x → ClMarkRun g c P D₀ M₀ [] x D₀ (fun _ => .done) M₀
  | event {es : List (ClEv N T S)} {x y : Cluster N T K S} {D : L → V} {cur : S → Prog L V} {M : N → Prop}
      (e : ClEv N T S) : ClMarkRun g c P D₀ M₀ es x D cur M → LegalCl c x e → x.step g c e = .ok y →
      (∀ k, e = .sys (.loop k) → ∀ i n, k.chk i n = .accept ↔ M n) →
      (∀ s body n, e = .client s body → WorksOn x s n → EndsWell body → M n) →
      ClMarkRun g c P D₀ M₀ (es ++ [e]) y D (begun P x y cur) M
  | work {es : List (ClEv N T S)} {x : Cluster N T K S} {D D' : L → V} {cur : S → Prog L V} {M : N → Prop} {s : S} {n : N}
      {q : Prog L V} : ClMarkRun g c P D₀ M₀ es x D cur M → OnlyOpen x s → WorksOn x s n →
      (cur s).step D = some (q, D') → ClMarkRun g c P D₀ M₀ es x D' (upd cur s q) M
  | mark {es : List (ClEv N T S)} {x : Cluster N T K S} {D : L → V} {cur : S → Prog L V} {M : N → Prop} {s : S} {n : N} :
      ClMarkRun g c P D₀ M₀ es x D cur M → OnlyOpen x s → WorksOn x s n → cur s = .done →
      ClMarkRun g c P D₀ M₀ es x D cur (fun m => m = n ∨ M m)

namespace Spec

/-- What a call of a process function for block `n` may do to data and marks: make steps and, if its program has come to
its end, mark the block. -/
def CallMarks (P : Prog L V) (n : N) (D : L → V) (M : N → Prop) (D' : L → V) (M' : N → Prop) : Prop :=
  ∃ q, P.Steps D q D' ∧ (M' = M ∨ (q = .done ∧ M' = fun m => m = n ∨ M m))

end Spec

/-- Executions of the serial server.  A call that does not mark its block as failed has marked it in the other sense. -/
inductive SerMarkRun (g : DGraph N T K) (served : List T) (P : N → Prog L V) (D₀ : L → V) (M₀ : N → Prop) :
    List (SerTick N T) → Serial N T K → (L → V) → (N → Prop) → Prop where
  | init : SerMarkRun g served P D₀ M₀ [] (Serial.init g served) D₀ M₀
  | pass {ks : List (SerTick N T)} {σ σ' : Serial N T K} {k : SerTick N T} {D D' : L → V} {M M' : N → Prop} :
      SerMarkRun g served P D₀ M₀ ks σ D M → σ.ended = false → LegalPick k.pick → σ.pass g served k = .ok σ' →
      (∀ t i n, k.chk t i n = .accept ↔ M n) →
      ((∃ n, .call n ∈ σ'.out.drop σ.out.length ∧ CallMarks (P n) n D M D' M' ∧ (k.proc n ≠ .set .failed → M' n)) ∨
        ((∀ n, .call n ∉ σ'.out.drop σ.out.length) ∧ D' = D ∧ M' = M)) →
      SerMarkRun g served P D₀ M₀ (ks ++ [k]) σ' D' M'

/-- A pass in which the process function raises an exception: the block is the one that is called if the process function
returns. -/
def SerMarkRaises (g : DGraph N T K) (served : List T) (P : N → Prog L V) (σ : Serial N T K) (k : SerTick N T)
    (D : L → V) (M : N → Prop) (D' : L → V) (M' : N → Prop) : Prop :=
  σ.ended = false ∧ LegalPick k.pick ∧ σ.pass g served k = .error .userException ∧ (∀ t i n, k.chk t i n = .accept ↔ M n) ∧
  ∃ n σ', σ.pass g served { k with proc := fun _ => .keep } = .ok σ' ∧ .call n ∈ σ'.out.drop σ.out.length ∧
    CallMarks (P n) n D M D' M'

/-- A run over the data and marks `a` that was given up, at any time and for any reason, when they were `b`: with worker
processes (`S`: their names), or without, between two passes or inside a process function (an exception). -/
inductive MarkAttempt (g : DGraph N T K) (served : List T) (P : N → Prog L V) (S : Type) [DecidableEq S]
    (a b : (L → V) × (N → Prop)) : Prop where
  | workers {c : SysConf T} {es : List (ClEv N T S)} {x : Cluster N T K S} {cur : S → Prog L V} :
      ClMarkRun g c P a.1 a.2 es x b.1 cur b.2 → MarkAttempt g served P S a b
  | serial {ks : List (SerTick N T)} {σ : Serial N T K} : SerMarkRun g served P a.1 a.2 ks σ b.1 b.2 →
      MarkAttempt g served P S a b
  | inside {ks : List (SerTick N T)} {σ : Serial N T K} {k : SerTick N T} {D : L → V} {M : N → Prop} :
      SerMarkRun g served P a.1 a.2 ks σ D M → SerMarkRaises g served P σ k D M b.1 b.2 → MarkAttempt g served P S a b

/-- A run over the data and marks `a` that has completed all blocks; `D` are the data then. -/
inductive MarkCompletion (g : DGraph N T K) (served : List T) (P : N → Prog L V) (S : Type) [DecidableEq S]
    (a : (L → V) × (N → Prop)) (D : L → V) : Prop where
  | workers {c : SysConf T} {es : List (ClEv N T S)} {x : Cluster N T K S} {cur : S → Prog L V} {M : N → Prop} :
      ClMarkRun g c P a.1 a.2 es x D cur M → (∀ n ∈ g.nodes, Done (evs x.sys.srv.out) n) →
      MarkCompletion g served P S a D
  | serial {ks : List (SerTick N T)} {σ : Serial N T K} {M : N → Prop} : SerMarkRun g served P a.1 a.2 ks σ D M →
      (∀ n ∈ g.nodes, .release n .success ∈ σ.out ∨ .skip n ∈ σ.out) → MarkCompletion g served P S a D

end Verif
