import Verif.Spec.ClusterPath

/-! # Concrete executions of the server with its workers, state by state -/

set_option linter.unusedSectionVars false

namespace Verif

open Spec

section
variable {N T K S : Type} [DecidableEq N] [DecidableEq T] [DecidableEq K] [DecidableEq S]

/-- Run events one after the other; `q` checks the states, given the events that are to come. -/
def clPathChk (g : DGraph N T K) (c : SysConf T) (pick : Nat → Finset N → N)
    (q : Cluster N T K S → List (SimpleCl N T S) → Bool) :
    List (SimpleCl N T S) → Cluster N T K S → Option (Cluster N T K S)
  | [], x => some x
  | a :: as, x =>
    if x.sys.srv.stop = false ∧ clLegalB c x (a.ev pick) = true ∧ q x (a :: as) = true then
      match x.step g c (a.ev pick) with
      | .ok x' => clPathChk g c pick q as x'
      | .error _ => none
    else none

theorem clPathChk_states {g : DGraph N T K} {c : SysConf T} {pick : Nat → Finset N → N} (hp : LegalPick pick)
    {q : Cluster N T K S → List (SimpleCl N T S) → Bool} :
    ∀ (as : List (SimpleCl N T S)) (x y : Cluster N T K S), clPathChk g c pick q as x = some y →
      ∃ X : Nat → Cluster N T K S, X 0 = x ∧ X as.length = y ∧ ∀ i a, as[i]? = some a →
        (X i).sys.srv.stop = false ∧ LegalCl c (X i) (a.ev pick) ∧ (X i).step g c (a.ev pick) = .ok (X (i + 1)) ∧
        q (X i) (as.drop i) = true
  | [], x, y, he => by
    cases he
    exact ⟨fun _ => x, rfl, rfl, fun i a h => by simp at h⟩
  | a :: as, x, y, he => by
    simp only [clPathChk] at he
    split at he
    · rename_i hc
      split at he
      · rename_i x1 h1
        obtain ⟨X, g1, g2, g3⟩ := clPathChk_states hp as x1 y he
        refine ⟨fun i => match i with | 0 => x | i + 1 => X i, rfl, g2, ?_⟩
        intro i b hb
        cases i with
        | zero =>
          rw [List.getElem?_cons_zero] at hb
          cases hb
          refine ⟨hc.1, clLegal_of (simpleCl_legal hp [a] _ (by simp)) hc.2.1, ?_, hc.2.2⟩
          dsimp only
          rw [g1]
          exact h1
        | succ i => exact g3 i b hb
      · cases he
    · cases he

/-- A run up to a point of such an execution. -/
theorem clRun_of_states {g : DGraph N T K} {c : SysConf T} {X : Nat → Cluster N T K S} {E : Nat → ClEv N T S} {P : Nat}
    (h0 : Cluster.init g c = .ok (X 0))
    (h : ∀ i, i < P → LegalCl c (X i) (E i) ∧ (X i).step g c (E i) = .ok (X (i + 1))) :
    ∃ es, ClRun g c es (X P) ∧ ∀ e ∈ es, ∃ i, i < P ∧ e = E i := by
  induction P with
  | zero => exact ⟨[], .init h0, by simp⟩
  | succ P ih =>
    obtain ⟨es, h1, h2⟩ := ih (fun i hi => h i (by omega))
    obtain ⟨h3, h4⟩ := h P (by omega)
    refine ⟨es ++ [E P], .step _ h1 h3 h4, fun e he => ?_⟩
    rcases List.mem_append.1 he with he | he
    · obtain ⟨i, hi, e1⟩ := h2 e he
      exact ⟨i, by omega, e1⟩
    · exact ⟨P, by omega, List.mem_singleton.1 he⟩

/-- Without new answers nothing is sent. -/
theorem downOf_nil {g : DGraph N T K} {out os : List (Out N T S)}
    (h : ∀ t s, answers g t s (out ++ os) = answers g t s out) (s : S) : os.filterMap (downOf s) = [] := by
  have h1 : ∀ t s, answers g t s os = 0 := by
    intro t s
    have h2 : ∀ l : List (Out N T S), answers g t s (l ++ os) = answers g t s l + answers g t s os := by
      intro l
      induction l with
      | nil => simp [answers]
      | cons o l ih => simp only [List.cons_append, answers, ih]; omega
    have := h t s
    rw [h2] at this
    omega
  clear h
  induction os with
  | nil => rfl
  | cons o os ih =>
    have h2 : ∀ t s, answers g t s os = 0 := fun t s => by
      have := h1 t s
      simp only [answers] at this
      omega
    rw [List.filterMap_cons, ih h2]
    cases o with
    | send s' n =>
      have := h1 (g.task n) s'
      simp [answers] at this
    | shutdown s' t =>
      have := h1 t s'
      simp [answers] at this
    | _ => rfl

end
end Verif
