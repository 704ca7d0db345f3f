import Verif.Proofs.Run

/-! # Histories of executions are legal -/

set_option linter.unusedSectionVars false

namespace Verif

open Spec

variable {N T K : Type} [DecidableEq N] [DecidableEq T] [DecidableEq K] {g : DGraph N T K}

theorem legal_nil : Legal g ([] : List (Ev N)) := by
  intro pre e post h
  simp at h

theorem append_singleton_split {α : Type} {l pre post : List α} {a e : α}
    (h : l ++ [a] = pre ++ e :: post) : (∃ p, l = pre ++ e :: p) ∨ (pre = l ∧ e = a) := by
  rcases List.eq_nil_or_concat post with rfl | ⟨p, b, rfl⟩
  · right
    have := List.append_inj' h rfl
    exact ⟨this.1.symm, by simpa using this.2.symm⟩
  · left
    have h' : l ++ [a] = (pre ++ e :: p) ++ [b] := by simpa using h
    exact ⟨p, (List.append_inj' h' rfl).1⟩

theorem legal_snoc {tr : List (Ev N)} {a : Ev N} (h : Legal g tr) (ha : Allowed g tr a) :
    Legal g (tr ++ [a]) := by
  intro pre e post he
  rcases append_singleton_split he with ⟨p, hp⟩ | ⟨rfl, rfl⟩
  · exact h pre e p hp
  · exact ha

theorem legal_skips {tr : List (Ev N)} (h : Legal g tr) : ∀ (skips : List N),
    (∀ i x, skips[i]? = some x → Ready g (tr ++ (skips.take i).map .skip) x) →
    Legal g (tr ++ skips.map .skip) := by
  intro skips
  induction skips using List.reverseRecOn with
  | nil => intro _; simpa using h
  | append_singleton l a ih =>
    intro hs
    have h1 := ih (by
      intro i x hx
      have hi : i < l.length := by
        rw [List.getElem?_eq_some_iff] at hx
        exact hx.1
      have := hs i x (by rw [List.getElem?_append_left hi]; exact hx)
      rwa [List.take_append_of_le_length (Nat.le_of_lt hi)] at this)
    have h2 := hs l.length a (by simp)
    rw [List.take_left] at h2
    rw [List.map_append, ← List.append_assoc]
    exact legal_snoc h1 h2

theorem Run.legal (hg : g.OK) {tr : List (Ev N)} {st : Sched N T K} (h : Run g tr st) :
    Legal g tr := by
  induction h with
  | init => exact legal_nil
  | @acquire tr st st1 skips r chk t hr hacq ih =>
    obtain ⟨skips', r', st', f1, _, f3, f4, _⟩ := (hr.inv hg).acquire hg chk t
    rw [f1] at hacq
    cases hacq
    have h1 := legal_skips ih skips (fun i x hx => (f3 i x hx).1)
    unfold acquireEvents
    rcases r with _ | n
    · simpa using h1
    · rw [← List.append_assoc]
      exact legal_snoc h1 (f4 n rfl).1
  | good pick hr hn _ _ ih => exact legal_snoc ih hn
  | bad pick hr hn _ _ ih => exact legal_snoc ih hn

/-- Histories of executions are closed under taking the events before a given one, in the sense that
the facts of the run invariant that speak about events only hold for every prefix. -/
theorem legal_prefix {tr pre post : List (Ev N)} (h : Legal g tr) (he : tr = pre ++ post) :
    Legal g pre := by
  intro p e q hq
  exact h p e (q ++ post) (by rw [he, hq]; simp)

end Verif
