import Verif.Props.Data
import Verif.Props.StarvedServers

/-! # C108 for graphs with blocks that depend on nothing although their task depends on others -/

set_option linter.unusedSectionVars false

namespace Verif.Props

open Verif Verif.Spec

variable {N T K L V : Type} [DecidableEq N] [DecidableEq T] [DecidableEq K] [DecidableEq L] {g : DGraph N T K}
  {tr : List (Ev N)} {st : Sched N T K}

/-- C108, as `C108_possible`. -/
theorem C108_loose_possible (hg : g.Loose) (P : N → Prog L V) (D₀ : L → V) (h : Run g tr st) :
    (∀ n, .skip n ∉ tr) → ∃ cur, DataRun g P D₀ tr st (oneByOne P (goods tr) D₀) cur ∧ ∀ n, Held tr n → cur n = P n := by
  induction h with
  | init => exact fun _ => ⟨P, .init, fun _ _ => rfl⟩
  | @acquire tr st st' skips r chk t hr hacq ih =>
    intro hs
    obtain ⟨cur, h1, h2⟩ := ih (fun n hn => hs n (List.mem_append_left _ hn))
    have hsk : skips = [] := by
      cases skips with
      | nil => rfl
      | cons n ns => exact absurd (by simp [acquireEvents]) (hs n)
    subst hsk
    have eg : goods (tr ++ acquireEvents [] r) = goods tr := by cases r <;> simp [goods, acquireEvents]
    refine ⟨_, eg ▸ DataRun.acquire chk t h1 hacq (by simp), fun n hn => ?_⟩
    by_cases e : r = some n
    · exact if_pos e
    · rw [if_neg e]
      refine h2 n ?_
      cases r with
      | none => simpa [acquireEvents] using hn
      | some m =>
        have e' : m ≠ n := fun h => e (h ▸ rfl)
        simpa [acquireEvents, Held, e'] using hn
  | @good tr st st' n pick hr hh hp hrel ih =>
    intro hs
    obtain ⟨cur, h1, h2⟩ := ih (fun m hm => hs m (List.mem_append_left _ hm))
    have h3 := DataRun.finish hh _ h1 (h2 n hh)
    have eg : oneByOne P (goods (tr ++ [.good n])) D₀ = (P n).run (oneByOne P (goods tr) D₀) := by
      have : goods (tr ++ [.good n]) = goods tr ++ [n] := by simp [goods]
      rw [this, oneByOne_append]
      rfl
    refine ⟨_, eg ▸ DataRun.good pick h3 hh hp (if_pos rfl) hrel, fun m hm => ?_⟩
    have hne : m ≠ n := by
      rintro rfl
      exact ((C19_loose_disjoint_partial hg (Run.good pick hr hh hp hrel) m).2.1 hm).1 (Or.inl (by simp))
    exact (if_neg hne).trans (h2 m (by simpa [Held, hne.symm] using hm))
  | @bad tr st st' n pick hr hh hp hrel ih =>
    intro hs
    obtain ⟨cur, h1, h2⟩ := ih (fun m hm => hs m (List.mem_append_left _ hm))
    have eg : goods (tr ++ [.bad n]) = goods tr := by simp [goods]
    refine ⟨_, eg ▸ DataRun.bad pick h1 hh hp hrel, fun m hm => h2 m ?_⟩
    unfold Held at hm ⊢
    have e1 : (tr ++ [Ev.bad n]).count (.hand m) = tr.count (.hand m) := by simp
    have e2 : tr.count (.good m) ≤ (tr ++ [Ev.bad n]).count (.good m) := by simp
    have e3 : tr.count (.bad m) ≤ (tr ++ [Ev.bad n]).count (.bad m) := by simp
    omega

/-- In `barren`, whose block 2 is starved, block 0 is processed and nothing is skipped. -/
example : ∃ (tr : List (Ev (Fin 5))) (st : Sched (Fin 5) (Fin 3) (Fin 5)), Ex.barren.Loose ∧ Run Ex.barren tr st ∧
    Done tr 0 ∧ (∀ n, .skip n ∉ tr) ∧ Starved Ex.barren 2 := by
  have hx : (sexec Ex.barren Ex.barrenConf (ticks [acq 0 (7 : Nat), bad 0 7, acq 0 7, ret 0 7])).map
      (fun σ => decide (Done (evs σ.out) 0 ∧ ∀ n, Ev.skip n ∉ evs σ.out)) = some true := by decide +kernel
  obtain ⟨σ, h, e⟩ := sexec_run (ticks_legal _) _ hx
  obtain ⟨e1, e2⟩ := of_decide_eq_true e
  exact ⟨_, _, Ex.barren_loose, (h.inv Ex.barren_loose).run, e1, e2, ⟨List.mem_finRange _, rfl, by decide⟩⟩

end Verif.Props
