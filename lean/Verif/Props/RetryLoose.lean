import Verif.Props.StarvedServers

/-! # C18 for graphs with blocks that depend on nothing although their task depends on others -/

set_option linter.unusedSectionVars false

namespace Verif

open Spec

variable {N T K : Type} [DecidableEq N] [DecidableEq T] [DecidableEq K] {g : DGraph N T K}
variable {tr : List (Ev N)} {st : Sched N T K}

/-- C18, as `C18_retry_iff_partial`. -/
theorem C18_loose_retry_iff_partial (hg : g.Loose) (h : Run g tr st) {n : N} (hn : Held tr n)
    {pick : Nat → Finset N → N} (hp : LegalPick pick) :
    ∃ st', st.releaseBlock g pick n .failed = .ok st' ∧ Run g (tr ++ [.bad n]) st' ∧
      (n ∈ (st'.queues (g.task n)).readyQueue ↔
        ((tr ++ [Ev.bad n]).count (.bad n) : Int) ≤ g.maxRetries (g.task n)) ∧
      (Dead g (tr ++ [.bad n]) n ↔
        ¬ ((tr ++ [Ev.bad n]).count (.bad n) : Int) ≤ g.maxRetries (g.task n)) ∧
      (st'.states (g.task n)).failed = (st.states (g.task n)).failed +
        (if ((tr ++ [Ev.bad n]).count (.bad n) : Int) ≤ g.maxRetries (g.task n) then 0 else 1) := by
  obtain ⟨h1, _, h3⟩ := run_lift hg h
  have hf : Fine g n := by
    have : Ev.hand n ∈ tr := List.count_pos_iff.1 (by unfold Held at hn; omega)
    exact h3 _ this
  obtain ⟨x, c1, _, c3, c4, c5⟩ := C18_retry_iff_partial (fed_ok hg) h1 (held_lift.2 hn) (RS.liftPick_legal hp)
  rw [Sched.release_bad_lift hg hf hp] at c1
  rcases hr : st.releaseBlock g pick n .failed with e | st'
  · rw [hr] at c1; cases c1
  · rw [hr] at c1
    cases c1
    have hmap : tr.map Ev.lift ++ [Ev.bad (some n)] = (tr ++ [Ev.bad n]).map Ev.lift := by rw [List.map_append]; rfl
    have hcount : (tr.map Ev.lift ++ [Ev.bad (some n)]).count (Ev.bad (some n)) = (tr ++ [Ev.bad n]).count (.bad n) := by
      rw [hmap]
      exact count_lift (tr := tr ++ [Ev.bad n]) (.bad n)
    rw [hcount] at c3 c4 c5
    rw [hmap, dead_lift] at c4
    refine ⟨st', rfl, Run.bad pick h hn hp hr, ?_, c4, c5⟩
    rw [← show g.fed.maxRetries (g.fed.task (some n)) = g.maxRetries (g.task n) from rfl, ← c3]
    show _ ↔ some n ∈ (st'.queues (g.task n)).readyQueue.map some
    exact (List.mem_map_of_injective (Option.some_injective N)).symm

/-- C18, as `C18_dead_is_final_partial`. -/
theorem C18_loose_final_partial (hg : g.Loose) (h : Run g tr st) {pre post : List (Ev N)} {n : N}
    (htr : tr = pre ++ post) (hd : Dead g pre n) : .hand n ∉ post ∧ .skip n ∉ post := by
  obtain ⟨h1, _, _⟩ := run_lift hg h
  obtain ⟨c1, c2⟩ := C18_dead_is_final_partial (fed_ok hg) h1 (pre := pre.map Ev.lift) (post := post.map Ev.lift)
    (by rw [htr, List.map_append]) (dead_lift.2 hd)
  exact ⟨fun hm => c1 (List.mem_map_of_mem (f := Ev.lift) hm), fun hm => c2 (List.mem_map_of_mem (f := Ev.lift) hm)⟩

/-- In `barren`, whose block 2 is starved, block 0 has failed once and is out again. -/
example : ∃ tr st, Ex.barren.Loose ∧ Starved Ex.barren 2 ∧ Run Ex.barren tr st ∧ Held tr 0 ∧ Ev.bad 0 ∈ tr ∧
    LegalPick (pickMin (k := 5)) := by
  have hx : (sexec Ex.barren Ex.barrenConf (ticks [acq 0 (7 : Nat), bad 0 7, acq 0 7])).map
      (fun σ => decide (Held (evs σ.out) 0 ∧ Ev.bad 0 ∈ evs σ.out)) = some true := by decide +kernel
  obtain ⟨σ, h, e⟩ := sexec_run (ticks_legal _) _ hx
  obtain ⟨e1, e2⟩ := of_decide_eq_true e
  exact ⟨evs σ.out, σ.sched, Ex.barren_loose, ⟨List.mem_finRange _, rfl, by decide⟩, (h.inv Ex.barren_loose).run, e1, e2,
    pickMin_legal⟩

end Verif
