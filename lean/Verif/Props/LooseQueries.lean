import Verif.Props.Queries
import Verif.Props.StarvedServers

/-! # C121 for graphs with blocks that depend on nothing although their task depends on others -/

set_option linter.unusedSectionVars false

namespace Verif.Props

open Verif Verif.Spec Verif.Counted

variable {N T K : Type} [DecidableEq N] [DecidableEq T] [DecidableEq K] {g : DGraph N T K} {tr : List (Ev N)}
  {st : Sched N T K} {U D : Nat}

private theorem held_node (hg : g.Loose) (h : Run g tr st) {n : N} (hn : Held tr n) : n ∈ g.nodes :=
  ((run_lift hg h).2.2 _ (List.count_pos_iff.1 (by unfold Held at hn; omega) : Ev.hand n ∈ tr)).1

/-- C121, as `C121_success`. -/
theorem C121_loose_success (hg : g.Loose) (hb : Degrees g U D) (h : Run g tr st) {n : N} (hn : Held tr n)
    (pick : Nat → Finset N → N) :
    (Counted.releaseBlock g pick st n .success).asks ≤ 3 + 2 * D + U * (1 + D) := by
  have hnn := held_node hg h hn
  obtain ⟨⟨st', h1⟩, _⟩ := (C24_loose_partial hg h).2 (fun _ s => if h : s.Nonempty then h.choose else n) n
    (fun _ s hs => by simp only [dif_pos hs]; exact hs.choose_spec) hn
  have h1' : st.releaseBlock g pick n .success = .ok st' := h1
  rw [(release_success h1').2]
  exact markSuccess_asks st.rs n (hb.up n hnn) (hb.down n hnn) fun u hu => hb.down u (hg.up_mem n hnn u hu)

/-- C121, as `C121_failure`. -/
theorem C121_loose_failure (hg : g.Loose) (hb : Degrees g U D) (h : Run g tr st) {n : N} (hn : Held tr n)
    {pick : Nat → Finset N → N} (hp : LegalPick pick) :
    (Counted.releaseBlock g pick st n .failed).asks ≤
      3 + D + U * (1 + D) + (1 + D) * (st.orphansOf g pick n .failed).card := by
  have hnn := held_node hg h hn
  obtain ⟨_, ⟨st', h1⟩⟩ := (C24_loose_partial hg h).2 pick n hp hn
  by_cases hmax : g.maxRetries (g.task n) ≤ (st.queues (g.task n)).retries (g.key n)
  · obtain ⟨os, e1, e2, e3, e4⟩ := release_dead_asks hmax h1
    rw [e2, e3]
    exact markFailure_asks hg.down_mem hb.down pick hnn (hg.up_mem n hnn) (hb.up n hnn) e1
  · rw [(release_retry_asks hmax).1]
    exact Nat.zero_le _

/-- In `barren`, whose block 2 is starved and whose blocks have at most one upstream and one downstream block, block 0
is out for the second time. -/
example : ∃ (tr : List (Ev (Fin 5))) (st : Sched (Fin 5) (Fin 3) (Fin 5)), Ex.barren.Loose ∧ Degrees Ex.barren 1 1 ∧
    Run Ex.barren tr st ∧ Held tr 0 ∧ Starved Ex.barren 2 := by
  have hx : (sexec Ex.barren Ex.barrenConf (ticks [acq 0 (7 : Nat), bad 0 7, acq 0 7])).map
      (fun σ => decide (Held (evs σ.out) 0)) = some true := by decide +kernel
  obtain ⟨σ, h, e⟩ := sexec_run (ticks_legal _) _ hx
  exact ⟨_, _, Ex.barren_loose, ⟨by decide, by decide⟩, (h.inv Ex.barren_loose).run, of_decide_eq_true e,
    ⟨List.mem_finRange _, rfl, by decide⟩⟩

end Verif.Props
