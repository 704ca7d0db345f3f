import Verif.Props.Queries
import Verif.Props.PlainFailures

/-! # C22: orphans are counted once as long as none of their upstream blocks has completed

The test `test_orphan_double_counting` (`tests/test_scheduler.py` 518-544) lets every block of one task fail, and demands
that failed and orphaned blocks add up to all blocks.  Here this is shown for all consistent graphs and all executions in
which nothing completes. -/

namespace Verif.Props

open Verif Verif.Spec Verif.Counted

variable {N T K : Type} [DecidableEq N] [DecidableEq T] [DecidableEq K] {g : DGraph N T K} {tr : List (Ev N)}
  {st : Sched N T K}

/-- C22, how wrong the count can be: an orphan is counted at most once, and once more for each of its direct upstream
blocks that has completed. -/
theorem C22_orphan_count_completed (hg : g.OK) (h : Run g tr st) (t : T) :
    ∃ o : N → Nat, (∀ m, o m ≤ 1 + (g.up m).countP (fun u => decide (Done tr u))) ∧
      (∀ m, 0 < o m → m ∈ g.nodes ∧ Orphan g tr m) ∧
      (st.states t).orphaned = (((g.nodes.filter fun m => g.task m = t).map o).sum : Nat) := by
  obtain ⟨o, q, hq⟩ := (C121_runs hg).1 h
  obtain ⟨-, h2, h3⟩ := C121_orphan_counts hg hq
  refine ⟨o, fun m => ?_, h2, h3 t⟩
  have hb : Degrees g ((g.nodes.map fun n => (g.up n).length).sum) ((g.nodes.map fun n => (g.down n).length).sum) :=
    ⟨fun n hn => List.single_le_sum (fun _ _ => Nat.zero_le _) _ (List.mem_map_of_mem hn),
      fun n hn => List.single_le_sum (fun _ _ => Nat.zero_le _) _ (List.mem_map_of_mem hn)⟩
  rcases Nat.eq_zero_or_pos (o m) with h0 | h0
  · rw [h0]; exact Nat.zero_le _
  · refine ((RunAsked.inv hg hb hq).pot m (h2 m h0).1).trans (Nat.add_le_add ?_ ?_)
    · split <;> omega
    · exact List.countP_mono_left fun u _ hd => decide_eq_true (of_dtrue hd).1

/-- `OrphanExact`, if no orphan has a direct upstream block that has completed, however many blocks have failed. -/
theorem exact_of_undone (hu : ∀ n, Orphan g tr n → ∀ u ∈ g.up n, ¬ Done tr u) : OrphanExact g tr := by
  intro n _
  refine Or.inr fun u hu' p hp _ _ _ _ h1 h2 _ => absurd h1 (hu n ?_ u hu')
  rcases h2 with h2 | ⟨f, h2, h3⟩
  · exact ⟨p, h2, .single hp⟩
  · exact ⟨f, h2, h3.tail hp⟩

/-- C22: if nothing has completed, and nothing is ready or out any more, then for every task failed and orphaned blocks add
up to all blocks, and the task is done. -/
theorem C22_all_fail (hg : g.OK) (h : Run g tr st) (hnd : ∀ n, ¬ Done tr n) (hr : st.getReadyTasks g = [])
    (hh : ∀ n, ¬ Held tr n) (t : T) :
    (st.states t).failed + (st.states t).orphaned = (st.states t).total ∧ (st.states t).isDone = true := by
  have hfin := C20_no_block_forgotten_partial hg h hr hh
  have hf := finished_count hg h t
  have h0 : cnt g t (fun n => ¬ (Done tr n ∨ Dead g tr n ∨ Orphan g tr n)) = 0 :=
    cnt_eq_zero.2 fun n hn _ => not_not.2 (hfin n hn)
  have hc : (st.states t).completed = 0 := by
    obtain ⟨_, _, h3, _⟩ := C19_counters_partial hg h t
    rw [h3]
    exact cnt_eq_zero.2 fun n _ _ => hnd n
  rw [← C22_orphan_count_partial hg h (exact_of_undone fun n _ u _ => hnd u) t, h0, hc] at hf
  refine ⟨by omega, ?_⟩
  unfold TState.isDone
  rw [hc]
  exact beq_iff_eq.2 (by omega)

section

open Verif.Ex Verif.Ex.Fail

/-- C22, not vacuous: 4 of 16 blocks fail for good, the others are orphans with up to four failed blocks before them, and
up to four direct upstream blocks. -/
example : ∃ tr st, (gridPipe 4 4).view.OK ∧ Run (gridPipe 4 4).view tr st ∧ (∀ n, ¬ Done tr n) ∧
    st.getReadyTasks (gridPipe 4 4).view = [] ∧ (∀ n, ¬ Held tr n) ∧ (st.states 0).failed = 4 ∧
    (st.states 0).orphaned = 12 := by
  have hx : (exec (gridPipe 4 4).view (gridPick 4 4) [.acq 0 [], .acq 0 [], .acq 0 [], .acq 0 [], .bad (gridBlk 4 4 1 1),
      .bad (gridBlk 4 4 3 1), .bad (gridBlk 4 4 1 3), .bad (gridBlk 4 4 3 3)]).map (fun p => decide (
      (∀ e ∈ p.1, ¬ Held p.1 e.node ∧ ¬ Done p.1 e.node) ∧ p.2.getReadyTasks (gridPipe 4 4).view = [] ∧
      (p.2.states 0).failed = 4 ∧ (p.2.states 0).orphaned = 12)) = some true := by decide +kernel
  obtain ⟨tr, st, h, e⟩ := exec_map (gridPick_legal 4 4) _ hx
  obtain ⟨e1, e2, e3, e4⟩ := of_decide_eq_true e
  refine ⟨tr, st, grid44.ok, h, ?_, e2, not_held_of fun x hx => (e1 x hx).1, e3, e4⟩
  intro n hn
  rcases hn with hn | hn
  · exact (e1 _ hn).2 (Or.inl hn)
  · exact (e1 _ hn).2 (Or.inr hn)

/-- The task of `test_orphan_double_counting`, `tests/test_scheduler.py` 522-530 (`max_retries` is 2 by default). -/
def doubleCounting : Task 2 := .node 0 ⟨r2 0 25 0 25, r2 0 7 0 7, r2 3 4 3 4, true, .valid, 2⟩ []

/-- C22: what `test_orphan_double_counting` demands, for every execution in which all blocks fail, in whatever order they
are handed out and released. -/
theorem C22_double_counting {p : Pipeline 2} (hb : Builds [doubleCounting] [doubleCounting] p)
    {tr : List (Ev (Block 2))} {st : Sched (Block 2) Nat (Nat × Int)} (h : Run p.view tr st) (hnd : ∀ n, ¬ Done tr n)
    (hr : st.getReadyTasks p.view = []) (hh : ∀ n, ¬ Held tr n) :
    (st.states 0).failed + (st.states 0).orphaned = (st.states 0).total := by
  refine (C22_all_fail (hb.ok ?_) h hnd hr hh 0).1
  refine plainTasks_of (L := [doubleCounting]) (by simp) (by simp [doubleCounting, TTree.requires]) (by simp) ?_ ?_ ?_
  · intro t ht
    rw [List.mem_singleton.1 ht]
    exact ⟨by decide, by decide, by decide, by decide, Or.inl (by decide), by decide⟩
  · intro t ht hr
    rw [List.mem_singleton.1 ht] at hr
    exact absurd rfl hr
  · intro t ht hr
    rw [List.mem_singleton.1 ht] at hr
    exact absurd rfl hr

end

end Verif.Props
