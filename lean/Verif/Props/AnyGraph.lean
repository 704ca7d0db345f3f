import Verif.Proofs.AnyGraph
import Verif.Proofs.PipelineRoots
import Verif.Props.Asymmetric

/-! # What holds for every pipeline, whether its links agree or not

The theorems about consistent dependency graphs say nothing about a pipeline like `Ex.asymB`.  The following parts
of C19, C25 and C26 hold for it, too: nothing is assumed about `upstream` and `downstream`. -/

namespace Verif

open Spec

section
variable {N T K : Type} [DecidableEq N] [DecidableEq T] [DecidableEq K] {g : DGraph N T K}
  {tr : List (Ev N)} {st st' : Sched N T K}

/-- C19 for every graph: the counters say how often something happened (which is how many blocks it happened to, if
it happens only once to each): `processing_count` is the number of times that blocks were handed out minus the number
of times they were released, `completed_count` the number of successful releases and skips, `skipped_count` the
number of skips, and `ready_count` the number of entries of the queue. -/
theorem C19_any_graph (hr : GoodRoots g) (h : Run g tr st) (t : T) :
    (st.states t).processing = (tally g t .hand tr : Int) - tally g t .good tr - tally g t .bad tr ∧
    (st.states t).completed = tally g t .good tr + tally g t .skip tr ∧
    (st.states t).skipped = tally g t .skip tr ∧
    (st.states t).ready = ((st.queues t).rootGen ++ (st.queues t).readyQueue).length ∧
    (t ∈ g.tasks → (st.states t).total = g.total t) := by
  have hi := h.tallied hr
  exact ⟨hi.processing t, hi.completed t, hi.skipped t, hi.ready t, hi.total t⟩

/-- C26 for every graph: if `acquire_block` returns `None`, then `ready_count` is zero at return (as the server
asserts), and a task is listed by `get_ready_tasks` iff `acquire_block` hands out or skips at least one block; what
it hands out or skips are blocks of the task. -/
theorem C26_any_graph (hr : GoodRoots g) (h : Run g tr st) {chk : Nat → N → Check} {t : T}
    (ht : t ∈ g.tasks ∨ t ∈ g.rootTasks) {skips : List N} {r : Option N}
    (hacq : st.acquireBlock g chk t = .ok (skips, r, st')) :
    (r = none → (st'.states t).ready = 0) ∧ (t ∈ st.getReadyTasks g ↔ skips ≠ [] ∨ r ≠ none) ∧
    ∀ n, n ∈ skips ∨ r = some n → g.task n = t := by
  obtain ⟨more, e1, -, e3, e4, e5, e6⟩ := acquireLoop_tallied t chk _ _ (h.tallied hr) hacq
  rw [List.nil_append] at e1
  subst e1
  refine ⟨e5, ?_, ?_⟩
  · rw [← e6]
    unfold Sched.getReadyTasks
    rw [List.mem_filter, decide_eq_true_eq]
    refine ⟨fun h => h.2, fun h => ⟨?_, h⟩⟩
    unfold Sched.stateKeys
    rw [List.mem_append, List.mem_filter, decide_eq_true_eq]
    by_cases hx : t ∈ g.rootTasks
    · exact Or.inl hx
    · exact Or.inr ⟨ht.resolve_right hx, hx⟩
  · rintro n (hn | hn)
    · exact e3 n hn
    · exact e4 n hn

/-- C25 for every graph and every state: `acquire_block` skips exactly the blocks that the check function accepts,
and never hands out a block that it accepts. -/
theorem C25_any_graph {chk : Nat → N → Check} {t : T} {skips : List N} {r : Option N}
    (hacq : st.acquireBlock g chk t = .ok (skips, r, st')) :
    (∀ i x, skips[i]? = some x → chk i x = .accept) ∧
    ∀ n, r = some n → chk skips.length n = .reject ∨ chk skips.length n = .raises := by
  obtain ⟨more, e1, e2, e3⟩ := acquireLoop_checks t chk _ _ hacq
  rw [List.nil_append] at e1
  subst e1
  refine ⟨fun i x hx => by have := e2 i x hx; rwa [Nat.zero_add] at this, fun n hn => ?_⟩
  have := e3 n hn
  rw [Nat.zero_add] at this
  cases hc : chk skips.length n
  · exact absurd hc this
  · exact Or.inl rfl
  · exact Or.inr rfl

end

/-- The pipeline for which the theorems about consistent graphs fail meets the hypotheses. -/
example : GoodRoots (Ex.pipe [Ex.asymB]).view := by
  obtain ⟨_, h1, h2, h3, h4⟩ := Ex.asym_witness
  exact Pipeline.goodRoots h1 h2 h3 h4

/-- A skip in it: the check function accepts a block of task 0. -/
example : ∃ skips r st', (Sched.init (Ex.pipe [Ex.asymB]).view).acquireBlock (Ex.pipe [Ex.asymB]).view
    (fun k _ => if k = 0 then .accept else .raises) 0 = .ok (skips, r, st') ∧ skips = [Ex.blk1 0 0 1 0 1 0] ∧
    r = some (Ex.blk1 0 1 2 1 2 1) := by
  have hx : (match (Sched.init (Ex.pipe [Ex.asymB]).view).acquireBlock (Ex.pipe [Ex.asymB]).view
      (fun k _ => if k = 0 then .accept else .raises) 0 with
      | .ok (skips, r, _) => some (skips, r)
      | .error _ => none) = some ([Ex.blk1 0 0 1 0 1 0], some (Ex.blk1 0 1 2 1 2 1)) := by decide +kernel
  revert hx
  rcases (Sched.init (Ex.pipe [Ex.asymB]).view).acquireBlock (Ex.pipe [Ex.asymB]).view
      (fun k _ => if k = 0 then .accept else .raises) 0 with e | ⟨skips, r, st'⟩
  · intro hx
    cases hx
  · intro hx
    obtain ⟨h1, h2⟩ := Prod.mk.inj (Option.some.inj hx)
    exact ⟨skips, r, st', rfl, h1, h2⟩

end Verif
