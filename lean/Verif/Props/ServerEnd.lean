import Verif.Proofs.ServerEnd
import Verif.Props.ServerProgress

/-! # No dead ends: C70 -/

set_option linter.unusedSectionVars false

namespace Verif

open Spec

variable {N T K S : Type} [DecidableEq N] [DecidableEq T] [DecidableEq K] [DecidableEq S]
  {g : DGraph N T K} {cfg : SConf T} {σ : Server N T K S} {ks : List (Server.Tick N T S)}

/-- C70, partial.  The full claim has no `OrphanSafe` hypothesis and is false (`C70_false`): in whatever state
the server is, if from now on everybody behaves it comes to its end, and then all blocks have completed
except those that have already failed permanently or are downstream of one that has. -/
theorem C70_can_finish_partial [Nonempty N] (hg : g.OK) (hall : ∀ n ∈ g.nodes, g.task n ∈ cfg.served) (s : S)
    (h : SRun g cfg ks σ) (hx : OrphanSafe g (evs σ.out)) :
    ∃ ks' σ', SSteps g cfg σ ks' σ' ∧ σ'.stop = true ∧
      ∀ n ∈ g.nodes, Done (evs σ'.out) n ∨ Dead g (evs σ.out) n ∨ Orphan g (evs σ.out) n := by
  classical
  let pick : Nat → Finset N → N := fun _ s => if h : s.Nonempty then h.choose else Classical.arbitrary N
  have hp : LegalPick pick := by
    intro i s hs
    show (if h : s.Nonempty then h.choose else Classical.arbitrary N) ∈ s
    rw [dif_pos hs]
    exact hs.choose_spec
  obtain ⟨ks', σ', h1, h2, h3⟩ := can_finish hg hall s hp _ σ (h.inv hg) hx (le_refl _)
  refine ⟨ks', σ', h1, h2, ?_⟩
  intro n hn
  rcases ((C34_stop_means_finished_partial hg (h.steps h1) ((safe_dead h3 hx).exact hg (h.steps h1 |>.inv hg).run)).1 h2).1 n hn with h4 | h4 | ⟨f, h4, h5⟩
  · exact Or.inl h4
  · exact Or.inr (Or.inl ((h3 n).1 h4))
  · exact Or.inr (Or.inr ⟨f, (h3 f).1 h4, h5⟩)

/-- C70: when no block is ready or held, the counters alone decide: the server stops some day exactly if
`is_done()` is true for all tasks; clients, workers and time have no influence. -/
theorem C70_counters_decide [Nonempty N] (hg : g.Loose) (h : SRun g cfg ks σ) (hs : σ.stop = false)
    (hr : ∀ n, ¬ Ready g (evs σ.out) n) (hn : ∀ n, holder σ.out n = none) :
    (∃ ks' σ', SSteps g cfg σ ks' σ' ∧ σ'.stop = true) ↔ ∀ t ∈ g.tasks, (σ.sched.states t).isDone = true := by
  have hI := h.inv hg
  have ho : Over g σ := ⟨hr, fun n hc => (hI.held n).1 hc (hn n)⟩
  constructor
  · rintro ⟨ks', σ', h1, h2⟩
    rcases (over_steps hg h ho h1).2.2 h2 with h3 | h3
    · rw [hs] at h3; cases h3
    · exact h3
  · intro hd
    classical
    let pick : Nat → Finset N → N := fun _ s => if h : s.Nonempty then h.choose else Classical.arbitrary N
    have hp : LegalPick pick := by
      intro i s hs
      show (if h : s.Nonempty then h.choose else Classical.arbitrary N) ∈ s
      rw [dif_pos hs]
      exact hs.choose_spec
    have hgm : ∀ m s', (Server.Recv.closed : Server.Recv N T S) = .msg m s' → GoodMsg g cfg m := by
      intro m s' e; cases e
    have hgt : GoodTick g cfg (plainTick pick .closed true : Server.Tick N T S) := ⟨hgm, hp, fun _ => hp⟩
    obtain ⟨_, σ', _, e2, _⟩ := plain_iteration (cfg := cfg) hg hI hp hgm true
    have hst := over_chain hg ho (iteration_chain hg hI hgt e2)
    refine ⟨[plainTick pick .closed true], σ', SSteps.step _ SSteps.nil hs hgt e2, ?_⟩
    obtain ⟨σ1, σ2, _, _, h3⟩ := iteration_split e2
    have h3 : σ' = σ2.checkAll g := h3
    have hcs := checkAll_spec (g := g) σ2
    have hfr := checkAll_frame (g := g) σ2
    rw [← h3] at hcs hfr
    refine hcs.2.1.2 (Or.inr fun t ht => ?_)
    rw [← hfr.sched, hst.2.1]
    exact hd t ht

/-- C70 is false: in the execution of `C22_false`, seen from the server, all blocks are finished, nobody has a
block, and whatever happens from now on the server does not stop. -/
theorem C70_false : ∃ (g : DGraph (Fin 5) (Fin 1) (Fin 5)) (cfg : SConf (Fin 1))
    (ks : List (Server.Tick (Fin 5) (Fin 1) Nat)) (σ : Server (Fin 5) (Fin 1) (Fin 5) Nat),
    g.OK ∧ (∀ n ∈ g.nodes, g.task n ∈ cfg.served) ∧ SRun g cfg ks σ ∧ (∀ n, holder σ.out n = none) ∧
    (∀ n ∈ g.nodes, Done (evs σ.out) n ∨ Dead g (evs σ.out) n ∨ Orphan g (evs σ.out) n) ∧
    ∀ ks' σ', SSteps g cfg σ ks' σ' → σ'.stop = false := by
  have hx : (sexec Ex.fan Ex.conf1 (ticks [acq 0 7, acq 0 8, acq 0 9, ret 0 7, bad 1 8, acq 0 7, ret 3 7,
      bad 2 9])).map (fun σ => decide ((∀ n, holder σ.out n = none) ∧ (∀ n, ¬ Ready Ex.fan (evs σ.out) n) ∧
        σ.stop = false ∧ (σ.sched.states 0).isDone = false ∧ (∀ n, Done (evs σ.out) n ∨
          Dead Ex.fan (evs σ.out) n ∨ n = 4) ∧ Dead Ex.fan (evs σ.out) 1)) = some true := by
    decide +kernel
  obtain ⟨σ, h, e⟩ := sexec_run (S := Nat) (ticks_legal _) _ hx
  obtain ⟨e1, e2, e3, e4, e5, e6⟩ := of_decide_eq_true e
  refine ⟨Ex.fan, _, _, σ, Ex.fan_ok, by decide, h, e1, ?_, ?_⟩
  · intro n _
    rcases e5 n with h1 | h1 | rfl
    · exact Or.inl h1
    · exact Or.inr (Or.inl h1)
    · exact Or.inr (Or.inr ⟨1, e6, Relation.TransGen.single (by unfold Edge; decide)⟩)
  · intro ks' σ' h'
    cases hst : σ'.stop with
    | false => rfl
    | true =>
      have := (C70_counters_decide Ex.fan_ok h e3 e2 e1).1 ⟨ks', σ', h', hst⟩ 0 (by decide)
      rw [e4] at this
      cases this

/-- A state in the middle: the livelock of `C55_false`.  It is not a dead end for everybody: a client that
connects later could take block `3`. -/
example : ∃ (ks : List (Server.Tick (Fin 6) (Fin 3) Nat)) (σ : Server (Fin 6) (Fin 3) (Fin 6) Nat),
    Ex.three.OK ∧ (∀ n ∈ Ex.three.nodes, Ex.three.task n ∈ Ex.threeConf.served) ∧
    SRun Ex.three Ex.threeConf ks σ ∧ OrphanSafe Ex.three (evs σ.out) ∧ ¬ Done (evs σ.out) 5 ∧
    ∃ ks' σ', SSteps Ex.three Ex.threeConf σ ks' σ' ∧ σ'.stop = true ∧ Done (evs σ'.out) 5 := by
  have hx : (sexec Ex.three Ex.threeConf Ex.threeServe).map (fun σ => decide (
      (∀ n, ¬ Dead Ex.three (evs σ.out) n) ∧ ¬ Done (evs σ.out) 5)) = some true := by
    decide +kernel
  obtain ⟨σ, h, e⟩ := sexec_run (S := Nat) (ticks_legal _) _ hx
  obtain ⟨e1, e2⟩ := of_decide_eq_true e
  obtain ⟨ks', σ', a1, a2, a3⟩ := C70_can_finish_partial Ex.three_ok (cfg := Ex.threeConf) (by decide) 13 h
    (safe_of_two (by decide))
  refine ⟨_, σ, Ex.three_ok, by decide, h, safe_of_two (by decide), e2, ks', σ', a1, a2, ?_⟩
  rcases a3 5 (by decide) with h1 | h1 | ⟨f, h1, _⟩
  · exact h1
  · exact absurd h1 (e1 5)
  · exact absurd h1 (e1 f)

end Verif
