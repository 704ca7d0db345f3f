import Verif.Props.Starved
import Verif.Props.Serial
import Verif.Props.ServerStop
import Verif.Props.ServerProgress
import Verif.Proofs.ServerEnd

/-! # What the servers do with blocks that can never get ready: C27

The server of `daisy/server.py` ends its loop when all tasks are done (lines 132-142), so that a block that is never
handed out keeps it going forever; the one of `daisy/serial_server.py` ends as soon as no block is ready. -/

set_option linter.unusedSectionVars false

namespace Verif

open Spec

variable {N T K : Type} [DecidableEq N] [DecidableEq T] [DecidableEq K] {g : DGraph N T K}

/-- If only starved blocks are ready and nobody holds a block. -/
theorem starved_idle (hg : g.Loose) {tr : List (Ev N)} (hidle : ∀ n, Ready g tr n → Starved g n) (hh : ∀ n, ¬ Held tr n) :
    ∀ n ∈ g.nodes, Done tr n ∨ Dead g tr n ∨ Orphan g tr n ∨ Hungry g n := by
  intro n hn
  by_contra hc
  rw [not_or, not_or, not_or] at hc
  obtain ⟨c1, c2, c3, c4⟩ := hc
  have hhf : ∀ x, ¬ Held (tr.map Ev.lift) x := by
    rintro (_ | x)
    · exact not_held_none
    · rw [held_lift]; exact hh x
  have hrf : ∀ x, ¬ Ready g.fed (tr.map Ev.lift) (some x) := by
    intro x hx
    rw [ready_lift] at hx
    exact hx.2 (hidle x hx.1)
  obtain ⟨a, ha1, ha2⟩ := ready_ancestor (fed_ok hg) hhf (mem_fed.2 hn) (by rw [done_lift]; exact c1)
    (by rw [dead_lift]; exact c2) (by rw [orphan_lift]; exact c3) (hrf n)
  rcases a with _ | a
  · exact c4 (anc_none.1 ha1)
  · exact hrf a ha2

section more

variable {S : Type} [DecidableEq S] {cfg : SConf T} {σ : Server N T K S}

/-- Something can be done, or what is left is starved. -/
theorem one_more_loose (hg : g.Loose) (hall : ∀ n ∈ g.nodes, g.task n ∈ cfg.served) (s : S)
    {pick : Nat → Finset N → N} (hp : LegalPick pick) (hI : SInv g σ) :
    (∃ k σ' e, GoodTick g cfg k ∧ σ.iteration g cfg k = .ok σ' ∧ evs σ'.out = evs σ.out ++ [e] ∧
      ∀ n, e ≠ .bad n) ∨
    ((∀ n, holder σ.out n = none) ∧ ∀ n, Ready g (evs σ.out) n → Starved g n) := by
  by_cases hh : ∃ n s, holder σ.out n = some s
  · obtain ⟨n, s', hn⟩ := hh
    obtain ⟨a1, σ', a2, a3⟩ := finish_release (cfg := cfg) hg hI hp hn
    exact Or.inl ⟨_, σ', _, a1, a2, a3, by simp⟩
  by_cases hr : ∃ m, Ready g (evs σ.out) m ∧ ¬ Starved g m
  · obtain ⟨m, hm, hs⟩ := hr
    obtain ⟨a1, σ', n, a2, a3⟩ := finish_loose (cfg := cfg) hg hI hp s hm hs (hall m hm.1)
    exact Or.inl ⟨_, σ', _, a1, a2, a3, by simp⟩
  right
  refine ⟨fun n => ?_, fun n hn => ?_⟩
  · cases ho : holder σ.out n with
    | none => rfl
    | some s => exact absurd ⟨n, s, ho⟩ hh
  · by_contra hc
    exact hr ⟨n, hn, hc⟩

/-- The number of events is bounded. -/
theorem loose_finite (hg : g.Loose) : ∃ B, ∀ {tr : List (Ev N)} {st : Sched N T K}, Run g tr st → tr.length ≤ B := by
  refine ⟨(g.fed.nodes.map (fun n => 2 * ((g.fed.maxRetries (g.fed.task n)).toNat + 1) + 1)).sum, fun {tr st} h => ?_⟩
  have := C24_finite_partial (fed_ok hg) (run_lift hg h).1
  rw [List.length_map] at this
  exact this

/-- All that is not starved can be done without any further failure. -/
theorem can_process (hg : g.Loose) (hall : ∀ n ∈ g.nodes, g.task n ∈ cfg.served) (s : S)
    {pick : Nat → Finset N → N} (hp : LegalPick pick) {B : Nat}
    (hB : ∀ {tr : List (Ev N)} {st : Sched N T K}, Run g tr st → tr.length ≤ B) :
    ∀ (d : Nat) (σ : Server N T K S), SInv g σ → B - (evs σ.out).length ≤ d →
      ∃ ks' σ', SSteps g cfg σ ks' σ' ∧ (∀ n, Dead g (evs σ'.out) n ↔ Dead g (evs σ.out) n) ∧
        (σ'.stop = true ∨ ((∀ n, holder σ'.out n = none) ∧ ∀ n, Ready g (evs σ'.out) n → Starved g n)) := by
  intro d
  induction d with
  | zero =>
    intro σ h hd
    rcases one_more_loose hg hall s hp h with ⟨k, σ', e, h1, h2, h3, h4⟩ | h1
    · have := hB (h.iteration hg h1 h2).run
      rw [h3, List.length_append, List.length_singleton] at this
      omega
    · exact ⟨[], σ, SSteps.nil, fun _ => Iff.rfl, Or.inr h1⟩
  | succ d ih =>
    intro σ h hd
    cases hs : σ.stop with
    | true => exact ⟨[], σ, SSteps.nil, fun _ => Iff.rfl, Or.inl hs⟩
    | false =>
      rcases one_more_loose hg hall s hp h with ⟨k, σ', e, h1, h2, h3, h4⟩ | h1
      · have hdead : ∀ n, Dead g (evs σ'.out) n ↔ Dead g (evs σ.out) n := fun n => by
          rw [h3]; exact dead_snoc h4 n
        obtain ⟨ks', σ'', i1, i2, i3⟩ := ih σ' (h.iteration hg h1 h2)
          (by rw [h3, List.length_append, List.length_singleton]; omega)
        exact ⟨[k] ++ ks', σ'', (SSteps.step k SSteps.nil hs h1 h2 : SSteps g cfg σ ([] ++ [k]) σ').trans i1,
          fun n => (i2 n).trans (hdead n), i3⟩
      · exact ⟨[], σ, SSteps.nil, fun _ => Iff.rfl, Or.inr h1⟩

end more

namespace Ex

/-- Block 0 of task 0, and the blocks 1 and 2 of task 1, of which only block 1 has an upstream block; block 3 of task 2
depends on block 1 and block 4 of that task on block 2. -/
def barren : DGraph (Fin 5) (Fin 3) (Fin 5) :=
  finGraph 5 3 (fun n => match n with | 1 => [0] | 3 => [1] | 4 => [2] | _ => [])
    (fun n => match n with | 0 => 0 | 1 => 1 | 2 => 1 | _ => 2) (fun _ => 1) [0]

theorem barren_loose : barren.Loose where
  nodes_nodup := List.nodup_finRange _
  up_mem := fun _ _ m _ => List.mem_finRange m
  down_mem := fun _ _ m _ => List.mem_finRange m
  up_nodup := by decide
  down_nodup := by decide
  dual := by decide
  acyclic := ⟨fun n => n.1, by decide⟩
  key_inj := fun _ _ _ _ h => h
  tasks_nodup := List.nodup_finRange _
  task_mem := fun n _ => List.mem_finRange _
  total_eq := fun t _ => ⟨(List.finRange 5).filter (fun n => barren.task n = t),
    (List.nodup_finRange _).filter _, by intro n; simp [barren, finGraph], rfl⟩
  rootTasks_nodup := by decide
  rootTasks_mem := fun t _ => List.mem_finRange t
  numRoots_eq := fun t _ => rfl
  rootGen_nodup := fun t _ => (List.nodup_finRange _).filter _
  rootGen_mem := by decide

def barrenConf : SConf (Fin 3) := ⟨[2, 1, 0], fun _ => none⟩

/-- Blocks 0 and 1 of task 0; blocks 2 and 3 of task 1, of which 2 depends on 0 and 3 on nothing; blocks 4 and 5 of task
2, which depend on 0 and 1. -/
def mixed : DGraph (Fin 6) (Fin 3) (Fin 6) :=
  finGraph 6 3 (fun n => match n with | 2 => [0] | 4 => [0] | 5 => [1] | _ => [])
    (fun n => if n < 2 then 0 else if n < 4 then 1 else 2) (fun _ => 1) [0]

theorem mixed_loose : mixed.Loose where
  nodes_nodup := List.nodup_finRange _
  up_mem := fun _ _ m _ => List.mem_finRange m
  down_mem := fun _ _ m _ => List.mem_finRange m
  up_nodup := by decide
  down_nodup := by decide
  dual := by decide
  acyclic := ⟨fun n => n.1, by decide⟩
  key_inj := fun _ _ _ _ h => h
  tasks_nodup := List.nodup_finRange _
  task_mem := fun n _ => List.mem_finRange _
  total_eq := fun t _ => ⟨(List.finRange 6).filter (fun n => mixed.task n = t),
    (List.nodup_finRange _).filter _, by intro n; simp [mixed, finGraph], rfl⟩
  rootTasks_nodup := by decide
  rootTasks_mem := fun t _ => List.mem_finRange t
  numRoots_eq := fun t _ => rfl
  rootGen_nodup := fun t _ => (List.nodup_finRange _).filter _
  rootGen_mem := by decide

def mixedConf : SConf (Fin 3) := ⟨[0, 1, 2], fun _ => none⟩

/-- The worker of task 0 is 10, that of task 1 is 11 and that of task 2 is 12. -/
def mixedServe : List (Server.Tick (Fin 6) (Fin 3) Nat) :=
  ticks [acq 0 10, ret 0 10, acq 1 11, acq 2 12, ret 2 11, acq 1 11, ret 4 12, acq 2 12, acq 0 10, ret 1 10, acq 0 10]

end Ex

end Verif

namespace Verif.Props

open Verif Spec

section server

variable {N T K S : Type} [DecidableEq N] [DecidableEq T] [DecidableEq K] [DecidableEq S] {g : DGraph N T K}
variable {cfg : SConf T} {ks : List (Server.Tick N T S)} {σ : Server N T K S}

/-- C27: whatever the clients do and whatever the outcomes, a block that is starved or comes after a starved block is
never sent to anyone; and unless a block before it is lost for good, the server does not end, and its task is never
reported as done. -/
theorem C27_server_waits (hg : g.Loose) (h : SRun g cfg ks σ) (hx : OrphanExact g (evs σ.out)) {n : N} (hn : n ∈ g.nodes)
    (hu : Hungry g n) :
    (∀ s, .send s n ∉ σ.out) ∧ .skip n ∉ σ.out ∧
    (¬ Orphan g (evs σ.out) n → σ.stop = false ∧ g.task n ∉ σ.finished) := by
  have hi := h.inv hg
  have hnev := C27_hungry_never hg hi.run hu
  have hso := h.stopOK hg
  have hfin : ¬ Orphan g (evs σ.out) n → ¬ TaskFinished g (evs σ.out) (g.task n) := by
    intro ho hf
    rcases hf n hn rfl with (h1 | h1) | h1 | h1
    · exact hnev _ h1 rfl
    · exact hnev _ h1 rfl
    · exact hnev _ h1.1 rfl
    · exact ho h1
  refine ⟨fun s hs => ?_, fun hs => ?_, fun ho => ⟨?_, fun hf => hfin ho (hso.finished _ hf hx)⟩⟩
  · exact hnev (.hand n) (List.mem_filterMap.2 ⟨_, hs, rfl⟩) rfl
  · exact hnev (.skip n) (List.mem_filterMap.2 ⟨_, hs, rfl⟩) rfl
  · by_contra hc
    exact hfin ho (hso.stop (by simpa using hc) hx _ (hg.task_mem n hn))

/-- Blocks 0, 1 and 3 have been processed (block 0 on the second attempt); blocks 2 and 4 remain. -/
example : ∃ (ks : List (Server.Tick (Fin 5) (Fin 3) Nat)) (σ : Server (Fin 5) (Fin 3) (Fin 5) Nat),
    Ex.barren.Loose ∧ SRun Ex.barren Ex.barrenConf ks σ ∧ OrphanExact Ex.barren (evs σ.out) ∧
    Starved Ex.barren 2 ∧ Hungry Ex.barren 4 ∧ ¬ Orphan Ex.barren (evs σ.out) 2 ∧ Done (evs σ.out) 3 ∧
    Ev.bad 0 ∈ evs σ.out ∧ σ.sched.getReadyTasks Ex.barren = [] := by
  have hx : (sexec Ex.barren Ex.barrenConf (ticks [acq 0 7, bad 0 7, acq 0 7, ret 0 7, acq 1 8, ret 1 8,
      acq 2 9, ret 3 9])).map (fun σ => decide ((∀ n, ¬ Dead Ex.barren (evs σ.out) n) ∧ Done (evs σ.out) 3 ∧
        Ev.bad 0 ∈ evs σ.out ∧ σ.sched.getReadyTasks Ex.barren = [])) = some true := by decide +kernel
  obtain ⟨σ, h, e⟩ := sexec_run (ticks_legal _) _ hx
  obtain ⟨e1, e2, e3, e4⟩ := of_decide_eq_true e
  have hst : Starved Ex.barren 2 := ⟨List.mem_finRange _, rfl, by decide⟩
  exact ⟨_, σ, Ex.barren_loose, h, exact_of_one fun _ _ f _ hf _ _ _ => absurd hf (e1 f), hst,
    ⟨2, hst, Or.inr (.single (by decide : (2 : Fin 5) ∈ Ex.barren.up 4))⟩, fun ⟨f, h, _⟩ => e1 f h, e2, e3, e4⟩

/-- C27: if no block fails, a server that serves a graph with a starved block never ends. -/
theorem C27_server_never_ends (hg : g.Loose) (h : SRun g cfg ks σ) (hbad : ∀ n, .release n .failed ∉ σ.out) {n : N}
    (hn : Starved g n) : σ.stop = false := by
  have hb : ∀ m, .bad m ∉ evs σ.out := by
    intro m hm
    obtain ⟨o, ho, e⟩ := List.mem_filterMap.1 hm
    cases o with
    | release n status =>
      cases status <;> simp only [toEv, reduceCtorEq, Option.some.injEq, Ev.bad.injEq] at e
      subst e
      exact hbad _ ho
    | _ => simp [toEv] at e
  refine ((C27_server_waits hg h (exact_of_no_bad hb) hn.1 ⟨n, hn, Or.inl rfl⟩).2.2 ?_).1
  rintro ⟨f, hf, _⟩
  exact hb f hf.1

example : ∃ (ks : List (Server.Tick (Fin 5) (Fin 3) Nat)) (σ : Server (Fin 5) (Fin 3) (Fin 5) Nat),
    Ex.barren.Loose ∧ SRun Ex.barren Ex.barrenConf ks σ ∧ (∀ n, .release n .failed ∉ σ.out) ∧
    Starved Ex.barren 2 ∧ Done (evs σ.out) 3 := by
  have hx : (sexec Ex.barren Ex.barrenConf (ticks [acq 0 7, ret 0 7, acq 1 8, ret 1 8, acq 2 9, ret 3 9])).map
      (fun σ => decide ((∀ n, .release n .failed ∉ σ.out) ∧ Done (evs σ.out) 3)) = some true := by decide +kernel
  obtain ⟨σ, h, e⟩ := sexec_run (ticks_legal _) _ hx
  obtain ⟨e1, e2⟩ := of_decide_eq_true e
  exact ⟨_, σ, Ex.barren_loose, h, e1, ⟨List.mem_finRange _, rfl, by decide⟩, e2⟩

/-- C27, C70: in whatever state the server is, there is a continuation in which all blocks complete, except those that
have failed permanently, those after them, and those that are starved or after a starved block.  Missing: that the blocks
complete in every fair continuation, which is false (`C27_false_others`). -/
theorem C27_server_rest_partial [Nonempty N] (hg : g.Loose) (hall : ∀ n ∈ g.nodes, g.task n ∈ cfg.served) (s : S)
    (h : SRun g cfg ks σ) (hx : OrphanSafe g (evs σ.out)) :
    ∃ ks' σ', SSteps g cfg σ ks' σ' ∧ (∀ n, holder σ'.out n = none) ∧
      ∀ n ∈ g.nodes, Done (evs σ'.out) n ∨ Dead g (evs σ.out) n ∨ Orphan g (evs σ.out) n ∨ Hungry g n := by
  classical
  let pick : Nat → Finset N → N := fun _ s => if h : s.Nonempty then h.choose else Classical.arbitrary N
  have hp : LegalPick pick := by
    intro i s hs
    show (if h : s.Nonempty then h.choose else Classical.arbitrary N) ∈ s
    rw [dif_pos hs]
    exact hs.choose_spec
  obtain ⟨B, hB⟩ := loose_finite hg
  obtain ⟨ks', σ', h1, h2, h3⟩ := can_process hg hall s hp hB _ σ (h.inv hg) (le_refl _)
  have hr := h.steps h1
  have hback : ∀ n, Orphan g (evs σ'.out) n → Orphan g (evs σ.out) n :=
    fun n ⟨f, h4, h5⟩ => ⟨f, (h2 f).1 h4, h5⟩
  refine ⟨ks', σ', h1, ?_⟩
  rcases h3 with h3 | ⟨h3, h4⟩
  · have hf := (C34_stop_means_finished_partial hg hr
      ((safe_dead h2 hx).of_disjoint fun n => (C19_loose_disjoint_partial hg (hr.inv hg).run n).2.2.1)).1 h3
    refine ⟨hf.2, fun n hn => ?_⟩
    rcases hf.1 n hn with h5 | h5 | h5
    · exact Or.inl h5
    · exact Or.inr (Or.inl ((h2 n).1 h5))
    · exact Or.inr (Or.inr (Or.inl (hback n h5)))
  · refine ⟨h3, fun n hn => ?_⟩
    have hh : ∀ n, ¬ Held (evs σ'.out) n := fun n hc => ((hr.inv hg).held n).1 hc (h3 n)
    rcases starved_idle hg h4 hh n hn with h5 | h5 | h5 | h5
    · exact Or.inl h5
    · exact Or.inr (Or.inl ((h2 n).1 h5))
    · exact Or.inr (Or.inr (Or.inl (hback n h5)))
    · exact Or.inr (Or.inr (Or.inr h5))

/-- Also in the state of `C27_false_others`: somebody only has to ask again. -/
example : ∃ (ks : List (Server.Tick (Fin 6) (Fin 3) Nat)) (σ : Server (Fin 6) (Fin 3) (Fin 6) Nat),
    Ex.mixed.Loose ∧ (∀ n ∈ Ex.mixed.nodes, Ex.mixed.task n ∈ Ex.mixedConf.served) ∧ SRun Ex.mixed Ex.mixedConf ks σ ∧
    OrphanSafe Ex.mixed (evs σ.out) ∧ Ready Ex.mixed (evs σ.out) 5 := by
  have hx : (sexec Ex.mixed Ex.mixedConf Ex.mixedServe).map (fun σ => decide (
      (∀ n, .bad n ∉ evs σ.out) ∧ Ready Ex.mixed (evs σ.out) 5)) = some true := by decide +kernel
  obtain ⟨σ, h, e⟩ := sexec_run (S := Nat) (ticks_legal _) _ hx
  obtain ⟨e1, e2⟩ := of_decide_eq_true e
  exact ⟨_, σ, Ex.mixed_loose, by decide, h, safe_of_one (fun n _ f _ hf => absurd hf.1 (e1 f)), e2⟩

/-- C27: a starved block does not only keep the server from ending, it can also keep blocks of unrelated tasks from being
processed, although upstream tasks are listed first: worker 11 waits for a block of task 1, which will never be ready, so
that the request of worker 12, which is delayed too, is never looked at again, although block 5 of its task is ready. -/
theorem C27_false_others : ∃ (g : DGraph (Fin 6) (Fin 3) (Fin 6)) (cfg : SConf (Fin 3)) (trank : Fin 3 → Nat)
    (ks : List (Server.Tick (Fin 6) (Fin 3) Nat)) (σ : Server (Fin 6) (Fin 3) (Fin 6) Nat),
    g.Loose ∧ TaskOrder g trank ∧ cfg.served.Pairwise (fun a b => trank a ≤ trank b) ∧ SRun g cfg ks σ ∧
    (∀ n, holder σ.out n = none) ∧ (∀ n, .bad n ∉ evs σ.out) ∧ Ready g (evs σ.out) 5 ∧ ¬ Hungry g 5 ∧
    (∀ n, g.task n = g.task 5 → ¬ Hungry g n) ∧ σ.pending (g.task 5) = [12] ∧ .shutdown 10 0 ∈ σ.out ∧
    ∀ ks' σ', (∀ k ∈ ks', k.recv = .nothing) → SSteps g cfg σ ks' σ' →
      σ'.stop = false ∧ evs σ'.out = evs σ.out ∧ ∀ t s, answers g t s σ'.out = answers g t s σ.out := by
  have hx : (sexec Ex.mixed Ex.mixedConf Ex.mixedServe).map (fun σ => decide (
      (∀ n, holder σ.out n = none) ∧ (∀ n, .bad n ∉ evs σ.out) ∧ Ready Ex.mixed (evs σ.out) 5 ∧
      (∀ t, σ.pending t = if t = 0 then [] else if t = 1 then [11] else [12]) ∧
      .shutdown 10 0 ∈ σ.out ∧ σ.stop = false ∧
      (∀ n, Ex.mixed.task n = 1 → Ready Ex.mixed (evs σ.out) n → n = 3) ∧ ¬ Done (evs σ.out) 3)) = some true := by
    decide +kernel
  obtain ⟨σ, h, e⟩ := sexec_run (S := Nat) (ticks_legal _) _ hx
  obtain ⟨e1, e2, e3, e4, e5, e6, e7, e8⟩ := of_decide_eq_true e
  have hst : Starved Ex.mixed 3 := ⟨List.mem_finRange _, rfl, by decide⟩
  have hun : ∀ n, Ex.mixed.task n = 2 → ¬ Hungry Ex.mixed n := by
    rintro n hn ⟨s, h1, h2⟩
    have h3 : s = 3 := by
      have : ∀ s : Fin 6, Ex.mixed.up s = [] ∧ Ex.mixed.task s ∉ Ex.mixed.rootTasks → s = 3 := by decide
      exact this s h1.2
    subst h3
    rcases h2 with rfl | h2
    · exact absurd hn (by decide)
    · obtain ⟨b, hb, _⟩ := Relation.TransGen.head'_iff.1 h2
      have : ∀ b : Fin 6, (3 : Fin 6) ∉ Ex.mixed.up b := by decide
      exact this b hb
  refine ⟨Ex.mixed, Ex.mixedConf, fun t => if t = 0 then 0 else 1, _, σ, Ex.mixed_loose, ?_, by decide, h, e1, e2, e3,
    hun 5 rfl, fun n hn => hun n hn, by rw [e4]; rfl, e5, ?_⟩
  · intro n _ u hu
    revert n u
    decide
  · intro ks' σ' hidle h'
    have := C27_stuck Ex.mixed_loose h (exact_of_no_bad e2) e1 e6 (pre := [0]) (post := [2]) (t := 1) rfl
      (by intro x hx; rw [List.mem_singleton.1 hx, e4]; rfl) (by rw [e4]; decide)
      (fun n h1 h2 => by rw [e7 n h1 h2]; exact hst) (n := 3) (List.mem_finRange _) rfl e8 (fun hd => e2 _ hd.1)
      (fun ⟨f, hf, _⟩ => e2 _ hf.1) hidle h'
    exact ⟨this.2.1, this.1, this.2.2.1⟩

end server

section serial

variable {N T K : Type} [DecidableEq N] [DecidableEq T] [DecidableEq K] {g : DGraph N T K}
variable {served : List T} {ks : List (SerTick N T)} {σ : Serial N T K}

/-- C27, C37: with process functions that never fail and without check functions, `run_blockwise` of the serial server has
called the process function, when it returns, exactly once for every block that is neither starved nor after a starved
block, and for no other; and the tasks that are done are those without such blocks. -/
theorem C27_serial_exactly (hg : g.Loose) (hs : ∀ t ∈ g.tasks, t ∈ served) (h : SerRun g served ks σ)
    (hk : ∀ k ∈ ks, SerTick.Succeeds k ∧ SerTick.NoSkips k) (hend : σ.ended = true) :
    (∀ n ∈ g.nodes, (Hungry g n → .call n ∉ σ.out) ∧ (¬ Hungry g n → σ.out.count (.call n) = 1)) ∧
    (∀ n, .call n ∈ σ.out → n ∈ g.nodes) ∧
    (∀ t ∈ g.tasks, (σ.sched.states t).isDone = true ↔ ∀ n ∈ g.nodes, g.task n = t → ¬ Hungry g n) := by
  have hi := h.inv hg
  have hbad := no_bad hg h (fun k hk' => (hk k hk').1)
  have hskip := no_skip hg h (fun k hk' => (hk k hk').2)
  have hx := exact_of_no_bad (g := g) hbad
  have hnev := fun n (hu : Hungry g n) => C27_hungry_never hg hi.run hu
  have hall : ∀ n ∈ g.nodes, Done (serEvs σ.out) n ∨ Hungry g n := by
    intro n hn
    have hfin : Done (serEvs σ.out) n ∨ Dead g (serEvs σ.out) n ∨ Orphan g (serEvs σ.out) n ∨ Hungry g n := by
      rcases hi.ended hend with h1 | h1
      · rcases hi.fin hx _ (h1 _ (hs _ (hg.task_mem n hn))) n hn rfl with h2 | h2 | h2
        · exact Or.inl h2
        · exact Or.inr (Or.inl h2)
        · exact Or.inr (Or.inr (Or.inl h2))
      · exact starved_idle hg (h1 (fun x hx => absurd hx (hskip x))) hi.idle n hn
    rcases hfin with h1 | h1 | ⟨f, h1, _⟩ | h1
    · exact Or.inl h1
    · exact absurd h1.1 (hbad n)
    · exact absurd h1.1 (hbad f)
    · exact Or.inr h1
  have hnd : ∀ n, Hungry g n → ¬ Done (serEvs σ.out) n := by
    rintro n hu (h1 | h1) <;> exact hnev n hu _ h1 rfl
  refine ⟨?_, ?_, ?_⟩
  · intro n hn
    refine ⟨fun hu hm => hnev n hu _ ((mem_hand _ _).2 hm) rfl, fun hu => ?_⟩
    rw [count_call]
    exact hand_once hg hi hbad (((hall n hn).resolve_right hu).resolve_right (hskip n))
  · intro n hn
    exact (hi.run.facts hg).node _ ((mem_hand _ _).2 hn)
  · intro t _
    rw [C22_loose_is_done_partial hg hi.run hx]
    constructor
    · intro h1 n hn ht hu
      rcases h1 n hn ht with h2 | h2 | ⟨f, h2, _⟩
      · exact hnd n hu h2
      · exact hbad _ h2.1
      · exact hbad _ h2.1
    · intro h1 n hn ht
      exact Or.inl ((hall n hn).resolve_right (h1 n hn ht))

/-- The serial server on the same graph: it returns after the blocks 0, 1 and 3. -/
example : Ex.barren.Loose ∧ (∀ t ∈ Ex.barren.tasks, t ∈ [(2 : Fin 3), 1, 0]) ∧
    ∃ ks σ, SerRun Ex.barren [2, 1, 0] ks σ ∧ (∀ k ∈ ks, SerTick.Succeeds k ∧ SerTick.NoSkips k) ∧
      σ.ended = true ∧ .call 0 ∈ σ.out ∧ .call 1 ∈ σ.out ∧ .call 3 ∈ σ.out ∧ Starved Ex.barren 2 := by
  refine ⟨Ex.barren_loose, by decide, ?_⟩
  have hx : (serExec Ex.barren [2, 1, 0] (List.replicate 4 (serTick pickMin))).map
      (fun σ => decide (σ.ended = true ∧ .call 0 ∈ σ.out ∧ .call 1 ∈ σ.out ∧ .call 3 ∈ σ.out)) = some true := by
    decide +kernel
  obtain ⟨σ, h1, h2⟩ := serExec_run (by
    intro k hk
    rw [List.eq_of_mem_replicate hk]
    exact pickMin_legal) _ hx
  obtain ⟨e1, e2, e3, e4⟩ := of_decide_eq_true h2
  refine ⟨_, σ, h1, ?_, e1, e2, e3, e4, ⟨List.mem_finRange _, rfl, by decide⟩⟩
  intro k hk
  rw [List.eq_of_mem_replicate hk]
  exact ⟨fun n => by simp [serTick], fun t i n => by simp [serTick]⟩

end serial

section pipelines

open Pipeline

variable {d : Nat} {tasks : List (Task d)} {p : Pipeline d}

/-- C27 for the server and pipelines whose links agree in both directions: if there is a block of a task that requires
others which has to wait for no other block of its own task and reads nothing that a block of a required task writes,
and no block fails, then the server never ends. -/
theorem C27_server_linked {S : Type} [DecidableEq S] {cfg : SConf Nat} {ks : List (Server.Tick (Block d) Nat S)}
    {σ : Server (Block d) Nat (Nat × Int) S} (hp : Pipeline.init tasks = .ok p) (hid : UniqueIds tasks) (hw : p.Wf)
    (hr : p.RootLevels) (hl : p.Linked) (h : SRun p.view cfg ks σ) (hbad : ∀ b, .release b .failed ∉ σ.out)
    {y : Nat} {b : Block d} (hb : p.BlockOf y b) (hne : p.tg.ups y ≠ []) (hown : ∀ a, ¬ p.TaskUp a b)
    (hread : ∀ x ∈ p.tg.ups y, ∀ a, p.BlockOf x a → ¬ Overlap a.writeRoi b.readRoi) : σ.stop = false := by
  have hbt := (built_of_init hp hid).1
  exact C27_server_never_ends (view_loose hbt hw hr hl) h hbad ((starved_iff hbt hw hl).2 ⟨y, hb, hne, hown, hread⟩)

/-- C27, C37 for pipelines whose links agree in both directions: if no process function fails and nothing is skipped,
`run_blockwise` without multiprocessing, when it returns, has called the process function once for every block all of
whose predecessors, itself included, have upstream blocks or belong to tasks that require nothing; and for no other. -/
theorem C27_serial_linked {σ : Serial (Block d) Nat (Nat × Int)} {ks : List (SerTick (Block d) Nat)} {served : List Nat}
    (hp : Pipeline.init tasks = .ok p) (hid : UniqueIds tasks) (hw : p.Wf) (hr : p.RootLevels)
    (hl : p.Linked) (hs : ∀ t ∈ p.tg.ids, t ∈ served) (h : SerRun p.view served ks σ)
    (hk : ∀ k ∈ ks, SerTick.Succeeds k ∧ SerTick.NoSkips k) (hend : σ.ended = true) {x : Nat} {b : Block d}
    (hb : p.BlockOf x b) :
    σ.out.count (.call b) ≤ 1 ∧
    (.call b ∈ σ.out ↔ ∀ s y, (s = b ∨ Anc p.view s b) → p.BlockOf y s → p.tg.ups y ≠ [] →
      (∃ a, p.TaskUp a s) ∨ ∃ z ∈ p.tg.ups y, ∃ a, p.BlockOf z a ∧ Overlap a.writeRoi s.readRoi) := by
  have hbt := (built_of_init hp hid).1
  obtain ⟨ns, n1, _, n3⟩ := blocks_spec hbt hw
  have i0 : p.view.nodes = ns := okOr_ok n1
  rw [← i0] at n3
  obtain ⟨h1, h2⟩ := (C27_serial_exactly (view_loose hbt hw hr hl) hs h hk hend).1 b ((n3 b).2 ⟨x, hb⟩)
  have hiff : .call b ∈ σ.out ↔ ¬ Hungry p.view b :=
    ⟨fun hc hu => h1 hu hc, fun hu => List.count_pos_iff.1 (by rw [h2 hu]; exact Nat.one_pos)⟩
  refine ⟨?_, hiff.trans ⟨?_, ?_⟩⟩
  · by_cases hu : Hungry p.view b
    · rw [List.count_eq_zero.2 (h1 hu)]
      exact Nat.zero_le _
    · rw [h2 hu]
  · intro hu s y hsb hs hne
    by_contra hc
    rw [not_or] at hc
    exact hu ⟨s, (starved_iff hbt hw hl).2
      ⟨y, hs, hne, fun a ha => hc.1 ⟨a, ha⟩, fun x hx a ha ho => hc.2 ⟨x, hx, a, ha, ho⟩⟩, hsb⟩
  · rintro hall ⟨s, hs, hsb⟩
    obtain ⟨y, h1, h2, h3, h4⟩ := (starved_iff hbt hw hl).1 hs
    rcases hall s y hsb h1 h2 with ⟨a, ha⟩ | ⟨z, hz, a, ha, ho⟩
    · exact h3 a ha
    · exact h4 z hz a ha ho

/-- The pipeline of `C27_false_no_upstream`: block `[2,3)` of task 1 has no upstream blocks.  The server never ends
whatever its clients do, and the serial server returns without having called the process function for the block. -/
example : ∃ (tasks : List (Task 1)) (p : Pipeline 1), Pipeline.init tasks = .ok p ∧ UniqueIds tasks ∧ p.Wf ∧
    p.RootLevels ∧ p.Linked ∧ (∃ b, p.BlockOf 1 b ∧ p.tg.ups 1 ≠ [] ∧ (∀ a, ¬ p.TaskUp a b) ∧
      ∀ x ∈ p.tg.ups 1, ∀ a, p.BlockOf x a → ¬ Overlap a.writeRoi b.readRoi) ∧
    ∃ ks σ, SerRun p.view [1, 0] ks σ ∧ (∀ k ∈ ks, SerTick.Succeeds k ∧ SerTick.NoSkips k) ∧ σ.ended = true := by
  have hw := wf_of_regular Ex.big_init Ex.big_regular
  have hg := fun {x g} => Ex.pair_graphs (x := x) (g := g)
    (g0 := Ex.mk 0 (Ex.r1 0 1) (Ex.r1 0 1) false .valid (Ex.r1 0 2))
    (g1 := Ex.mk 1 (Ex.r1 0 1) (Ex.r1 0 1) false .valid (Ex.r1 0 4))
    Ex.big_init (by decide) rfl rfl Ex.big_unique
  have hup0 : (Ex.pipe [Ex.bigB]).tg.ups 0 = [] := by decide
  have hup1 : (Ex.pipe [Ex.bigB]).tg.ups 1 = [0] := by decide
  have hl : (Ex.pipe [Ex.bigB]).Linked := by
    intro x y gx gy hxy h1 h2
    rcases hg h2 with ⟨rfl, rfl⟩ | ⟨rfl, rfl⟩
    · rw [hup0] at hxy; cases hxy
    · rw [hup1, List.mem_singleton] at hxy
      subst hxy
      rcases hg h1 with ⟨_, rfl⟩ | ⟨h, _⟩
      · refine ⟨Or.inl (by decide), ⟨0, Or.inl (by decide)⟩, Or.inl (by decide),
          ⟨0, Or.inl (by decide)⟩, ?_, ?_⟩
        · unfold BGraph.Symmetric; decide
        · unfold BGraph.CtxNonneg; decide
      · cases h
  have hst : Starved (Ex.pipe [Ex.bigB]).view (Ex.blk1 1 2 3 2 3 2) := by
    unfold Starved
    decide +kernel
  have hbt := (built_of_init Ex.big_init Ex.big_unique).1
  obtain ⟨y, s1, s2, s3, s4⟩ := (starved_iff hbt hw hl).1 hst
  have hy : y = 1 := (blockOf_taskId hbt hw s1).symm
  subst hy
  have hx : (serExec (Ex.pipe [Ex.bigB]).view [1, 0]
      (List.replicate 5 (serTick (anyPick (Ex.blk1 0 0 2 0 2 0))))).map (fun σ => σ.ended) = some true := by
    decide +kernel
  obtain ⟨σ, h1, h2⟩ := serExec_run (by
    intro k hk
    rw [List.eq_of_mem_replicate hk]
    exact anyPick_legal _) _ hx
  refine ⟨[Ex.bigB], _, Ex.big_init, Ex.big_unique, hw, rootLevels_of hw ?_, hl, ⟨_, s1, s2, s3, s4⟩, _, σ, h1, ?_, h2⟩
  · intro x g _ h
    rcases hg h with ⟨_, rfl⟩ | ⟨_, rfl⟩ <;> exact Or.inl rfl
  · intro k hk
    rw [List.eq_of_mem_replicate hk]
    exact ⟨fun n => by simp [serTick], fun t i n => by simp [serTick]⟩

end pipelines

end Verif.Props
