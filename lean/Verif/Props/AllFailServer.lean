import Verif.Props.AllFail
import Verif.Props.ServerStop
import Verif.Props.Serial

/-! # C34, C41, C56: runs in which nothing completes

With no completed block orphans are counted once (`exact_of_undone`), so what is shown elsewhere under `OrphanExact` holds
in these runs for every consistent graph. -/

namespace Verif.Props

open Verif Verif.Spec

variable {N T K S : Type} [DecidableEq N] [DecidableEq T] [DecidableEq K] [DecidableEq S]
  {g : DGraph N T K} {cfg : SConf T} {σ : Server N T K S} {ks : List (Server.Tick N T S)}

/-- C34: if nothing has completed when the server stops, then every block has failed for good or is downstream of one that
has, and nobody has a block. -/
theorem C34_all_fail (hg : g.Loose) (h : SRun g cfg ks σ) (hnd : ∀ n, ¬ Done (evs σ.out) n) (hs : σ.stop = true) :
    (∀ n ∈ g.nodes, Dead g (evs σ.out) n ∨ Orphan g (evs σ.out) n) ∧ ∀ n, holder σ.out n = none := by
  obtain ⟨h1, h2⟩ := (C34_stop_means_finished_partial hg h (exact_of_undone fun _ _ u _ => hnd u)).1 hs
  exact ⟨fun n hn => (h1 n hn).resolve_left (hnd n), h2⟩

/-- C41: a run in which nothing completes returns `True`, as soon as every block has failed for good or is downstream of
one that has. -/
theorem C41_all_fail (hg : g.Loose) (h : SRun g cfg ks σ) (hnd : ∀ n, ¬ Done (evs σ.out) n) :
    Server.result g σ = true ↔ ∀ n ∈ g.nodes, Dead g (evs σ.out) n ∨ Orphan g (evs σ.out) n := by
  rw [C41_true_partial hg h (exact_of_undone fun _ _ u _ => hnd u)]
  exact forall₂_congr fun n _ => or_iff_right (hnd n)

/-- C56: a pass of a serial run in which nothing has completed does not raise, unless a process function does. -/
theorem C56_all_fail_never_raises {served : List T} {ρ : Serial N T K} {js : List (SerTick N T)} {j : SerTick N T}
    (hg : g.Loose) (hs : ∀ t ∈ g.tasks, t ∈ served) (h : SerRun g served js ρ) (hnd : ∀ n, ¬ Done (serEvs ρ.out) n)
    (he : ρ.ended = false) (hpick : LegalPick j.pick) (hj : SerTick.Returns j) : ∃ ρ', ρ.pass g served j = .ok ρ' :=
  C56_never_raises_partial hg hs h (exact_of_undone fun _ _ u _ => hnd u) he hpick hj

/-- C56: when a serial run in which nothing has completed returns, every block has failed for good or is downstream of one
that has, and all tasks are done. -/
theorem C56_all_fail_finished {served : List T} {ρ : Serial N T K} {js : List (SerTick N T)} (hg : g.OK)
    (hs : ∀ t ∈ g.tasks, t ∈ served) (h : SerRun g served js ρ) (hnd : ∀ n, ¬ Done (serEvs ρ.out) n)
    (hk : ∀ k ∈ js, SerTick.NoSkips k) (hend : ρ.ended = true) :
    (∀ n ∈ g.nodes, Dead g (serEvs ρ.out) n ∨ Orphan g (serEvs ρ.out) n) ∧
      ∀ t ∈ g.tasks, (ρ.sched.states t).isDone = true := by
  have hx : OrphanExact g (serEvs ρ.out) := exact_of_undone fun _ _ u _ => hnd u
  have h2 := (C56_finished_partial hg hs h hx hk hend).2
  refine ⟨fun n hn => ?_, h2⟩
  have := (C22_loose_is_done_partial hg.loose (h.inv hg).run hx (g.task n)).1 (h2 _ (hg.task_mem n hn)) n hn rfl
  exact this.resolve_left (hnd n)

/-- If every process function marks its block as failed, nothing succeeds. -/
theorem no_good {served : List T} {ρ : Serial N T K} {js : List (SerTick N T)} (hg : g.Loose) (h : SerRun g served js ρ)
    (hf : ∀ k ∈ js, ∀ n, k.proc n = .set .failed) (n : N) : .good n ∉ serEvs ρ.out := by
  induction h with
  | init => simp [Serial.init, serEvs]
  | @pass ks σ σ' k h he hpick hp ih =>
    have ih := ih (fun k hk' => hf k (List.mem_append_left _ hk'))
    rcases pass_cases hg (h.inv hg) he hpick with ⟨σ1, sk, h1, h2⟩ | ⟨sk, m, st, _, _, h1 | h1 | ⟨σ1, h1, h2⟩⟩
    · rw [h1] at hp; cases hp
      rw [h2.evs]
      simp [ih]
    · rw [h1.2] at hp; cases hp
    · rw [h1.2.2] at hp; cases hp
    · rw [h1] at hp; cases hp
      rw [h2.evs, acquireEvents_some, hf k (by simp) m]
      simp [ih, Serial.statusAfter, relEv]

/-- C56: if every process function marks its block as failed and there is no check function, then `run_blockwise` of a
serial server returns, for every consistent graph; every block has failed for good or is downstream of one that has, and
all tasks are done. -/
theorem C56_all_fail_returns {served : List T} (hg : g.OK) (hs : ∀ t ∈ g.tasks, t ∈ served) (tick : Nat → SerTick N T)
    (hpick : ∀ i, LegalPick (tick i).pick) (hf : ∀ i n, (tick i).proc n = .set .failed)
    (hk : ∀ i, SerTick.NoSkips (tick i)) :
    ∃ m ρ, SerRun g served ((List.range m).map tick) ρ ∧ ρ.ended = true ∧
      (∀ n ∈ g.nodes, Dead g (serEvs ρ.out) n ∨ Orphan g (serEvs ρ.out) n) ∧
      ∀ t ∈ g.tasks, (ρ.sched.states t).isDone = true := by
  have hnd : ∀ m ρ, SerRun g served ((List.range m).map tick) ρ → ∀ n, ¬ Done (serEvs ρ.out) n := by
    intro m ρ h n hd
    rcases hd with hd | hd
    · exact no_good hg h (by simp only [List.mem_map]; rintro k ⟨i, _, rfl⟩; exact hf i) n hd
    · exact no_skip hg h (by simp only [List.mem_map]; rintro k ⟨i, _, rfl⟩; exact hk i) n hd
  obtain ⟨m, ρ, _, h, he⟩ := returns_of (g := g) (served := served) tick
    ((g.nodes.map (fun n => (g.maxRetries (g.task n)).toNat + 1)).sum + 1) hpick
    (fun m ρ h he => C56_all_fail_never_raises hg.loose hs h (hnd m ρ h) he (hpick m)
      (fun n => by rw [hf m n]; simp))
    (fun m ρ h => by simpa using C56_bounded hg.loose h)
  exact ⟨m, ρ, h, he, C56_all_fail_finished hg hs h (hnd m ρ h)
    (by simp only [List.mem_map]; rintro k ⟨i, _, rfl⟩; exact hk i) he⟩

/-- C56, not vacuous: the hypotheses about the graph and the passes can be met. -/
example : ∃ tick : Nat → SerTick (Fin 6) (Fin 1), Ex.fan6.OK ∧ (∀ t ∈ Ex.fan6.tasks, t ∈ [(0 : Fin 1)]) ∧
    (∀ i, LegalPick (tick i).pick) ∧ (∀ i n, (tick i).proc n = .set .failed) ∧ ∀ i, SerTick.NoSkips (tick i) :=
  ⟨fun _ => serTick pickMin [] Ex.fan6.nodes, Ex.fan6_ok, by decide, fun _ => pickMin_legal,
    fun _ => (by decide : ∀ n, (serTick (T := Fin 1) pickMin [] Ex.fan6.nodes).proc n = .set .failed),
    fun _ t i n => by simp [serTick]⟩

/-- C34 and C41, not vacuous: block `4` of `Ex.fan6` has three direct upstream blocks, all of which fail. -/
example : ∃ (σ : Server (Fin 6) (Fin 1) (Fin 6) Nat) (ks : List (Server.Tick (Fin 6) (Fin 1) Nat)),
    Ex.fan6.Loose ∧ SRun Ex.fan6 Ex.conf1 ks σ ∧ (∀ n, ¬ Done (evs σ.out) n) ∧ σ.stop = true ∧
    (σ.sched.states 0).failed = 4 ∧ (σ.sched.states 0).orphaned = 2 ∧ Server.result Ex.fan6 σ = true := by
  have hx : (sexec Ex.fan6 Ex.conf1 (ticks [acq 0 10, acq 0 11, acq 0 12, acq 0 15, bad 0 10, bad 1 11, bad 2 12,
      bad 5 15])).map (fun σ => decide ((∀ n, ¬ Done (evs σ.out) n) ∧ σ.stop = true ∧ (σ.sched.states 0).failed = 4 ∧
        (σ.sched.states 0).orphaned = 2 ∧ Server.result Ex.fan6 σ = true)) = some true := by decide +kernel
  obtain ⟨σ, h, e⟩ := sexec_run (ticks_legal _) _ hx
  exact ⟨σ, _, Ex.fan6_ok.loose, h, of_decide_eq_true e⟩

end Verif.Props
