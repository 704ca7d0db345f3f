import Verif.Proofs.ServerCount
import Verif.Props.ServerHold

/-! # When the server stops and when clients are told to: C34, C35, C41 -/

namespace Verif

open Spec

variable {N T K S : Type} [DecidableEq N] [DecidableEq T] [DecidableEq K] [DecidableEq S]
  {g : DGraph N T K} {cfg : SConf T} {σ σ' : Server N T K S} {ks : List (Server.Tick N T S)}

/-! ### C34 -/

/-- C34: after any message has been handled, in any state of a server that was running, the stop event is
set iff every task state says it is done, and every such task has been put on the list of finished
tasks. -/
theorem C34_stop_iff {m : Msg N T} {s : S} {chk : Nat → N → Check} {pick : Nat → Finset N → N} {now : Int}
    (hs : σ.stop = false) (he : σ.handle g cfg chk pick now m s = .ok σ') :
    (σ'.stop = true ↔ ∀ t ∈ g.tasks, (σ'.sched.states t).isDone = true) ∧
    ∀ t ∈ g.tasks, (σ'.sched.states t).isDone = true → t ∈ σ'.finished := by
  -- before the final check, the stop event is set only if all tasks are done
  have key : ∀ σ1 : Server N T K S, (σ1.stop = true → ∀ t ∈ g.tasks, (σ1.sched.states t).isDone = true) →
      σ' = σ1.checkAll g → (σ'.stop = true ↔ ∀ t ∈ g.tasks, (σ'.sched.states t).isDone = true) ∧
        ∀ t ∈ g.tasks, (σ'.sched.states t).isDone = true → t ∈ σ'.finished := by
    rintro σ1 h1 rfl
    obtain ⟨_, a2, a3, _⟩ := checkAll_spec (g := g) σ1
    rw [(checkAll_frame (g := g) σ1).sched]
    refine ⟨?_, fun t ht hd => (a3 t).2 (Or.inr ⟨ht, hd⟩)⟩
    rw [a2]
    exact ⟨fun h => h.elim h1 id, Or.inr⟩
  have hrel : ∀ {n : N} {status : BlockStatus} {σ1 : Server N T K S}, σ.safeRelease g pick n status s = .ok σ1 →
      (σ1.stop = true → ∀ t ∈ g.tasks, (σ1.sched.states t).isDone = true) := by
    intro n status σ1 h1 hstop
    unfold Server.safeRelease at h1
    split at h1
    · split at h1
      · cases h1
      · rename_i σ2 h2
        split at h1
        · cases h1
        · cases h1
          unfold Server.release at h2
          split at h2
          · cases h2
          · rename_i st' _
            cases h2
            obtain ⟨c, hc⟩ : ∃ c : Server N T K S, c =
              ({ σ with sched := st' }).emit [.release n status, .released (g.task n)] := ⟨_, rfl⟩
            rw [← hc] at hstop ⊢
            have e1 : ((c.checkAll g).recruit g).stop = (c.checkAll g).stop := (recruit_spec _).2.2.1
            have e2 : ((c.checkAll g).recruit g).sched = c.sched :=
              ((checkAll_frame c).trans (recruit_frame _)).sched
            change ((c.checkAll g).recruit g).stop = true at hstop
            change ∀ t ∈ g.tasks, (((c.checkAll g).recruit g).sched.states t).isDone = true
            rw [e1] at hstop
            rw [e2]
            rcases (checkAll_spec c).2.1.1 hstop with h | h
            · rw [hc] at h
              change σ.stop = true at h
              rw [hs] at h
              cases h
            · exact h
    · cases h1
      rw [hs] at hstop
      cases hstop
  cases m with
  | acquire t =>
    simp only [Server.handle] at he
    split at he
    · cases he
    · rename_i σ1 h1
      cases he
      refine key σ1 ?_ rfl
      intro hstop
      exfalso
      unfold Server.handleAcquire at h1
      split at h1
      · cases h1
      · simp only at h1
        split at h1
        · split at h1
          · cases h1
          · split at h1
            · cases h1
              rw [(recruit_spec _).2.2.1] at hstop
              change σ.stop = true at hstop
              rw [hs] at hstop
              cases hstop
            · split at h1
              · cases h1
                change σ.stop = true at hstop
                rw [hs] at hstop
                cases hstop
              · cases h1
        · split at h1
          · cases h1
          · cases h1
            change σ.stop = true at hstop
            rw [hs] at hstop
            cases hstop
  | release n status =>
    simp only [Server.handle] at he
    split at he
    · cases he
    · rename_i σ1 h1
      cases he
      exact key σ1 (hrel h1) rfl
  | blockFailed n w =>
    simp only [Server.handle] at he
    split at he
    · cases he
    · rename_i σ1 h1
      split at h1
      · cases h1
      · rename_i σ2 h2
        cases h1
        cases he
        have h3 := hrel h2
        exact key (σ2.emit [.blockFailure n w]) h3 rfl
  | clientException => cases he
  | other => cases he

/-- C34: every task is announced as started at most once, its callback is run exactly when it is
announced, and it is announced as done at most once; when the server stops after a message, every task
has been announced as done. -/
theorem C34_announced_once (hg : g.Loose) (h : SRun g cfg ks σ) (t : T) :
    σ.out.count (.taskStart t) ≤ 1 ∧ σ.out.count (.callback t) = σ.out.count (.taskStart t) ∧
    σ.out.count (.taskDone t) ≤ 1 ∧ (σ.out.count (.taskDone t) = 1 ↔ t ∈ σ.finished) := by
  have ha := h.announced hg
  rw [ha.start, ha.callback, ha.done]
  refine ⟨?_, rfl, ?_, ?_⟩ <;> split <;> simp_all

/-- C34, partial.  The full claim has no `OrphanExact` hypothesis and is false (`C34_false`): when the server
has stopped, every block has completed, has failed permanently or is downstream of a permanently failed
block, and nobody has a block; a task that was announced as done is finished. -/
theorem C34_stop_means_finished_partial (hg : g.Loose) (h : SRun g cfg ks σ) (hx : OrphanExact g (evs σ.out)) :
    (σ.stop = true → (∀ n ∈ g.nodes, Done (evs σ.out) n ∨ Dead g (evs σ.out) n ∨ Orphan g (evs σ.out) n) ∧
      ∀ n, holder σ.out n = none) ∧
    ∀ t, .taskDone t ∈ σ.out → TaskFinished g (evs σ.out) t := by
  have hi := h.inv hg
  have hso := h.stopOK hg
  constructor
  · intro hs
    have hall : ∀ n ∈ g.nodes, Done (evs σ.out) n ∨ Dead g (evs σ.out) n ∨ Orphan g (evs σ.out) n :=
      fun n hn => hso.stop hs hx (g.task n) (hg.task_mem n hn) n hn rfl
    refine ⟨hall, ?_⟩
    intro n
    by_contra hc
    have hh := (hi.held n).2 hc
    have hd := (C19_loose_disjoint_partial hg hi.run n).2
    have := hall n (held_mem hg hi.run hh)
    tauto
  · intro t ht
    refine hso.finished t ?_ hx
    by_contra hc
    have := (h.announced hg).done t
    rw [if_neg hc, List.count_eq_zero] at this
    exact this ht

namespace Ex

/-- `Ex.fan` with another block `5` that depends on nothing. -/
def fan6 : DGraph (Fin 6) (Fin 1) (Fin 6) :=
  finGraph 6 1 (fun n => match n with | 3 => [0] | 4 => [0, 1, 2] | _ => []) (fun _ => 0)
    (fun _ => 0) [0]

theorem fan6_ok : fan6.OK := finGraph_ok (by decide) (by decide) (by decide) (by decide)

def conf1 : SConf (Fin 1) := ⟨[0], fun _ => none⟩

/-- Four clients get the blocks `0`, `1`, `2`, `5`; `0` succeeds, `1` fails, the first client gets `3` and
succeeds, `2` fails. -/
def fan6Serve : List (Server.Tick (Fin 6) (Fin 1) Nat) :=
  ticks [acq 0 10, acq 0 11, acq 0 12, acq 0 15, ret 0 10, bad 1 11, acq 0 10, ret 3 10, bad 2 12]

end Ex

example : ∃ (σ : Server (Fin 6) (Fin 1) (Fin 6) Nat) (ks : List (Server.Tick (Fin 6) (Fin 1) Nat)),
    Ex.fan6.OK ∧ SRun Ex.fan6 Ex.conf1 ks σ ∧ OrphanExact Ex.fan6 (evs σ.out) ∧ σ.stop = true ∧
    .taskDone 0 ∈ σ.out ∧ Dead Ex.fan6 (evs σ.out) 1 := by
  have hx : (sexec Ex.fan6 Ex.conf1 (ticks [acq 0 10, acq 0 11, acq 0 12, acq 0 15, ret 0 10, bad 1 11,
      acq 0 10, ret 3 10, ret 2 12, ret 5 15])).map (fun σ => decide (σ.stop = true ∧ .taskDone 0 ∈ σ.out ∧
        (∀ f, Dead Ex.fan6 (evs σ.out) f ↔ f = 1))) = some true := by decide +kernel
  obtain ⟨σ, h, e⟩ := sexec_run (ticks_legal _) _ hx
  obtain ⟨e1, e2, e3⟩ := of_decide_eq_true e
  refine ⟨σ, _, Ex.fan6_ok, h, exact_of_one ?_, e1, e2, (e3 1).2 rfl⟩
  intro n _ f f' h1 h2 _ _
  rw [(e3 f).1 h1, (e3 f').1 h2]

/-- C34 is false in general: in this run an orphan is counted twice, so the server stops, having announced
the task as done, while client `15` still has block `5`, which neither completed nor failed nor is
downstream of a failed block. -/
theorem C34_false : ∃ (g : DGraph (Fin 6) (Fin 1) (Fin 6)) (cfg : SConf (Fin 1))
    (ks : List (Server.Tick (Fin 6) (Fin 1) Nat)) (σ : Server (Fin 6) (Fin 1) (Fin 6) Nat),
    g.OK ∧ SRun g cfg ks σ ∧ σ.stop = true ∧ .taskDone 0 ∈ σ.out ∧ holder σ.out 5 = some 15 ∧
    ¬ Done (evs σ.out) 5 ∧ ¬ Dead g (evs σ.out) 5 ∧ ¬ Orphan g (evs σ.out) 5 := by
  have hx : (sexec Ex.fan6 Ex.conf1 Ex.fan6Serve).map (fun σ => decide (σ.stop = true ∧
      .taskDone 0 ∈ σ.out ∧ holder σ.out 5 = some 15)) = some true := by decide +kernel
  obtain ⟨σ, h, e⟩ := sexec_run (ticks_legal _) _ hx
  obtain ⟨e1, e2, e3⟩ := of_decide_eq_true e
  have hi := h.inv Ex.fan6_ok
  have hh := (hi.held 5).2 (by rw [e3]; exact Option.some_ne_none _)
  have hd := C19_disjoint_partial Ex.fan6_ok hi.run 5
  exact ⟨Ex.fan6, _, _, σ, Ex.fan6_ok, h, e1, e2, e3, by tauto, by tauto, by tauto⟩

/-! ### C35 -/

/-- C35, as `C35_shutdown_partial`, also if there are starved blocks: these count as blocks to wait for. -/
theorem C35_loose_shutdown_partial (hg : g.Loose) (h : SRun g cfg ks σ) {pre post : List (Out N T S)} {s : S} {t : T}
    (he : σ.out = pre ++ .shutdown s t :: post) :
    (∀ n, g.task n = t → Ready g (evs pre) n → Starved g n) ∧
    (OrphanExact g (evs pre) → ∀ n ∈ g.nodes, g.task n = t →
      Done (evs pre) n ∨ Dead g (evs pre) n ∨ Orphan g (evs pre) n ∨ holder pre n ≠ none) := by
  obtain ⟨st, h1, h2, h3⟩ := h.shutOK hg pre post s t he
  have hr := (loose_ready_zero hg h1 t).1 h2
  have hst := h.status hg
  rw [he] at hst
  refine ⟨fun n ht hn => hr n ht hn, ?_⟩
  intro hx n hn ht
  rw [C22_loose_pending_partial hg h1 hx t, cnt_eq_zero] at h3
  have h4 := h3 n hn ht
  have h5 := hr n ht
  have h6 := (log_held (loose_legal hg h1) (fun m st hm => hst m st (List.mem_append_left _ hm)) n).2
  rw [← h6]
  tauto

/-- C35, partial: whenever a client was told to shut down, its task had no ready block.  The claim that
nothing was left to wait for is proved under `OrphanExact`; without it, it is false (`C35_false`): every
block of the task had completed, had failed permanently, was downstream of a permanently failed block,
or was with some client. -/
theorem C35_shutdown_partial (hg : g.OK) (h : SRun g cfg ks σ) {pre post : List (Out N T S)} {s : S} {t : T}
    (he : σ.out = pre ++ .shutdown s t :: post) :
    (∀ n, g.task n = t → ¬ Ready g (evs pre) n) ∧
    (OrphanExact g (evs pre) → ∀ n ∈ g.nodes, g.task n = t →
      Done (evs pre) n ∨ Dead g (evs pre) n ∨ Orphan g (evs pre) n ∨ holder pre n ≠ none) := by
  obtain ⟨h1, h2⟩ := C35_loose_shutdown_partial hg h he
  exact ⟨fun n ht hn => not_starved hg n (h1 n ht hn), h2⟩

/-- C35: no request is dropped: every request was answered, by a block of the task that was asked for or
by a request to shut down, or it is waiting. -/
theorem C35_no_request_dropped (hg : g.Loose) (h : SRun g cfg ks σ) (t : T) (s : S) :
    requests t s ks = answers g t s σ.out + (σ.pending t).count s := by
  induction h with
  | init =>
    have := (recruit_frame (g := g) (⟨Sched.init g, [], [], [], false, false, fun _ => [], []⟩ :
      Server N T K S)).load (g := g) t s
    unfold load at this
    rw [Server.init, this]
    rfl
  | step k hr _ hk he ih =>
    have := iteration_load hg (hr.inv hg) hk he t s
    unfold load at this
    rw [requests_append, ih, this]

/-- C35: the answer to a request: a block, or a request to shut down, or the request is kept. -/
theorem C35_answer (hg : g.Loose) (h : SRun g cfg ks σ) (chk : Nat → N → Check) (now : Int) {t : T} (s : S)
    (ht : t ∈ cfg.served) :
    ∃ σ', σ.handleAcquire g cfg chk now t s = .ok σ' ∧
      ((∃ n, .send s n ∈ σ'.out ∧ holder σ.out n = none ∧ holder σ'.out n = some s ∧ g.task n = t ∧
          σ'.pending = σ.pending) ∨
        (σ'.out.count (.shutdown s t) = σ.out.count (.shutdown s t) + 1 ∧ σ'.pending = σ.pending) ∨
        σ'.pending t = σ.pending t ++ [s]) := by
  obtain ⟨σ', skips, r, h1, _, h3, h4⟩ := handleAcquire_spec (cfg := cfg) hg (h.inv hg) chk now s ht
  refine ⟨σ', h1, ?_⟩
  rcases r with _ | n
  · simp only at h4
    obtain ⟨_, h4⟩ := h4
    split at h4
    · refine Or.inr (Or.inl ⟨?_, h4.1⟩)
      rw [h4.2]
      obtain ⟨os, e, hs⟩ := (recruit_frame (g := g) ({ σ with
        sched := σ'.sched, out := σ.out ++ skips.map .skip ++ [.shutdown s t] } : Server N T K S)).out
      rw [e, List.count_append, List.count_append, List.count_append]
      have z1 : os.count (.shutdown s t) = 0 := List.count_eq_zero.2 (fun hm => hs _ hm)
      have z2 : (skips.map (.skip : N → Out N T S)).count (.shutdown s t) = 0 :=
        List.count_eq_zero.2 (by simp)
      rw [z1, z2]
      simp
    · refine Or.inr (Or.inr ?_)
      rw [h4.1, upd_eq]
  · simp only at h4
    obtain ⟨h4, h5, h6, _, h7, _⟩ := h4
    refine Or.inl ⟨n, by rw [h4]; simp, h6, ?_, h7, h5⟩
    rw [h4, holder_append, holder_skips]
    simp [holderStep]

namespace Ex

/-- `Ex.fan` with two more blocks, `6` downstream of `5`. -/
def fan7 : DGraph (Fin 7) (Fin 1) (Fin 7) :=
  finGraph 7 1 (fun n => match n with | 3 => [0] | 4 => [0, 1, 2] | 6 => [5] | _ => []) (fun _ => 0)
    (fun _ => 0) [0]

theorem fan7_ok : fan7.OK := finGraph_ok (by decide) (by decide) (by decide) (by decide)

end Ex

example : ∃ (σ : Server (Fin 6) (Fin 1) (Fin 6) Nat) (ks : List (Server.Tick (Fin 6) (Fin 1) Nat))
    (pre post : List (Out (Fin 6) (Fin 1) Nat)),
    Ex.fan6.OK ∧ SRun Ex.fan6 Ex.conf1 ks σ ∧ σ.out = pre ++ .shutdown 10 0 :: post ∧
    OrphanExact Ex.fan6 (evs pre) ∧ holder pre 5 = some 15 := by
  have hx : (sexec Ex.fan6 Ex.conf1 (ticks [acq 0 10, acq 0 11, acq 0 12, acq 0 15, ret 0 10, bad 1 11,
      ret 2 12, acq 0 10, ret 3 10, acq 0 10])).map (·.out) = some ([.taskStart 0, .callback 0,
      .recruit [0], .send 10 0, .acquired 0, .send 11 1, .acquired 0, .send 12 2, .acquired 0, .send 15 5,
      .acquired 0, .release 0 .success, .released 0, .recruit [0], .release 1 .failed, .released 0,
      .recruit [0], .release 2 .success, .released 0, .recruit [0], .send 10 3, .acquired 0,
      .release 3 .success, .released 0, .recruit []] ++ .shutdown 10 0 :: [.recruit []]) := by decide +kernel
  obtain ⟨σ, h, e⟩ := sexec_run (ticks_legal _) _ hx
  refine ⟨σ, _, _, _, Ex.fan6_ok, h, e, exact_of_one ?_, by decide⟩
  have : ∀ f, Dead Ex.fan6 (evs ([.taskStart 0, .callback 0,
      .recruit [0], .send 10 0, .acquired 0, .send 11 1, .acquired 0, .send 12 2, .acquired 0, .send 15 5,
      .acquired 0, .release 0 .success, .released 0, .recruit [0], .release 1 .failed, .released 0,
      .recruit [0], .release 2 .success, .released 0, .recruit [0], .send 10 3, .acquired 0,
      .release 3 .success, .released 0, .recruit []] : List (Out (Fin 6) (Fin 1) Nat))) f → f = 1 := by decide
  intro n _ f f' h1 h2 _ _
  rw [this f h1, this f' h2]

/-- C35 is false in general: an orphan is counted twice, so the count of pending blocks is zero and
client `10` is told to shut down although block `6` is still waiting for block `5`, which client `15` has. -/
theorem C35_false : ∃ (g : DGraph (Fin 7) (Fin 1) (Fin 7)) (cfg : SConf (Fin 1))
    (ks : List (Server.Tick (Fin 7) (Fin 1) Nat)) (σ : Server (Fin 7) (Fin 1) (Fin 7) Nat),
    g.OK ∧ SRun g cfg ks σ ∧ .shutdown 10 0 ∈ σ.out ∧ g.up 6 = [5] ∧ g.up 5 = [] ∧
    holder σ.out 5 = some 15 ∧ ¬ Dead g (evs σ.out) 5 ∧ ¬ Done (evs σ.out) 6 ∧ ¬ Dead g (evs σ.out) 6 ∧
    ¬ Orphan g (evs σ.out) 6 ∧ holder σ.out 6 = none := by
  have hx : (sexec Ex.fan7 Ex.conf1 (ticks [acq 0 10, acq 0 11, acq 0 12, acq 0 15, ret 0 10, bad 1 11,
      acq 0 10, ret 3 10, bad 2 12, acq 0 10])).map (fun σ => decide (.shutdown 10 0 ∈ σ.out ∧
      holder σ.out 5 = some 15 ∧ ¬ Dead Ex.fan7 (evs σ.out) 5 ∧ ¬ Done (evs σ.out) 6 ∧
      ¬ Dead Ex.fan7 (evs σ.out) 6 ∧ holder σ.out 6 = none)) = some true := by decide +kernel
  obtain ⟨σ, h, e⟩ := sexec_run (ticks_legal _) _ hx
  obtain ⟨e1, e2, e3, e4, e5, e6⟩ := of_decide_eq_true e
  refine ⟨Ex.fan7, _, _, σ, Ex.fan7_ok, h, e1, rfl, rfl, e2, e3, e4, e5, ?_, e6⟩
  rintro ⟨f, hf, ha⟩
  have h5 : ∀ a, Anc Ex.fan7 a 6 → a = 5 := by
    intro a ha
    have hn : ∀ x, ¬ Anc Ex.fan7 x 5 := by
      intro x hx
      rcases (Relation.TransGen.tail'_iff).1 hx with ⟨b, _, hb⟩
      have : b ∈ Ex.fan7.up 5 := hb
      simp [Ex.fan7, finGraph] at this
    rcases (Relation.TransGen.tail'_iff).1 ha with ⟨b, hab, hb⟩
    have hb' : b ∈ Ex.fan7.up 6 := hb
    have hb5 : b = 5 := by simpa [Ex.fan7, finGraph] using hb'
    subst hb5
    rcases Relation.reflTransGen_iff_eq_or_transGen.1 hab with h | h
    · exact h.symm
    · exact absurd h (hn a)
  rw [h5 f ha] at hf
  exact e3 hf

/-! ### C41 -/

/-- C41: if every block has completed, `run_blockwise` returns `True`. -/
theorem C41_all_done (hg : g.Loose) (h : SRun g cfg ks σ) (hd : ∀ n ∈ g.nodes, Done (evs σ.out) n) :
    Server.result g σ = true := by
  have hi := h.inv hg
  unfold Server.result
  rw [List.all_eq_true]
  intro t _
  refine (C22_loose_is_done_no_orphans hg hi.run t ?_).2 (fun n hn _ => Or.inl (hd n hn))
  intro n hn _ ho
  exact ((C19_loose_disjoint_partial hg hi.run n).2.2.1 (hd n hn)).2 ho

/-- C41, partial.  The full claim has no hypothesis about failures and is false (`C41_false`): as long as no
block has failed permanently, `run_blockwise` returns `True` iff every block has completed. -/
theorem C41_no_failures_partial (hg : g.Loose) (h : SRun g cfg ks σ)
    (hf : ∀ n ∈ g.nodes, ¬ Dead g (evs σ.out) n) :
    Server.result g σ = true ↔ ∀ n ∈ g.nodes, Done (evs σ.out) n := by
  refine ⟨?_, C41_all_done hg h⟩
  have hi := h.inv hg
  have hdn : ∀ f, ¬ Dead g (evs σ.out) f := by
    intro f hd
    exact hf f ((hi.run.facts hg).node _ hd.1) hd
  intro hr n hn
  unfold Server.result at hr
  rw [List.all_eq_true] at hr
  have := (C22_loose_is_done_no_orphans hg hi.run (g.task n) (fun m _ _ ho => by
    obtain ⟨f, h1, _⟩ := ho; exact hdn f h1)).1 (hr _ (hg.task_mem n hn)) n hn rfl
  exact this.resolve_right (hdn n)

/-- C41, partial: with failures, `True` means that every block has completed, has failed permanently or is
downstream of a permanently failed block (if orphans are counted correctly). -/
theorem C41_true_partial (hg : g.Loose) (h : SRun g cfg ks σ) (hx : OrphanExact g (evs σ.out)) :
    Server.result g σ = true ↔
      ∀ n ∈ g.nodes, Done (evs σ.out) n ∨ Dead g (evs σ.out) n ∨ Orphan g (evs σ.out) n := by
  have hi := h.inv hg
  unfold Server.result
  rw [List.all_eq_true]
  constructor
  · intro hr n hn
    exact (C22_loose_is_done_partial hg hi.run hx (g.task n)).1 (hr _ (hg.task_mem n hn)) n hn rfl
  · intro hr t _
    exact (C22_loose_is_done_partial hg hi.run hx t).2 (fun n hn _ => hr n hn)

example : ∃ (σ : Server (Fin 4) (Fin 2) (Fin 4) Nat) (ks : List (Server.Tick (Fin 4) (Fin 2) Nat)),
    Ex.vee.OK ∧ SRun Ex.vee Ex.veeConf ks σ ∧ (∀ n ∈ Ex.vee.nodes, ¬ Dead Ex.vee (evs σ.out) n) ∧
    (∀ n ∈ Ex.vee.nodes, Done (evs σ.out) n) ∧ Ev.bad 0 ∈ evs σ.out := by
  have hx : (sexec Ex.vee Ex.veeConf (ticks [acq 0 7, acq 0 8, bad 0 7, ret 1 8, acq 0 7, ret 0 7,
      acq 1 9, ret 3 9, acq 1 9, ret 2 9])).map (fun σ => decide ((∀ n ∈ Ex.vee.nodes,
        ¬ Dead Ex.vee (evs σ.out) n) ∧ (∀ n ∈ Ex.vee.nodes, Done (evs σ.out) n) ∧ Ev.bad 0 ∈ evs σ.out)) =
      some true := by decide +kernel
  obtain ⟨σ, h, e⟩ := sexec_run (ticks_legal _) _ hx
  obtain ⟨e1, e2, e3⟩ := of_decide_eq_true e
  exact ⟨σ, _, Ex.vee_ok, h, e1, e2, e3⟩

/-- C41 is false in general: the only block of this run failed and never succeeded; the server stops and
the result is `True`. -/
theorem C41_false : ∃ (g : DGraph (Fin 1) (Fin 1) (Fin 1)) (cfg : SConf (Fin 1))
    (ks : List (Server.Tick (Fin 1) (Fin 1) Nat)) (σ : Server (Fin 1) (Fin 1) (Fin 1) Nat),
    g.OK ∧ SRun g cfg ks σ ∧ σ.stop = true ∧ Server.result g σ = true ∧ Dead g (evs σ.out) 0 ∧
    ¬ Done (evs σ.out) 0 := by
  have hok : (finGraph 1 1 (fun _ => []) (fun _ => 0) (fun _ => 0) [0]).OK :=
    finGraph_ok (by decide) (by decide) (by decide) (by decide)
  have hx : (sexec (finGraph 1 1 (fun _ => []) (fun _ => 0) (fun _ => 0) [0]) Ex.conf1
      (ticks [acq 0 7, bad 0 7])).map (fun σ => decide (σ.stop = true ∧
        Server.result (finGraph 1 1 (fun _ => []) (fun _ => 0) (fun _ => 0) [0]) σ = true ∧
        Dead (finGraph 1 1 (fun _ => []) (fun _ => 0) (fun _ => 0) [0]) (evs σ.out) 0 ∧
        ¬ Done (evs σ.out) 0)) = some true := by decide +kernel
  obtain ⟨σ, h, e⟩ := sexec_run (S := Nat) (ticks_legal _) _ hx
  obtain ⟨e1, e2, e3, e4⟩ := of_decide_eq_true e
  exact ⟨_, _, _, σ, hok, h, e1, e2, e3, e4⟩

end Verif
