import Verif.Proofs.ErrorQueue
import Verif.Props.SystemWork

/-! # C123: an exception that ends a worker process ends `run_blockwise` -/

namespace Verif

open Spec

variable {N T K S : Type} [DecidableEq N] [DecidableEq T] [DecidableEq K] [DecidableEq S]
  {g : DGraph N T K} {c : SysConf T} {P : Sys N T K S → SysEv N T S → Prop} {es : List (SysEv N T S)}
  {x z : Sys N T K S} {fate : PyErr → Fate}

/-- The claim: if the spawn function of a running worker raises an exception, and no other worker has failed like this
so far, then the next iteration of the event loop raises that exception. -/
def C123_statement : Prop :=
  ∀ (N T K S : Type) [DecidableEq N] [DecidableEq T] [DecidableEq K] [DecidableEq S] (g : DGraph N T K) (c : SysConf T)
    (es : List (SysEv N T S)) (x : Sys N T K S) (fate : PyErr → Fate), g.OK → c.cfg.served.Nodup →
    (∀ n ∈ g.nodes, g.task n ∈ c.cfg.served) → SysRun g c (fun _ e => NoReports e) es x →
    ∀ t id e, Running x.pools t id → ∀ k, LegalEv g c x (.loop k) → NoReports (.loop k : SysEv N T S) →
    Sys.step g c { x with pools := (spawnEnds fate x.pools t id e).foldl Sys.procStep x.pools } (.loop k) = .error e

/-- C123, partial: which exception the next iteration of the event loop raises, if any, after the spawn function of a
worker has raised `e`: `e` itself if it can be pickled and unpickled, what unpickling raises otherwise; but never
`queue.Empty`, and nothing at all if the exception cannot be pickled. -/
theorem C123_exactly_partial (hg : g.Loose) (hnd : c.cfg.served.Nodup) (hserved : ∀ n ∈ g.nodes, g.task n ∈ c.cfg.served)
    (hP : ∀ x e, P x e → NoReports e) (h : SysRun g c P es x) {t : T} {id : Nat} {e : PyErr} (hr : Running x.pools t id)
    {k : LoopEnv N T S} (hl : LegalEv g c x (.loop k)) (hk : NoReports (.loop k : SysEv N T S)) (e' : PyErr) :
    Sys.step g c { x with pools := (spawnEnds fate x.pools t id e).foldl Sys.procStep x.pools } (.loop k) = .error e' ↔
      Surfaces fate e e' := by
  let R : PyErr → Prop := fun r => (fate e = .fine ∧ r = e) ∨ fate e = .unread r
  have hR : SysRun g c (fun _ e => ReportsOnly R e) es x := by
    refine sysRun_mono h (fun x e hp => ?_)
    have := hP x e hp
    cases e with
    | proc p => intro t r he; exact absurd he (this t r)
    | loop k => intro p hp t r he; exact absurd he (this p hp t r)
    | _ => trivial
  have hk' : ReportsOnly R (.loop k : SysEv N T S) := fun p hp t r he => absurd he (hk p hp t r)
  have hrun := procs_steps (spawnEnds fate x.pools t id e) hR (fun _ p hp => spawnEnds_reports (fun r hr => hr) p hp)
  have honly : ∀ e', Sys.step g c { x with pools := (spawnEnds fate x.pools t id e).foldl Sys.procStep x.pools }
      (.loop k) = .error e' → Surfaces fate e e' := by
    intro e' he
    obtain ⟨h1, h2⟩ := loop_raises_only hg hnd hserved (fun _ _ hp => hp) hrun (k := k) hl hk' he
    exact ⟨h2, h1⟩
  refine ⟨honly e', fun hs => ?_⟩
  obtain ⟨p, hm, hp⟩ := spawnEnds_errors hnd h hr hs
  cases hpe : p.errors with
  | nil => exact absurd hpe hp
  | cons r rs =>
    have hRr : R r := errors_only hnd (fun _ _ hp => hp) hrun t p hm r (by rw [hpe]; exact List.mem_cons_self)
    have hre : r = e' := by
      rcases hRr with ⟨h1, h2⟩ | h1 <;> rcases hs.2 with ⟨h3, h4⟩ | h3
      · rw [h2, h4]
      · rw [h1] at h3; cases h3
      · rw [h1] at h3; cases h3
      · rw [h1] at h3; cases h3; rfl
    obtain ⟨e'', he⟩ := loop_raises_of hnd hrun hm (by rw [hpe]; rfl) (by rw [hre]; exact hs.1) k
    have h5 := honly e'' he
    rw [he]
    congr 1
    rcases h5.2 with ⟨h1, h2⟩ | h1 <;> rcases hs.2 with ⟨h3, h4⟩ | h3
    · rw [h2, h4]
    · rw [h1] at h3; cases h3
    · rw [h1] at h3; cases h3
    · rw [h1] at h3; cases h3; rfl

/-- C123, partial: with any number of workers that failed before, even if the error queue is full: the next iteration
raises, unless the exception is lost, and what it raises is what some worker handed to its pool. -/
theorem C123_many_partial {R : PyErr → Prop} (hg : g.Loose) (hnd : c.cfg.served.Nodup)
    (hserved : ∀ n ∈ g.nodes, g.task n ∈ c.cfg.served) (hempty : ¬ R .queueEmpty) (hP : ∀ x e, P x e → ReportsOnly R e)
    (h : SysRun g c P es x) {t : T} {id : Nat} {e r : PyErr} (hr : Running x.pools t id) (hs : Surfaces fate e r) (hRr : R r)
    {k : LoopEnv N T S} (hl : LegalEv g c x (.loop k)) (hk : ReportsOnly R (.loop k : SysEv N T S)) :
    ∃ e', R e' ∧
      Sys.step g c { x with pools := (spawnEnds fate x.pools t id e).foldl Sys.procStep x.pools } (.loop k) = .error e' := by
  have hrun := procs_steps (spawnEnds fate x.pools t id e) (sysRun_mono h hP)
    (fun _ p hp => spawnEnds_reports (R := R) (fun r' hr' => by
      have : r' = r := by
        rcases hr' with ⟨h1, h2⟩ | h1 <;> rcases hs.2 with ⟨h3, h4⟩ | h3
        · rw [h2, h4]
        · rw [h1] at h3; cases h3
        · rw [h1] at h3; cases h3
        · rw [h1] at h3; cases h3; rfl
      rw [this]; exact hRr) p hp)
  obtain ⟨p, hm, hp⟩ := spawnEnds_errors hnd h hr hs
  cases hpe : p.errors with
  | nil => exact absurd hpe hp
  | cons q qs =>
    have hq : R q := errors_only hnd (fun _ _ hp => hp) hrun t p hm q (by rw [hpe]; exact List.mem_cons_self)
    obtain ⟨e', he⟩ := loop_raises_of hnd hrun hm (by rw [hpe]; rfl) (fun h1 => hempty (h1 ▸ hq)) k
    exact ⟨e', (loop_raises_only hg hnd hserved (fun _ _ hp => hp) hrun (k := k) hl hk he).1, he⟩

/-- C123: if all workers end with exceptions that vanish while nothing is under way, then `run_blockwise` neither
returns nor raises, whatever happens: no process is ever started again, and the event loop goes on forever. -/
theorem C123_hang (hg : g.Loose) (h : SysRun g c P es x) (hq : NothingDue c x) (hu : Unhurt x.pools)
    {ws : List (T × Nat × PyErr)} (hv : ∀ d ∈ ws, Vanishes fate d.2.2)
    (hall : ∀ t id, Running x.pools t id → ∃ e, (t, id, e) ∈ ws) (hx : OrphanExact g (evs x.srv.out)) {n : N}
    (hn : n ∈ g.nodes) (h1 : ¬ Done (evs x.srv.out) n) (h2 : ¬ Dead g (evs x.srv.out) n)
    (h3 : ¬ Orphan g (evs x.srv.out) n) {es' : List (SysEv N T S)}
    (hs : SysSteps g c Nobody { x with pools := spawnsEnd fate ws x.pools } es' z) :
    z.srv.stop = false ∧ evs z.srv.out = evs x.srv.out ∧ (∀ t id, ¬ Running z.pools t id) ∧
    ∀ e, Nobody z e → ∃ z', z.step g c e = .ok z' := by
  obtain ⟨a1, a2⟩ := spawnsEnd_calm ws hv (ps := x.pools) (fun t p hm => ⟨by rw [(hu t p hm).1]; simp, (hu t p hm).2⟩)
  have hd : Deserted c { x with pools := spawnsEnd fate ws x.pools } := by
    refine ⟨hq, fun t p hm => (a1 t p hm).1, fun t p hm w hw => ?_⟩
    cases hw' : w.proc with
    | none => exact Or.inl rfl
    | some p' =>
      cases p' with
      | exited code => rw [(a1 t p hm).2 w hw code hw']; exact Or.inr rfl
      | running =>
        obtain ⟨b1, b2⟩ := a2 t w.id ⟨p, hm, w, hw, rfl, hw'⟩
        obtain ⟨e, he⟩ := hall t w.id b1
        exact absurd he (b2 e)
  obtain ⟨hz, he⟩ := steps_deserted hd hs
  obtain ⟨es₁, hr1⟩ := spawnsEnd_run (fate := fate) ws (sysRun_mono h (Q := Anything) (fun _ _ _ => trivial))
  have hr2 : SysRun g c Anything (es₁ ++ es') z := by
    refine hr1.steps ?_
    clear hz he
    induction hs with
    | nil => exact .nil
    | step e _ hl _ hs ih => exact .step e ih hl trivial hs
  refine ⟨?_, he, ?_, ?_⟩
  · by_contra hst
    have hst : z.srv.stop = true := by simpa using hst
    obtain ⟨ks, hsr⟩ := hr2.srun
    have he' : evs z.srv.out = evs x.srv.out := he
    rcases ((C34_stop_means_finished_partial hg hsr (by rw [he']; exact hx)).1 hst).1 n hn with b | b | b <;>
      rw [he'] at b
    · exact h1 b
    · exact h2 b
    · exact h3 b
  · rintro t id ⟨p, hm, w, hw, _, hw'⟩
    rcases hz.procs t p hm w hw with b | b <;> rw [hw'] at b <;> cases b
  · intro e hne
    cases e with
    | arrive m s => exact absurd hne id
    | close s => exact ⟨_, rfl⟩
    | proc p => exact absurd hne id
    | loop k =>
      obtain ⟨z', b, _⟩ := loop_deserted (g := g) hz hne
      exact ⟨z', b⟩

/-- C123: this can happen at the very beginning of every computation that has something to do: if the workers that were
started cannot connect, say, and raise something that vanishes, `run_blockwise` hangs. -/
theorem C123_hang_start (hg : g.Loose) (hx : Sys.init g c = .ok x) (hne : g.nodes ≠ []) {e : PyErr} (hv : Vanishes fate e)
    {ws : List (T × Nat × PyErr)} (hws : ∀ d ∈ ws, d.2.2 = e) (hall : ∀ t id, Running x.pools t id → ∃ e, (t, id, e) ∈ ws)
    {es' : List (SysEv N T S)} (hs : SysSteps g c Nobody { x with pools := spawnsEnd fate ws x.pools } es' z) :
    z.srv.stop = false ∧ (∀ t id, ¬ Running z.pools t id) ∧ ∀ e, Nobody z e → ∃ z', z.step g c e = .ok z' := by
  obtain ⟨h1, h2, h3, _⟩ := init_fresh hx
  obtain ⟨n, hn⟩ := List.exists_mem_of_ne_nil _ hne
  obtain ⟨a1, _, a2, a3⟩ := C123_hang hg (P := Anything) (.init hx) h1 h3 (fun d hd => by rw [hws d hd]; exact hv) hall
    (by rw [h2]; exact exact_of_one (fun n _ f f' hd => by simp [Dead] at hd)) hn (by rw [h2]; simp [Done])
    (by rw [h2]; simp [Dead]) (by rw [h2]; rintro ⟨f, hd, _⟩; simp [Dead] at hd) hs
  exact ⟨a1, a2, a3⟩

namespace Ex

/-- Exceptions that cannot be pickled: `ValueError`.  Exceptions that cannot be unpickled: `RuntimeError`. -/
def carry : PyErr → Fate
  | .valueError => .unsent
  | .runtimeError => .unread .typeError
  | _ => .fine

end Ex

/-- C123 is false: the exception cannot be pickled. -/
theorem C123_false : ¬ C123_statement := by
  intro hC
  obtain ⟨x, hx⟩ := C68_start (S := Nat) Ex.one Ex.oneConf
  have hr : SysRun Ex.one Ex.oneConf (fun _ e => NoReports e) [] x := .init hx
  have hd : (Sys.init Ex.one Ex.oneConf : Except PyErr (Sys (Fin 1) (Fin 1) (Fin 1) Nat)).toOption.map (fun x =>
      decide (x.srv.stop = false) && runningB x.pools 0 0) = some true := by decide +kernel
  rw [hx] at hd
  obtain ⟨h1, h2⟩ := Bool.and_eq_true_iff.1 (Option.some.inj hd)
  have hl : LegalEv Ex.one Ex.oneConf x (evLoop [] []) := ⟨of_decide_eq_true h1, evLoop_legal _ _ _ rfl⟩
  have hk : NoReports (evLoop [] [] : SysEv (Fin 1) (Fin 1) Nat) := by intro p hp; cases hp
  have he := hC _ _ _ _ _ _ _ x Ex.carry Ex.one_ok (by decide) (by decide) hr 0 0 .valueError (runningB_iff.1 h2)
    (envOf pickMin [] []) hl hk
  have := (C123_exactly_partial Ex.one_ok (by decide) (by decide) (fun _ _ hp => hp) hr (runningB_iff.1 h2) hl hk
    (fate := Ex.carry) (e := .valueError) .valueError).1 he
  rcases this.2 with ⟨h, _⟩ | h <;> cases h

/-- The hypotheses of `C123_exactly_partial`: a client has a block when the spawn function of the other worker raises. -/
example : ∃ (es : List (SysEv (Fin 2) (Fin 1) Nat)) (x : Sys (Fin 2) (Fin 1) (Fin 2) Nat),
    SysRun Ex.line Ex.lineConf (fun _ e => NoReports e) es x ∧ Running x.pools 0 1 ∧ x.srv.book ≠ [] ∧
    LegalEv Ex.line Ex.lineConf x (evLoop [] []) ∧ NoReports (evLoop [] [] : SysEv (Fin 2) (Fin 1) Nat) ∧
    Surfaces Ex.carry .runtimeError .typeError ∧ Surfaces Ex.carry .keyError .keyError := by
  have hx : (sysExec Ex.line Ex.lineConf (fun _ e => match e with | .loop k => k.procs.isEmpty | .proc _ => false | _ => true)
      (([.msg (.acquire 0) 7, .loop [] []] :
        List (SimpleEv (Fin 2) (Fin 1) Nat)).map SimpleEv.ev)).map (fun r => decide (r.1.srv.book ≠ []) &&
          (decide (r.1.srv.stop = false) && runningB r.1.pools 0 1)) = some true := by
    decide +kernel
  obtain ⟨x, ns, h, _, e⟩ := sysExec_run (P := fun _ e => NoReports e) (by
    intro x e h
    cases e with
    | loop k =>
      have : k.procs = [] := by simpa using h
      intro p hp
      rw [this] at hp
      cases hp
    | proc p => cases h
    | _ => trivial) (simple_legal _) _ hx
  obtain ⟨e1, e2⟩ := Bool.and_eq_true_iff.1 e
  obtain ⟨e2, e3⟩ := Bool.and_eq_true_iff.1 e2
  exact ⟨_, x, h, runningB_iff.1 e3, of_decide_eq_true e1, ⟨of_decide_eq_true e2, evLoop_legal _ _ _ rfl⟩,
    (by intro p hp; cases hp), ⟨by decide, Or.inr rfl⟩, ⟨by decide, Or.inl ⟨rfl, rfl⟩⟩⟩

/-- The hypotheses of `C123_many_partial`: the first worker has failed, and the server has not noticed yet. -/
example : ∃ (es : List (SysEv (Fin 2) (Fin 1) Nat)) (x : Sys (Fin 2) (Fin 1) (Fin 2) Nat),
    SysRun Ex.line Ex.lineConf (fun _ e => ReportsOnly (· ≠ .queueEmpty) e) es x ∧ Running x.pools 0 1 ∧
    x.pools.pools = [(0, ⟨[⟨0, some (.exited 0)⟩, ⟨1, some .running⟩], [.keyError]⟩)] ∧
    LegalEv Ex.line Ex.lineConf x (evLoop [] []) ∧ ReportsOnly (· ≠ .queueEmpty) (evLoop [] [] : SysEv (Fin 2) (Fin 1) Nat) ∧
    Surfaces Ex.carry .runtimeError .typeError := by
  obtain ⟨x, hx⟩ := C68_start (S := Nat) Ex.line Ex.lineConf
  have hr : SysRun Ex.line Ex.lineConf (fun _ e => ReportsOnly (· ≠ .queueEmpty) e) [] x := .init hx
  have hd : (Sys.init Ex.line Ex.lineConf : Except PyErr (Sys (Fin 2) (Fin 1) (Fin 2) Nat)).toOption.map (fun x =>
      decide (x.srv.stop = false ∧ ((spawnEnds Ex.carry x.pools 0 0 .keyError).foldl Sys.procStep x.pools).pools =
        [(0, ⟨[⟨0, some (.exited 0)⟩, ⟨1, some .running⟩], [.keyError]⟩)])) = some true := by decide +kernel
  rw [hx] at hd
  obtain ⟨h1, h2⟩ := of_decide_eq_true (Option.some.inj hd)
  have h3 := procs_steps (spawnEnds Ex.carry x.pools 0 0 .keyError) hr
    (fun _ p hp => spawnEnds_reports (R := (· ≠ .queueEmpty)) (fun r hr => by
      rcases hr with ⟨_, rfl⟩ | hr
      · decide
      · cases hr) p hp)
  refine ⟨_, _, h3, ⟨_, by rw [h2]; exact List.mem_singleton.2 rfl, ⟨1, some .running⟩, by simp, rfl, rfl⟩, h2,
    ⟨h1, evLoop_legal _ _ _ rfl⟩, (by intro p hp; cases hp), ⟨by decide, Or.inr rfl⟩⟩

/-- The hypotheses of `C123_hang` and `C123_hang_start`: the only worker ends with an exception that cannot be pickled. -/
example : ∃ x : Sys (Fin 1) (Fin 1) (Fin 1) Nat, Sys.init Ex.one Ex.oneConf = .ok x ∧ Ex.one.nodes ≠ [] ∧ Running x.pools 0 0 ∧
    Vanishes Ex.carry .valueError ∧ (∀ t id, Running x.pools t id → (t, id, PyErr.valueError) ∈ [((0 : Fin 1), 0, .valueError)]) ∧
    (spawnsEnd Ex.carry [(0, 0, .valueError)] x.pools).pools = [(0, ⟨[⟨0, some (.exited 0)⟩], []⟩)] := by
  obtain ⟨x, hx⟩ := C68_start (S := Nat) Ex.one Ex.oneConf
  have hd : (Sys.init Ex.one Ex.oneConf : Except PyErr (Sys (Fin 1) (Fin 1) (Fin 1) Nat)).toOption.map (fun x =>
      decide (x.pools.pools = [(0, ⟨[⟨0, some .running⟩], []⟩)] ∧
        (spawnsEnd Ex.carry [(0, 0, .valueError)] x.pools).pools = [(0, ⟨[⟨0, some (.exited 0)⟩], []⟩)])) = some true := by
    decide +kernel
  rw [hx] at hd
  obtain ⟨h1, h2⟩ := of_decide_eq_true (Option.some.inj hd)
  refine ⟨x, hx, by decide, ⟨_, by rw [h1]; exact List.mem_singleton.2 rfl, ⟨0, some .running⟩, by simp, rfl, rfl⟩,
    Or.inl rfl, ?_, h2⟩
  rintro t id ⟨p, hm, w, hw, rfl, _⟩
  rw [h1] at hm
  cases List.mem_singleton.1 hm
  rw [List.mem_singleton.1 hw]
  exact List.mem_singleton.2 rfl

end Verif
