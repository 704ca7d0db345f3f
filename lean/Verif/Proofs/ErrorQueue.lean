import Verif.Spec.ErrorQueueSpec
import Verif.Props.System
import Verif.Props.ServerStop

/-! # Exceptions that end worker processes -/

namespace Verif

open Spec

variable {N T K S : Type} [DecidableEq N] [DecidableEq T] [DecidableEq K] [DecidableEq S]
  {g : DGraph N T K} {c : SysConf T} {P Q : Sys N T K S → SysEv N T S → Prop} {es : List (SysEv N T S)}
  {x y z : Sys N T K S} {fate : PyErr → Fate}

theorem sysRun_mono (h : SysRun g c P es x) (hPQ : ∀ x e, P x e → Q x e) : SysRun g c Q es x := by
  induction h with
  | init h => exact .init h
  | step e _ hl hp hs ih => exact .step e ih hl (hPQ _ _ hp) hs

/-- An iteration of the event loop raises only what the health check raises. -/
theorem loop_health (hg : g.Loose) (hnd : c.cfg.served.Nodup) (hserved : ∀ n ∈ g.nodes, g.task n ∈ c.cfg.served)
    (h : SysRun g c P es x) {k : LoopEnv N T S} (hl : LegalEv g c x (.loop k)) :
    ∃ (σ' : Server N T K S) (ps : Pools T), Sys.poolOuts g c (σ'.out.drop x.srv.out.length) x.pools = .ok ps ∧
      x.step g c (.loop k) = (match (k.procs.foldl Sys.procStep ps).health with
        | .error e => .error e
        | .ok ps' => .ok ⟨σ', x.recv.2.1, x.recv.2.2 + ((x.closedThen k).length - x.closed.length), x.closedThen k,
            ps'⟩) := by
  obtain ⟨pes, hq⟩ := h.poolRun
  obtain ⟨ks, hk⟩ := h.srun
  obtain ⟨σ', hit⟩ := C29_never_raises_partial hg hk (goodTick_of h hl)
  obtain ⟨os, e1, f1⟩ := iteration_fails hit
  have hok0 := Pools.init_ok (T := T) hnd
  have hkeys0 : (Pools.init c.cfg.served).pools.map (·.1) = c.cfg.served := by
    simp [Pools.init, Function.comp_def]
  have key : ∀ (os : List (Out N T S)) (pes : List (PoolEv T)) (ps : Pools T),
      PoolRun c.num c.maxF (Pools.init c.cfg.served) pes ps →
      (∀ n w, .blockFailure n w ∈ os → n ∈ g.nodes) → ∃ ps', Sys.poolOuts g c os ps = .ok ps' := by
    intro os
    induction os with
    | nil => intro pes ps _ _; exact ⟨ps, rfl⟩
    | cons o os ih =>
      intro pes ps h1 h3
      have h4 : ∃ ps1, Sys.poolOut g c ps o = .ok ps1 := by
        cases o with
        | blockFailure n w =>
          have hkeys := (poolRun_keys hok0.1 h1).trans hkeys0
          have : g.task n ∈ ps.pools.map (·.1) := by
            rw [hkeys]
            exact hserved n (h3 n w List.mem_cons_self)
          obtain ⟨⟨t, p⟩, hm, rfl⟩ := List.mem_map.1 this
          exact C59_total ps hm w
        | _ => exact ⟨_, rfl⟩
      obtain ⟨ps1, h4⟩ := h4
      have h5 : PoolRun c.num c.maxF ps ([o].filterMap (poolEv g)) ps1 :=
        poolOuts_run [o] (by simp only [Sys.poolOuts, h4])
      obtain ⟨ps2, h6⟩ := ih _ ps1 (h1.trans h5) (fun n w hm => h3 n w (List.mem_cons_of_mem _ hm))
      exact ⟨ps2, by simp only [Sys.poolOuts, h4, h6]⟩
  obtain ⟨ps, h1⟩ := key (σ'.out.drop x.srv.out.length) pes x.pools hq (by
    intro n w hm
    rw [e1, List.drop_left] at hm
    obtain ⟨s, hr⟩ := f1 n w hm
    exact (goodTick_of h hl).1 _ _ hr)
  refine ⟨σ', ps, h1, ?_⟩
  simp only [Sys.step, Sys.loop, hit, h1]
  split <;> simp_all

/-- What processes do one after the other. -/
theorem procs_steps : ∀ (l : List (ProcEv T)) {es : List (SysEv N T S)} {x : Sys N T K S}, SysRun g c P es x → (∀ y, ∀ p ∈ l, P y (.proc p)) →
    SysRun g c P (es ++ l.map .proc) { x with pools := l.foldl Sys.procStep x.pools }
  | [], es, x, h, _ => by simpa using h
  | p :: l, es, x, h, hl => by
    have h1 : SysRun g c P (es ++ [.proc p]) { x with pools := Sys.procStep x.pools p } :=
      .step _ h trivial (hl _ p List.mem_cons_self) rfl
    have := procs_steps l h1 (fun y q hq => hl y q (List.mem_cons_of_mem _ hq))
    simpa using this

/-- Whatever an iteration of the event loop raises was handed to a pool by a worker. -/
theorem loop_raises_only {R : PyErr → Prop} (hg : g.Loose) (hnd : c.cfg.served.Nodup)
    (hserved : ∀ n ∈ g.nodes, g.task n ∈ c.cfg.served) (hP : ∀ x e, P x e → ReportsOnly R e) (h : SysRun g c P es x)
    {k : LoopEnv N T S} (hl : LegalEv g c x (.loop k)) (hk : ReportsOnly R (.loop k : SysEv N T S)) {e : PyErr}
    (he : x.step g c (.loop k) = .error e) : R e ∧ e ≠ .queueEmpty := by
  obtain ⟨σ', ps, h1, h2⟩ := loop_health hg hnd hserved h hl
  rw [he] at h2
  obtain ⟨pes, hq, hrep⟩ := SysRun.reported hP h
  have hok0 := Pools.init_ok (T := T) hnd
  have hrun := (hq.trans (poolOuts_run _ h1)).trans (procs_run (c := c) k.procs ps)
  have honly := poolRun_only (Q := R) hok0 (by
    intro t e hm
    rcases List.mem_append.1 hm with hm | hm
    · rcases List.mem_append.1 hm with hm | hm
      · exact hrep t e hm
      · obtain ⟨o, _, ho⟩ := List.mem_filterMap.1 hm
        cases o <;> cases ho
    · obtain ⟨p, hpm, ho⟩ := List.mem_map.1 hm
      cases p with
      | exit _ _ _ => cases ho
      | report t' e' => cases ho; exact hk _ hpm _ _ rfl) hrun (by
    intro t p hm
    obtain ⟨t', _, e⟩ := List.mem_map.1 hm
    cases e
    intro x hx
    cases hx)
  cases hh : (k.procs.foldl Sys.procStep ps).health with
  | ok ps' => rw [hh] at h2; cases h2
  | error e' =>
    rw [hh] at h2
    cases h2
    obtain ⟨t, p, hm, he, hne⟩ := (C43_raises _).1 e hh
    exact ⟨honly t p hm e (List.mem_of_mem_head? he), hne⟩

/-- An exception in a pool makes the next iteration raise. -/
theorem loop_raises_of (hnd : c.cfg.served.Nodup) (h : SysRun g c P es x) {t : T} {p : Pool} {e : PyErr}
    (hm : (t, p) ∈ x.pools.pools) (hh : p.errors.head? = some e) (hne : e ≠ .queueEmpty) (k : LoopEnv N T S) :
    ∃ e', x.step g c (.loop k) = .error e' := by
  obtain ⟨pes, hq⟩ := h.poolRun
  have hok := Pools.run_ok (Pools.init_ok (T := T) hnd) hq
  cases hl : x.step g c (.loop k) with
  | error e' => exact ⟨e', rfl⟩
  | ok z =>
    obtain ⟨ps, h3, h4, _⟩ := loop_parts hl
    have h5 := (poolOuts_run _ h3).trans (procs_run (c := c) k.procs ps)
    obtain ⟨p', h6, h7⟩ := poolRun_errors hok (by
      intro hm
      rcases List.mem_append.1 hm with hm | hm
      · obtain ⟨o, _, ho⟩ := List.mem_filterMap.1 hm
        cases o <;> cases ho
      · obtain ⟨q, _, ho⟩ := List.mem_map.1 hm
        cases q <;> cases ho) h5 hm hh
    obtain ⟨e', he⟩ := (C43_raises _).2 ⟨t, p', e, h6, h7, hne⟩
    rw [h4] at he
    cases he

/-- After a worker has ended with an exception that the server can get, there is an exception in its pool. -/
theorem spawnEnds_errors (hnd : c.cfg.served.Nodup) (h : SysRun g c P es x) {t : T} {id : Nat} {e r : PyErr}
    (hr : Running x.pools t id) (hs : Surfaces fate e r) :
    ∃ p, (t, p) ∈ ((spawnEnds fate x.pools t id e).foldl Sys.procStep x.pools).pools ∧ p.errors ≠ [] := by
  obtain ⟨pes, hq⟩ := h.poolRun
  have hok := Pools.run_ok (Pools.init_ok (T := T) hnd) hq
  obtain ⟨p, hm, _⟩ := hr
  have hu : x.pools.unread t = p.errors.length := by
    unfold Pools.unread
    have : x.pools.get t = some p := by
      unfold Pools.get
      cases hf : x.pools.pools.find? (fun e => decide (e.1 = t)) with
      | none => exact absurd (List.find?_eq_none.1 hf _ hm) (by simp)
      | some q =>
        have h1 := List.mem_of_find?_eq_some hf
        have h2 : q.1 = t := by simpa using List.find?_some hf
        have h3 : q = (t, p) := List.inj_on_of_nodup_map hok.1 h1 hm h2
        rw [h3]; rfl
    rw [this]
  have hex : ∀ (ps : Pools T) (p : Pool), (t, p) ∈ ps.pools → p.errors ≠ [] →
      ∃ p', (t, p') ∈ (ps.exit t id 0).pools ∧ p'.errors ≠ [] := by
    intro ps p hm hp
    exact ⟨_, List.mem_map.2 ⟨(t, p), hm, if_pos rfl⟩, hp⟩
  have hfw : forward fate (x.pools.unread t) e = [] ∧ p.errors ≠ [] ∨ forward fate (x.pools.unread t) e = [r] := by
    unfold forward
    split
    · next h1 =>
      refine Or.inl ⟨rfl, fun h2 => ?_⟩
      rw [hu, h2] at h1
      simp at h1
    · rcases hs.2 with ⟨h1, h2⟩ | h1
      · rw [h1, h2]; exact Or.inr rfl
      · rw [h1]; exact Or.inr rfl
  unfold spawnEnds
  rcases hfw with ⟨h1, h2⟩ | h1
  · rw [h1]
    exact hex _ p hm h2
  · rw [h1]
    refine hex (x.pools.report t r) { p with errors := p.errors ++ [r] } ?_ (by simp)
    exact List.mem_map.2 ⟨(t, p), hm, if_pos rfl⟩

/-- All exceptions in the pools are of this kind. -/
theorem errors_only {R : PyErr → Prop} (hnd : c.cfg.served.Nodup) (hP : ∀ x e, P x e → ReportsOnly R e)
    (h : SysRun g c P es x) : ∀ t p, (t, p) ∈ x.pools.pools → ∀ e ∈ p.errors, R e := by
  obtain ⟨pes, hq, hrep⟩ := SysRun.reported hP h
  refine poolRun_only (Pools.init_ok (T := T) hnd) hrep hq ?_
  intro t p hm
  obtain ⟨t', _, e⟩ := List.mem_map.1 hm
  cases e
  intro x hx
  cases hx

omit [DecidableEq N] [DecidableEq S] in
/-- What a worker that ends with an exception hands to its pool. -/
theorem spawnEnds_reports {R : PyErr → Prop} {e : PyErr} (hR : ∀ r, (fate e = .fine ∧ r = e) ∨ fate e = .unread r → R r)
    {ps : Pools T} {t : T} {id : Nat} : ∀ p ∈ spawnEnds fate ps t id e, ReportsOnly R (.proc p : SysEv N T S) := by
  intro p hp t' r he
  subst he
  unfold spawnEnds at hp
  rcases List.mem_append.1 hp with hp | hp
  · obtain ⟨r', h1, h2⟩ := List.mem_map.1 hp
    cases h2
    refine hR r ?_
    unfold forward at h1
    split at h1
    · cases h1
    · split at h1
      · next h2 => exact Or.inl ⟨h2, List.mem_singleton.1 h1⟩
      · cases h1
      · next e' h2 => rw [List.mem_singleton.1 h1]; exact Or.inr h2
  · simp at hp

/-! ### Nobody is left -/

/-- Nobody is left: there are no processes, and nothing is under way. -/
structure Deserted (c : SysConf T) (x : Sys N T K S) : Prop where
  quiet : NothingDue c x
  errors : ∀ t p, (t, p) ∈ x.pools.pools → ∀ e ∈ p.errors, e = .queueEmpty
  procs : ∀ t p, (t, p) ∈ x.pools.pools → ∀ w ∈ p.workers, w.proc = none ∨ w.proc = some (.exited 0)

omit [DecidableEq T] in
/-- The health check changes nothing that matters. -/
theorem healthLoop_deserted : ∀ (l : List (T × Pool)) (next : Nat),
    (∀ t p, (t, p) ∈ l → (∀ e ∈ p.errors, e = .queueEmpty) ∧
      ∀ w ∈ p.workers, w.proc = none ∨ w.proc = some (.exited 0)) →
    ∃ l', Pools.healthLoop l next = .ok (l', next) ∧
      ∀ t p, (t, p) ∈ l' → (∀ e ∈ p.errors, e = .queueEmpty) ∧
        ∀ w ∈ p.workers, w.proc = none ∨ w.proc = some (.exited 0)
  | [], next, _ => ⟨[], rfl, fun _ _ h => by cases h⟩
  | (t, p) :: r, next, h => by
    obtain ⟨he, hw⟩ := h t p List.mem_cons_self
    obtain ⟨l', h1, h2⟩ := healthLoop_deserted r next (fun t q hq => h t q (List.mem_cons_of_mem _ hq))
    have hc : ∃ p' : Pool, p.checkErrors = .ok p' ∧ p'.workers = p.workers ∧ ∀ e ∈ p'.errors, e = .queueEmpty := by
      unfold Pool.checkErrors
      split
      · next h0 => exact ⟨p, rfl, rfl, he⟩
      · next e es h0 =>
        rw [if_pos (he e (by rw [h0]; exact List.mem_cons_self))]
        exact ⟨_, rfl, rfl, fun e' he' => he e' (by rw [h0]; exact List.mem_cons_of_mem _ he')⟩
    obtain ⟨p', hc1, hc2, hc3⟩ := hc
    have hdead : (p'.workers.filter Pool.failed).map (·.id) = [] := by
      rw [hc2, List.filter_eq_nil_iff.2, List.map_nil]
      intro w hwm
      rcases hw w hwm with h3 | h3 <;> simp [Pool.failed, h3]
    refine ⟨(t, (p'.reap).1) :: l', ?_, ?_⟩
    · simp only [Pools.healthLoop, hc1, Pool.reap, hdead, List.length_nil, lt_irrefl, if_false, h1]
    · intro t' q hq
      rcases List.mem_cons.1 hq with hq | hq
      · cases hq
        refine ⟨hc3, ?_⟩
        intro w hwm
        simp only [Pool.reap] at hwm
        obtain ⟨v, hv, rfl⟩ := List.mem_map.1 (List.mem_filter.1 hwm).1
        rw [hc2] at hv
        unfold Pool.forget
        split
        · exact Or.inl rfl
        · exact hw v hv
      · exact h2 t' q hq

/-- An iteration of the event loop when nobody is left. -/
theorem loop_deserted (h : Deserted c x) {k : LoopEnv N T S} (hk : k.procs = []) :
    ∃ y, x.step g c (.loop k) = .ok y ∧ Deserted c y ∧ ∃ os, y.srv.out = x.srv.out ++ os ∧
      ∀ o ∈ os, ∃ t, o = .taskDone t := by
  obtain ⟨hq, hb, hp⟩ := h.quiet
  have hm : x.srv.handleMessages g c.cfg (x.tickOf k).chk (x.tickOf k).pick (x.tickOf k).now (x.tickOf k).recv =
      .ok x.srv := by
    have : (x.tickOf k).recv = .closed ∨ (x.tickOf k).recv = .nothing := by
      simp only [Sys.tickOf, Sys.recv, hq]
      split <;> simp
    rcases this with h1 | h1
    · rw [h1]; rfl
    · rw [h1]
      have h2 : c.cfg.served.find? (fun t => decide ((x.srv.pending t).length ≠ 0)) = none := by
        rw [List.find?_eq_none]
        intro t ht
        simp [hp t ht]
      simp only [Server.handleMessages, h2]
  have hlost : x.srv.checkLost g (x.tickOf k).pickLost (x.tickOf k).closed (x.tickOf k).clock = .ok x.srv := by
    simp only [Server.checkLost, hb, Book.getLost, Book.lostIds, Book.popLost, Server.releaseLost]
    congr 1
    rw [← hb]
  have hit : x.srv.iteration g c.cfg (x.tickOf k) = .ok (if k.late then x.srv.checkAll g else x.srv) := by
    simp only [Server.iteration, hm, hlost]
    rfl
  have hs : ∃ σ' : Server N T K S, x.srv.iteration g c.cfg (x.tickOf k) = .ok σ' ∧ σ'.book = [] ∧
      σ'.pending = x.srv.pending ∧ ∃ os, σ'.out = x.srv.out ++ os ∧ ∀ o ∈ os, ∃ t, o = .taskDone t := by
    refine ⟨_, hit, ?_⟩
    split
    · obtain ⟨_, _, _, os, h1, h2, _⟩ := checkAll_spec (g := g) x.srv
      exact ⟨(checkAll_frame _).book.trans hb, (checkAll_frame _).pending, os, h1, h2⟩
    · exact ⟨hb, rfl, [], by simp, fun o ho => by cases ho⟩
  obtain ⟨σ', h1, h2, h3, os, h4, h5⟩ := hs
  have hpo : Sys.poolOuts g c (σ'.out.drop x.srv.out.length) x.pools = .ok x.pools := by
    rw [h4, List.drop_left]
    clear h4
    induction os with
    | nil => rfl
    | cons o os ih =>
      obtain ⟨t, rfl⟩ := h5 o List.mem_cons_self
      simp only [Sys.poolOuts, Sys.poolOut]
      exact ih (fun o ho => h5 o (List.mem_cons_of_mem _ ho))
  obtain ⟨l', h6, h7⟩ := healthLoop_deserted x.pools.pools x.pools.next (fun t p hm => ⟨h.errors t p hm, h.procs t p hm⟩)
  have hrq : x.recv.2.1 = [] := by
    simp only [Sys.recv, hq]
    split <;> rfl
  refine ⟨⟨σ', x.recv.2.1, x.recv.2.2 + ((x.closedThen k).length - x.closed.length), x.closedThen k,
    { x.pools with pools := l' }⟩, ?_, ⟨⟨hrq, h2, fun t ht => ?_⟩, fun t p hm => (h7 t p hm).1, fun t p hm => (h7 t p hm).2⟩,
    os, h4, h5⟩
  · simp only [Sys.step, Sys.loop, h1, hpo, hk, List.foldl_nil, Pools.health, h6]
  · change σ'.pending t = []
    rw [h3]
    exact hp t ht

omit [DecidableEq N] [DecidableEq T] [DecidableEq S] in
theorem evs_taskDone {l os : List (Out N T S)} (h : ∀ o ∈ os, ∃ t, o = .taskDone t) : evs (l ++ os) = evs l := by
  induction os generalizing l with
  | nil => simp
  | cons o os ih =>
    obtain ⟨t, rfl⟩ := h o List.mem_cons_self
    have := ih (l := l ++ [.taskDone t]) (fun o ho => h o (List.mem_cons_of_mem _ ho))
    rw [List.append_assoc] at this
    rw [show l ++ Out.taskDone t :: os = l ++ ([.taskDone t] ++ os) from rfl, this]
    simp [evs, toEv]

theorem steps_deserted (h : Deserted c x) {es' : List (SysEv N T S)} (hs : SysSteps g c Nobody x es' z) :
    Deserted c z ∧ evs z.srv.out = evs x.srv.out := by
  induction hs with
  | nil => exact ⟨h, rfl⟩
  | @step es y z e _ hl hp hs ih =>
    obtain ⟨h1, h2⟩ := ih
    cases e with
    | arrive m s => exact absurd hp id
    | close s => cases hs; exact ⟨⟨h1.quiet, h1.errors, h1.procs⟩, h2⟩
    | proc p => exact absurd hp id
    | loop k =>
      obtain ⟨y', a1, a2, os, a3, a4⟩ := loop_deserted (g := g) h1 hp
      rw [hs] at a1
      cases a1
      exact ⟨a2, by rw [a3, evs_taskDone a4, h2]⟩

/-- No worker failed, and only `queue.Empty` was handed to a pool. -/
def Calm (ps : Pools T) : Prop :=
  ∀ t p, (t, p) ∈ ps.pools → (∀ e ∈ p.errors, e = .queueEmpty) ∧
    ∀ w ∈ p.workers, ∀ code, w.proc = some (.exited code) → code = 0

theorem calm_report {ps : Pools T} {t : T} (h : Calm ps) : Calm (ps.report t .queueEmpty) := by
  intro t' p hm
  obtain ⟨⟨t₀, q⟩, hq, e⟩ := List.mem_map.1 hm
  dsimp only at e
  split at e
  · next h1 =>
    cases e
    subst h1
    obtain ⟨a1, a2⟩ := h _ _ hq
    refine ⟨fun e he => ?_, a2⟩
    rcases List.mem_append.1 he with he | he
    · exact a1 e he
    · exact List.mem_singleton.1 he
  · cases e; exact h _ _ hq

theorem running_report {ps : Pools T} {t t' : T} {e : PyErr} {id : Nat} (h : Running (ps.report t e) t' id) :
    Running ps t' id := by
  obtain ⟨p, hm, w, hw, h1⟩ := h
  obtain ⟨⟨t₀, q⟩, hq, e⟩ := List.mem_map.1 hm
  dsimp only at e
  split at e
  · next h2 =>
    cases e
    subst h2
    exact ⟨q, hq, w, hw, h1⟩
  · cases e; exact ⟨p, hq, w, hw, h1⟩

theorem calm_exit {ps : Pools T} {t : T} {id : Nat} (h : Calm ps) : Calm (ps.exit t id 0) := by
  intro t' p hm
  obtain ⟨⟨t₀, q⟩, hq, e⟩ := List.mem_map.1 hm
  dsimp only at e
  split at e
  · next h1 =>
    cases e
    subst h1
    obtain ⟨a1, a2⟩ := h _ _ hq
    refine ⟨a1, fun w hw code hc => ?_⟩
    obtain ⟨v, hv, rfl⟩ := List.mem_map.1 hw
    split at hc
    · cases hc; rfl
    · exact a2 v hv code hc
  · cases e; exact h _ _ hq

theorem running_exit {ps : Pools T} {t t' : T} {id id' : Nat} {code : Int} (h : Running (ps.exit t id code) t' id') :
    Running ps t' id' ∧ ¬ (t' = t ∧ id' = id) := by
  obtain ⟨p, hm, w, hw, h1⟩ := h
  obtain ⟨⟨t₀, q⟩, hq, e⟩ := List.mem_map.1 hm
  dsimp only at e
  split at e
  · next h2 =>
    cases e
    subst h2
    obtain ⟨v, hv, rfl⟩ := List.mem_map.1 hw
    split at h1
    · cases h1.2
    · next h3 =>
      refine ⟨⟨q, hq, v, hv, h1⟩, fun h4 => h3 ⟨?_, h1.2⟩⟩
      rw [h1.1, h4.2]
  · next h2 => cases e; exact ⟨⟨p, hq, w, hw, h1⟩, fun h4 => h2 h4.1⟩

/-- What the server gets to see of an exception that vanishes. -/
theorem forward_vanishes {e : PyErr} (h : Vanishes fate e) (n : Nat) : forward fate n e = [] ∨ forward fate n e = [.queueEmpty] := by
  unfold forward
  split
  · exact Or.inl rfl
  · rcases h with h | ⟨h, rfl⟩ | h <;> rw [h] <;> simp

/-- Workers that end with exceptions that vanish. -/
theorem spawnsEnd_calm : ∀ (l : List (T × Nat × PyErr)) {ps : Pools T}, (∀ d ∈ l, Vanishes fate d.2.2) → Calm ps →
    Calm (spawnsEnd fate l ps) ∧ ∀ t id, Running (spawnsEnd fate l ps) t id → Running ps t id ∧ ∀ e, (t, id, e) ∉ l
  | [], ps, _, h => ⟨h, fun t id h1 => ⟨h1, by simp⟩⟩
  | (t, id, e) :: l, ps, hv, h => by
    have h1 : Calm ((spawnEnds fate ps t id e).foldl Sys.procStep ps) ∧
        ∀ t' id', Running ((spawnEnds fate ps t id e).foldl Sys.procStep ps) t' id' →
          Running ps t' id' ∧ ¬ (t' = t ∧ id' = id) := by
      unfold spawnEnds
      rcases forward_vanishes (hv _ List.mem_cons_self) (ps.unread t) with h2 | h2
      · rw [h2]
        exact ⟨calm_exit h, fun t' id' h3 => running_exit h3⟩
      · rw [h2]
        exact ⟨calm_exit (calm_report h), fun t' id' h3 => ⟨running_report (running_exit h3).1, (running_exit h3).2⟩⟩
    obtain ⟨h2, h3⟩ := spawnsEnd_calm l (fun d hd => hv d (List.mem_cons_of_mem _ hd)) h1.1
    refine ⟨h2, fun t' id' h4 => ?_⟩
    obtain ⟨h5, h6⟩ := h3 t' id' h4
    obtain ⟨h7, h8⟩ := h1.2 t' id' h5
    refine ⟨h7, fun e' he => ?_⟩
    rcases List.mem_cons.1 he with he | he
    · cases he; exact h8 ⟨rfl, rfl⟩
    · exact h6 e' he

/-- The system after workers have ended with exceptions that vanish, as an execution. -/
theorem spawnsEnd_run : ∀ (l : List (T × Nat × PyErr)) {es : List (SysEv N T S)} {x : Sys N T K S},
    SysRun g c Anything es x → ∃ es', SysRun g c Anything es' { x with pools := spawnsEnd fate l x.pools }
  | [], es, x, h => ⟨es, h⟩
  | (t, id, e) :: l, es, x, h => by
    have h1 := procs_steps (spawnEnds fate x.pools t id e) h (fun _ _ _ => trivial)
    exact spawnsEnd_run l h1

omit [DecidableEq T] in
theorem setNum_errors (p : Pool) (next n : Nat) : (p.setNum next n).1.errors = p.errors := by
  unfold Pool.setNum
  split
  · rfl
  · split <;> rfl

theorem recruitLoop_fresh (num : T → Nat) (ready : List T) : ∀ (l : List (T × Pool)) (next : Nat),
    (∀ t p, (t, p) ∈ l → p = ⟨[], []⟩) → ∀ t p, (t, p) ∈ (Pools.recruitLoop num ready l next).1 →
      p.errors = [] ∧ ∀ w ∈ p.workers, w.proc = some .running
  | [], next, _, t, p, hm => by cases hm
  | (t, p) :: r, next, h, t', p', hm => by
    have hp := h t p List.mem_cons_self
    subst hp
    have ih := fun next => recruitLoop_fresh num ready r next (fun t q hq => h t q (List.mem_cons_of_mem _ hq))
    simp only [Pools.recruitLoop] at hm
    split at hm
    · rcases List.mem_cons.1 hm with hm | hm
      · cases hm
        refine ⟨setNum_errors _ _ _, fun w hw => ?_⟩
        rcases Pool.setNum_cases (p := ⟨[], []⟩) (next := next) (n := num t) ⟨by simp, by simp⟩ with ⟨_, h1, _⟩ | ⟨_, h1, _⟩
        · rw [h1] at hw
          simp only [List.nil_append] at hw
          exact (Pool.mem_newWorkers hw).2.2
        · rw [h1] at hw
          simp at hw
      · exact ih _ t' p' hm
    · rcases List.mem_cons.1 hm with hm | hm
      · cases hm; exact ⟨rfl, by simp⟩
      · exact ih _ t' p' hm

/-- The system at its start. -/
theorem init_fresh (h : Sys.init g c = .ok x) : NothingDue c x ∧ evs x.srv.out = [] ∧ Unhurt x.pools ∧
    ∀ t p, (t, p) ∈ x.pools.pools → ∀ w ∈ p.workers, w.proc = some .running := by
  have hf := recruit_frame (g := g) (⟨Sched.init g, [], [], [], false, false, fun _ => [], []⟩ : Server N T K S)
  obtain ⟨_, _, _, _, os, e1, e2, e3⟩ :=
    recruit_spec (g := g) (⟨Sched.init g, [], [], [], false, false, fun _ => [], []⟩ : Server N T K S)
  have e1 : (Server.init g : Server N T K S).out = os ++ [.recruit ((Sched.init g).getReadyTasks g)] := by
    rw [show (Server.init g : Server N T K S) = Server.recruit g _ from rfl, e1]
    simp
  have hp : Sys.poolOuts g c (Server.init g : Server N T K S).out (Pools.init c.cfg.served) =
      .ok ((Pools.init c.cfg.served).recruit c.num ((Sched.init g).getReadyTasks g)) := by
    have key : ∀ os : List (Out N T S), (∀ o ∈ os, ∃ t, o = .taskStart t ∨ o = .callback t) →
        Sys.poolOuts g c (os ++ [.recruit ((Sched.init g).getReadyTasks g)]) (Pools.init c.cfg.served) =
          .ok ((Pools.init c.cfg.served).recruit c.num ((Sched.init g).getReadyTasks g)) := by
      intro os
      induction os with
      | nil => intro _; rfl
      | cons o os ih =>
        intro h1
        have h2 := ih (fun o ho => h1 o (List.mem_cons_of_mem _ ho))
        obtain ⟨t, rfl | rfl⟩ := h1 o List.mem_cons_self <;> exact h2
    rw [e1]
    refine key os (fun o ho => ?_)
    obtain ⟨t, _, h1⟩ := e2 o ho
    exact ⟨t, h1⟩
  simp only [Sys.init, hp] at h
  cases h
  have hl := recruitLoop_fresh c.num ((Sched.init g).getReadyTasks g) (Pools.init c.cfg.served).pools
    (Pools.init c.cfg.served).next (by
      intro t p hm
      obtain ⟨t', _, e⟩ := List.mem_map.1 hm
      cases e
      rfl)
  refine ⟨⟨rfl, hf.book, fun t _ => congrFun hf.pending t⟩, ?_, fun t p hm => ⟨(hl t p hm).1, fun w hw code hc => ?_⟩,
    fun t p hm => (hl t p hm).2⟩
  · change evs (Server.init g : Server N T K S).out = []
    rw [e1]
    unfold evs
    rw [List.filterMap_eq_nil_iff]
    intro o ho
    rcases List.mem_append.1 ho with ho | ho
    · obtain ⟨t, _, rfl | rfl⟩ := e2 o ho <;> rfl
    · rw [List.mem_singleton.1 ho]; rfl
  · rw [(hl t p hm).2 w hw] at hc
    cases hc

end Verif
