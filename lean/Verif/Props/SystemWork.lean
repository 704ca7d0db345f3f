import Verif.Proofs.SystemStaff
import Verif.Props.System
import Verif.Props.ServerProgress

/-! # C67: tasks with work have workers -/

namespace Verif

open Spec

variable {N T K S : Type} [DecidableEq N] [DecidableEq T] [DecidableEq K] [DecidableEq S]
  {g : DGraph N T K} {c : SysConf T} {P : Sys N T K S → SysEv N T S → Prop} {es : List (SysEv N T S)}
  {x y : Sys N T K S}

/-- Processes that behave as `_process_blocks` does: the stream of a worker is called by its id; a process exits with
code 0 only after the server has asked its client to shut down, and hands no exception to its pool. -/
def HonestProc (out : List (Out N T Nat)) : ProcEv T → Prop
  | .exit t id code => code = 0 → .shutdown id t ∈ out
  | .report _ _ => False

/-- Clients and processes that behave as the code of daisy does: only running workers send messages, about their own
task, and under their own name; a stream is closed only if no process runs at its other end. -/
def Honest (g : DGraph N T K) (x : Sys N T K Nat) : SysEv N T Nat → Prop
  | .arrive (.acquire t) s => Running x.pools t s
  | .arrive (.release n _) s => Running x.pools (g.task n) s
  | .arrive (.blockFailed n w) s => Running x.pools (g.task n) s ∧ w = s
  | .arrive _ _ => False
  | .close s => ∀ t, ¬ Running x.pools t s
  | .proc p => HonestProc x.srv.out p
  | .loop k => (∀ p ∈ k.procs, HonestProc x.srv.out p) ∧ ∀ s ∈ k.closing, ∀ t, ¬ Running x.pools t s

/-- The claim: after every iteration of the event loop, a task that has a ready block has a running worker. -/
def C67_statement : Prop :=
  ∀ (N T K : Type) [DecidableEq N] [DecidableEq T] [DecidableEq K] (g : DGraph N T K) (c : SysConf T)
    (es : List (SysEv N T Nat)) (x y : Sys N T K Nat) (k : LoopEnv N T Nat), g.OK → c.cfg.served.Nodup →
    (∀ n ∈ g.nodes, g.task n ∈ c.cfg.served) → (∀ t, 0 < c.num t) → SysRun g c (Honest g) es x →
    LegalEv g c x (.loop k) → Honest g x (.loop k) → x.step g c (.loop k) = .ok y →
    (∀ n, .skip n ∉ y.srv.out) → ∀ n, Ready g (evs y.srv.out) n → ∃ id, Running y.pools (g.task n) id

/-- The last worker of a task does not leave it while it is not finished, and failures are reported by workers that
are still in their pool. -/
def Coop (g : DGraph N T K) (x : Sys N T K S) : SysEv N T S → Prop
  | .proc (.exit t id code) => code = 0 →
      TaskFinished g (evs x.srv.out) t ∨ ∃ id', id' ≠ id ∧ Running x.pools t id'
  | .loop k => (∀ t id, .exit t id 0 ∈ k.procs → TaskFinished g (evs x.srv.out) t) ∧
      ∀ n w s, x.recv.1 = .msg (.blockFailed n w) s → InPool x.pools (g.task n) w
  | _ => True

theorem Spec.SysRun.staff (hg : g.Loose) (hnd : c.cfg.served.Nodup) (hP : ∀ x e, P x e → Coop g x e)
    (h : SysRun g c P es x) : Staff c.num (TaskFinished g (evs x.srv.out)) (Recruited x.srv) x.pools := by
  induction h with
  | @init x h =>
    unfold Sys.init at h
    dsimp only at h
    split at h
    · cases h
    · next ps hp =>
      cases h
      have h0 : Staff c.num (TaskFinished g (evs (Server.init g : Server N T K S).out)) (fun _ => False)
          (Pools.init c.cfg.served) := by
        intro t p hm
        obtain ⟨t', _, he⟩ := List.mem_map.1 hm
        cases he
        exact ⟨Nat.zero_le _, fun hf => hf.elim, Or.inl rfl⟩
      have hnf : ∀ n w, .blockFailure n w ∉ (Server.init g : Server N T K S).out := by
        obtain ⟨os, e, f⟩ := recruit_noFail (g := g)
          (⟨Sched.init g, [], [], [], false, false, fun _ => [], []⟩ : Server N T K S)
        intro n w hm
        unfold Server.init at hm
        rw [e] at hm
        exact f n w hm
      refine (poolOuts_staff _ _ _ _ hnf (Pools.init_ok hnd) hp h0).1.mono (fun _ => id) ?_
      intro t hr
      exact Or.inr hr
  | @step es x x' e h0 hl hp hs ih =>
    have hco := hP _ _ hp
    obtain ⟨pes, hq⟩ := h0.poolRun
    have hok := Pools.run_ok (Pools.init_ok hnd) hq
    cases e with
    | arrive m s => cases hs; exact ih
    | close s => cases hs; exact ih
    | proc p =>
      cases hs
      have hstep : poolStep c.num c.maxF x.pools (procEv p) = .ok (Sys.procStep x.pools p) := by cases p <;> rfl
      refine (poolStep_staff hok (by intro t id hc; cases p <;> cases hc) ?_ hstep ih).mono (fun _ => id)
        (fun t hr => Or.inl hr)
      intro t id hc
      cases p with
      | exit t' id' code => cases hc; exact hco rfl
      | report t' e => cases hc
    | loop k =>
      obtain ⟨ks, hks⟩ := h0.srun
      obtain ⟨os, eo⟩ := chain_out (loop_chain hg h0 hl hks hs)
      have hfin : ∀ t, TaskFinished g (evs x.srv.out) t → TaskFinished g (evs x'.srv.out) t := by
        intro t ht
        rw [eo, show evs (x.srv.out ++ os) = evs x.srv.out ++ evs os from List.filterMap_append]
        exact finished_mono ht
      obtain ⟨ps, h1, h2, _⟩ := loop_parts hs
      obtain ⟨a, b, d, ea, fa, fd, fb⟩ := iteration_fail_one (loop_iteration hs)
      have ed : x'.srv.out.drop x.srv.out.length = a ++ b ++ d := by rw [ea, List.drop_left]
      rw [ed] at h1
      obtain ⟨ps2, hab, h5⟩ := poolOuts_append (a ++ b) d _ _ h1
      obtain ⟨ps1, h3, h4⟩ := poolOuts_append a b _ _ hab
      obtain ⟨s1, k1⟩ := poolOuts_staff a (Recruited x.srv) _ _ fa hok h3
        (ih.mono hfin (fun _ => id))
      have hok1 := poolOuts_ok hok h3
      have s2 : Staff c.num (TaskFinished g (evs x'.srv.out)) (fun t => Recruited x.srv t ∨ RecruitedIn a t) ps2 := by
        rcases fb with rfl | ⟨n, w, s, rfl, hrec⟩
        · cases h4; exact s1
        · simp only [Sys.poolOuts] at h4
          split at h4
          · cases h4
          · next ps2' h6 =>
            cases h4
            have hstep : poolStep c.num c.maxF ps1 (.failure (g.task n) w) = .ok ps2 := h6
            refine (poolStep_staff hok1 ?_ (by intro t id hc; cases hc) hstep s1).mono (fun _ => id)
              (fun t hr => Or.inl hr)
            intro t id hc
            cases hc
            exact k1 _ _ (hco.2 n w s hrec)
      have hok2 := poolOuts_ok hok1 h4
      have s3 := (poolOuts_staff d _ _ _ fd hok2 h5 s2).1
      have hok3 := poolOuts_ok hok2 h5
      have s4 := procs_staff k.procs ps hok3 (fun t id hm => hfin t (hco.1 t id hm)) s3
      have hok4 := Pools.run_ok hok3 (procs_run (c := c) k.procs ps)
      have s5 := poolStep_staff (maxF := c.maxF) (e := .health) hok4 (by intro t id hc; cases hc)
        (by intro t id hc; cases hc) h2 s4
      refine s5.mono (fun _ => id) ?_
      rintro t ⟨ts, hm, ht⟩
      left
      rw [ea] at hm
      rcases List.mem_append.1 hm with hm | hm
      · exact Or.inl (Or.inl ⟨ts, hm, ht⟩)
      · rcases List.mem_append.1 hm with hm | hm
        · rcases List.mem_append.1 hm with hm | hm
          · exact Or.inl (Or.inr ⟨ts, hm, ht⟩)
          · rcases fb with rfl | ⟨n, w, s, rfl, _⟩
            · cases hm
            · cases List.mem_singleton.1 hm
        · exact Or.inr ⟨ts, hm, ht⟩

/-- C67, partial.  The full claim needs no `Coop` and is false (`C67_false`): if the last worker of a task exits with
code 0 only after the task is finished, and failures are reported by workers that are still in their pool, then after
every iteration every task that was recruited and is not finished has a running worker. -/
theorem C67_workers_partial (hg : g.Loose) (hnd : c.cfg.served.Nodup) (hP : ∀ x e, P x e → Coop g x e)
    (h : SysRun g c P es x) {k : LoopEnv N T S} (hl : LegalEv g c x (.loop k)) (hp : P x (.loop k))
    (hs : x.step g c (.loop k) = .ok y) {t : T} (ht : t ∈ c.cfg.served) (hnum : 0 < c.num t)
    (hr : Recruited y.srv t) (hf : ¬ TaskFinished g (evs y.srv.out) t) : ∃ id, Running y.pools t id := by
  have h' := SysRun.step _ h hl hp hs
  have hst := h'.staff hg hnd hP
  obtain ⟨pes, hq⟩ := h'.poolRun
  have hkeys : y.pools.pools.map (·.1) = c.cfg.served := by
    rw [poolRun_keys (Pools.init_ok hnd).1 hq]
    simp [Pools.init, Function.comp_def]
  rw [← hkeys] at ht
  obtain ⟨⟨t, p⟩, hm, rfl⟩ := List.mem_map.1 ht
  obtain ⟨h1, h2, h3⟩ := hst t p hm
  have h2 := h2 hr
  rcases h3 with h3 | ⟨w, hw, h3⟩ | h3
  · rw [h3] at h2
    have h2 : 0 = c.num t := h2
    dsimp only at hnum
    omega
  · refine ⟨w.id, p, hm, w, hw, rfl, ?_⟩
    rcases h3 with h3 | ⟨code, hc, h3⟩
    · exact h3
    · -- after the health check there are no exited processes
      exfalso
      obtain ⟨pes0, hq0⟩ := h.poolRun
      obtain ⟨ps, a1, a2, _⟩ := loop_parts hs
      have hok4 := Pools.run_ok (poolOuts_ok (Pools.run_ok (Pools.init_ok hnd) hq0) a1)
        (procs_run (c := c) k.procs ps)
      obtain ⟨q, b, hq', _, hqok, he, _⟩ := Pools.step_mem (num := c.num) (maxF := c.maxF) (e := .health) hok4 a2 hm
      simp only [Pools.stepFun] at he
      rw [he, (Pools.healthPool_workers hqok).1] at hw
      rcases List.mem_append.1 hw with hw | hw
      · obtain ⟨v, _, hv⟩ := List.mem_map.1 hw
        rw [← hv] at h3
        unfold Pool.forget at h3
        split at h3
        · cases h3
        · next hn => exact hn _ h3
      · rw [(Pool.mem_newWorkers hw).2.2] at h3
        cases h3
  · exact absurd h3 hf

/-- C67, partial, in terms of blocks: as long as nothing was skipped, a task with a ready block has a running
worker. -/
theorem C67_ready_partial (hg : g.OK) (hnd : c.cfg.served.Nodup) (hserved : ∀ n ∈ g.nodes, g.task n ∈ c.cfg.served)
    (hP : ∀ x e, P x e → Coop g x e) (h : SysRun g c P es x) {k : LoopEnv N T S} (hl : LegalEv g c x (.loop k))
    (hp : P x (.loop k)) (hs : x.step g c (.loop k) = .ok y) (hskip : ∀ n, .skip n ∉ y.srv.out) {n : N}
    (hnum : 0 < c.num (g.task n)) (hr : Ready g (evs y.srv.out) n) : ∃ id, Running y.pools (g.task n) id := by
  have h' := SysRun.step _ h hl hp hs
  obtain ⟨ks, hks⟩ := h'.srun
  refine C67_workers_partial hg hnd hP h hl hp hs (hserved n hr.1) hnum (C53_no_skips hg hks hskip hr) ?_
  intro hf
  obtain ⟨_, h2, h3, h4⟩ := (C19_disjoint_partial hg (hks.inv hg).run n).1 hr
  rcases hf n hr.1 rfl with h5 | h5 | h5
  · exact h2 h5
  · exact h3 h5
  · exact h4 h5

/-! ### Executions -/

/-- `Running`, computed. -/
def runningB (ps : Pools T) (t : T) (id : Nat) : Bool :=
  ps.pools.any (fun q => decide (q.1 = t) && q.2.workers.any (fun w => decide (w.id = id ∧ w.proc = some .running)))

theorem runningB_iff {ps : Pools T} {t : T} {id : Nat} : runningB ps t id = true ↔ Running ps t id := by
  simp only [runningB, List.any_eq_true, Bool.and_eq_true, decide_eq_true_eq, Running]
  constructor
  · rintro ⟨⟨t', p⟩, hm, rfl, w, hw, h⟩
    exact ⟨p, hm, w, hw, h⟩
  · rintro ⟨p, hm, w, hw, h⟩
    exact ⟨(t, p), hm, rfl, w, hw, h⟩

/-- No process runs at the other end of a stream. -/
def aloneB (ps : Pools T) (s : Nat) : Bool :=
  ps.pools.all (fun q => q.2.workers.all (fun w => decide (¬ (w.id = s ∧ w.proc = some .running))))

omit [DecidableEq T] in
theorem aloneB_spec {ps : Pools T} {s : Nat} (h : aloneB ps s = true) (t : T) : ¬ Running ps t s := by
  rintro ⟨p, hm, w, hw, h1⟩
  have h2 := List.all_eq_true.1 (List.all_eq_true.1 h _ hm) _ hw
  exact of_decide_eq_true h2 h1

/-- `HonestProc`, computed. -/
def honestProcB (out : List (Out N T Nat)) : ProcEv T → Bool
  | .exit t id code => decide (code = 0 → .shutdown id t ∈ out)
  | .report _ _ => false

theorem honestProcB_spec {out : List (Out N T Nat)} {p : ProcEv T} (h : honestProcB out p = true) :
    HonestProc out p := by
  cases p with
  | exit t id code => exact of_decide_eq_true (p := code = 0 → (.shutdown id t : Out N T Nat) ∈ out) h
  | report t e => cases h

/-- `Honest`, computed. -/
def honestB (g : DGraph N T K) (x : Sys N T K Nat) : SysEv N T Nat → Bool
  | .arrive (.acquire t) s => runningB x.pools t s
  | .arrive (.release n _) s => runningB x.pools (g.task n) s
  | .arrive (.blockFailed n w) s => runningB x.pools (g.task n) s && decide (w = s)
  | .arrive _ _ => false
  | .close s => aloneB x.pools s
  | .proc p => honestProcB x.srv.out p
  | .loop k => k.procs.all (honestProcB x.srv.out) && k.closing.all (aloneB x.pools)

omit [DecidableEq K] in
theorem honestB_spec {x : Sys N T K Nat} {e : SysEv N T Nat} (h : honestB g x e = true) : Honest g x e := by
  cases e with
  | arrive m s =>
    cases m with
    | acquire t => exact runningB_iff.1 h
    | release n st => exact runningB_iff.1 h
    | blockFailed n w =>
      obtain ⟨h1, h2⟩ := Bool.and_eq_true_iff.1 h
      exact ⟨runningB_iff.1 h1, of_decide_eq_true h2⟩
    | _ => cases h
  | close s => exact aloneB_spec h
  | proc p => exact honestProcB_spec h
  | loop k =>
    obtain ⟨h1, h2⟩ := Bool.and_eq_true_iff.1 h
    exact ⟨fun p hp => honestProcB_spec (List.all_eq_true.1 h1 p hp),
      fun s hs => aloneB_spec (List.all_eq_true.1 h2 s hs)⟩

namespace Ex

/-- One block, which may be retried. -/
def one : DGraph (Fin 1) (Fin 1) (Fin 1) := finGraph 1 1 (fun _ => []) (fun _ => 0) (fun _ => 5) [0]

theorem one_ok : one.OK := finGraph_ok (by decide) (by decide) (by decide) (by decide)

/-- One worker, restarted after more than three failures. -/
def oneConf : SysConf (Fin 1) := ⟨⟨[0], fun _ => none⟩, fun _ => 1, 3⟩

/-- Worker 0 gets the block and is killed; it is replaced by worker 1, which is told to shut down because there is
nothing left to do, and does so; then the stream of worker 0 is closed. -/
def oneCrash : List (SysEv (Fin 1) (Fin 1) Nat) :=
  [.msg (.acquire 0) 0, .loop [] [], .proc (.exit 0 0 (-9)), .loop [] [], .msg (.acquire 0) 1, .loop [] [],
    .proc (.exit 0 1 0), .close 0].map SimpleEv.ev

/-- What becomes of it in the next iteration. -/
def oneAfter (x : Sys (Fin 1) (Fin 1) (Fin 1) Nat) : Bool :=
  decide (x.srv.stop = false) && match x.step one oneConf (evLoop [] []) with
  | .ok y => decide (Ready one (evs y.srv.out) 0 ∧ .skip 0 ∉ y.srv.out) &&
      y.pools.pools.all (fun q => q.2.workers.all (fun w => decide (w.proc ≠ some .running)))
  | .error _ => false

end Ex

/-- C67 is false: the killed worker is replaced before the server notices that its block is lost; the new worker
is sent home because there is nothing to do, and nobody is left when the block is queued again. -/
theorem C67_false : ¬ C67_statement := by
  intro hC
  have hx : (sysExec Ex.one Ex.oneConf (honestB Ex.one) Ex.oneCrash).map (fun r => Ex.oneAfter r.1) = some true := by
    decide +kernel
  obtain ⟨x, ns, h, _, e⟩ := sysExec_run (P := Honest Ex.one) (fun x e => honestB_spec) (simple_legal _) _ hx
  obtain ⟨e1, e2⟩ := Bool.and_eq_true_iff.1 e
  have hl : LegalEv Ex.one Ex.oneConf x (evLoop [] []) := ⟨of_decide_eq_true e1, evLoop_legal _ _ _ rfl⟩
  split at e2
  · next y hy =>
    obtain ⟨e3, e4⟩ := Bool.and_eq_true_iff.1 e2
    obtain ⟨e3, e5⟩ := of_decide_eq_true e3
    obtain ⟨id, p, hm, w, hw, _, hr⟩ := hC _ _ _ _ _ _ x y _ Ex.one_ok (by decide) (by decide) (by decide) h hl
      ⟨by simp [envOf], by simp [envOf]⟩ hy (fun n => by rw [Fin.eq_zero n]; exact e5) 0 e3
    exact of_decide_eq_true (List.all_eq_true.1 (List.all_eq_true.1 e4 _ hm) _ hw) hr
  · cases e2

/-- A worker that is killed while it has a block is replaced, and the block is queued again. -/
example : ∃ (es : List (SysEv (Fin 1) (Fin 1) Nat)) (x y : Sys (Fin 1) (Fin 1) (Fin 1) Nat) (k : LoopEnv _ _ _),
    Ex.one.OK ∧ SysRun Ex.one Ex.oneConf (Coop Ex.one) es x ∧ LegalEv Ex.one Ex.oneConf x (.loop k) ∧
    Coop Ex.one x (.loop k) ∧ x.step Ex.one Ex.oneConf (.loop k) = .ok y ∧ (∀ n, .skip n ∉ y.srv.out) ∧
    Ready Ex.one (evs y.srv.out) 0 ∧ Running y.pools 0 1 := by
  have hx : (sysExec Ex.one Ex.oneConf (fun x e => match e with
      | .proc (.exit _ _ code) => decide (code ≠ 0)
      | .loop k => decide (k.procs = []) && match x.recv.1 with | .msg (.blockFailed _ _) _ => false | _ => true
      | _ => true) (([.msg (.acquire 0) 0, .loop [] [], .proc (.exit 0 0 (-9)), .close 0] :
        List (SimpleEv (Fin 1) (Fin 1) Nat)).map SimpleEv.ev)).map (fun r => decide (r.1.srv.stop = false ∧
        0 < r.1.errs) && match r.1.step Ex.one Ex.oneConf (evLoop [] []) with
      | .ok y => decide (Ready Ex.one (evs y.srv.out) 0 ∧ .skip 0 ∉ y.srv.out) && runningB y.pools 0 1
      | .error _ => false) = some true := by
    decide +kernel
  obtain ⟨x, ns, h, _, e⟩ := sysExec_run (P := Coop Ex.one) (by
    intro x e h
    cases e with
    | proc p =>
      cases p with
      | exit t id code => exact fun hc => absurd hc (of_decide_eq_true h)
      | report t e => trivial
    | loop k =>
      obtain ⟨h1, h2⟩ := Bool.and_eq_true_iff.1 h
      have h1 := of_decide_eq_true h1
      refine ⟨fun t id hm => ?_, fun n w s hr => ?_⟩
      · rw [h1] at hm; cases hm
      · rw [hr] at h2; cases h2
    | _ => trivial) (simple_legal _) _ hx
  obtain ⟨e1, e2⟩ := Bool.and_eq_true_iff.1 e
  obtain ⟨e1, e6⟩ := of_decide_eq_true e1
  split at e2
  · next y hy =>
    obtain ⟨e3, e4⟩ := Bool.and_eq_true_iff.1 e2
    obtain ⟨e3, e5⟩ := of_decide_eq_true e3
    refine ⟨_, x, y, envOf pickMin [] [], Ex.one_ok, h, ⟨e1, evLoop_legal _ _ _ rfl⟩, ⟨fun t id hm => (by cases hm),
      fun n w s hr => ?_⟩, hy, fun n => by rw [Fin.eq_zero n]; exact e5, e3, runningB_iff.1 e4⟩
    simp only [Sys.recv, if_pos (show 0 < x.errs from e6)] at hr
    cases hr
  · cases e2

end Verif
