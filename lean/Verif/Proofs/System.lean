import Verif.Spec.SystemSpec
import Verif.Proofs.WorkerPool
import Verif.Proofs.ServerLog
import Verif.Proofs.ServerSteps

/-! # The server and the worker pools inside the whole system -/

set_option linter.unusedSectionVars false

namespace Verif.Spec

open Verif

variable {N T K S : Type} [DecidableEq N] [DecidableEq T] [DecidableEq K] [DecidableEq S]
variable {g : DGraph N T K} {c : SysConf T} {P : Sys N T K S → SysEv N T S → Prop} {es : List (SysEv N T S)} {x y : Sys N T K S}

theorem SysRun.steps {es' : List (SysEv N T S)} (h : SysRun g c P es x) (h' : SysSteps g c P x es' y) :
    SysRun g c P (es ++ es') y := by
  induction h' with
  | nil => simpa using h
  | step e _ hl hq hs ih => rw [← List.append_assoc]; exact SysRun.step e ih hl hq hs

theorem SysDeliv.run {ns : List N} (h : SysDeliv g c P es x ns) : SysRun g c P es x := by
  induction h with
  | init h => exact .init h
  | step e _ hl hp hs ih => exact .step e ih hl hp hs

theorem micro_out {σ σ' : Server N T K S} (h : Micro g σ σ') : ∃ os, σ'.out = σ.out ++ os := by
  cases h with
  | send bk h hn ht => exact ⟨_, List.append_assoc _ _ _⟩
  | @shut _ t s skips st' h h1 h2 =>
    obtain ⟨os, e, _⟩ := (recruit_frame (g := g) { σ with
      sched := st', out := σ.out ++ skips.map .skip ++ [.shutdown s t] }).out
    exact ⟨_, e.trans (by rw [List.append_assoc, List.append_assoc])⟩
  | delay p h h1 h2 => exact ⟨_, rfl⟩
  | @rel _ n status st' hn hs h =>
    obtain ⟨os, e, _⟩ := ((checkAll_frame (g := g) { σ with
      sched := st', out := σ.out ++ [.release n status, .released (g.task n)] }).trans
      (recruit_frame (g := g) _)).out
    exact ⟨_, e.trans (List.append_assoc _ _ _)⟩
  | check =>
    obtain ⟨os, e, _⟩ := (checkAll_frame (g := g) σ).out
    exact ⟨os, e⟩
  | fail n w => exact ⟨_, rfl⟩
  | book bk => exact ⟨[], by simp⟩
  | pop p => exact ⟨[], by simp⟩

theorem chain_out {σ σ' : Server N T K S} (h : Chain g σ σ') : ∃ os, σ'.out = σ.out ++ os := by
  refine h.induct (P := fun σ' => ∃ os, σ'.out = σ.out ++ os) ?_ ⟨[], by simp⟩
  rintro a b _ _ hm ⟨os, e⟩
  obtain ⟨os', e'⟩ := micro_out hm
  exact ⟨os ++ os', by rw [e', e, List.append_assoc]⟩

/-- A block is handed out at least as often as it is given back. -/
theorem legal_count : ∀ {tr : List (Ev N)}, Legal g tr → ∀ n,
    tr.count (.good n) + tr.count (.bad n) ≤ tr.count (.hand n) := by
  intro tr
  induction tr using List.reverseRecOn with
  | nil => intro _ n; simp
  | append_singleton tr e ih =>
    intro h n
    have h1 := ih (legal_prefix h rfl) n
    have h2 := h tr e [] rfl
    simp only [List.count_append, List.count_cons, List.count_nil]
    cases e with
    | good m =>
      by_cases hmn : m = n
      · subst hmn
        have : tr.count (.good m) + tr.count (.bad m) < tr.count (.hand m) := h2
        simp; omega
      · simpa [hmn] using h1
    | bad m =>
      by_cases hmn : m = n
      · subst hmn
        have : tr.count (.good m) + tr.count (.bad m) < tr.count (.hand m) := h2
        simp; omega
      · simpa [hmn] using h1
    | hand m => by_cases hmn : m = n <;> simp [hmn] <;> omega
    | skip m => simpa using h1

/-- Only messages of correct clients are in the queue. -/
theorem SysRun.queue_good (h : SysRun g c P es x) : ∀ m s, (m, s) ∈ x.queue → GoodMsg g c.cfg m := by
  induction h with
  | init h =>
    unfold Sys.init at h
    dsimp only at h
    split at h
    · cases h
    · cases h; intro m s hm; cases hm
  | @step es x x' e _ hl _ hs ih =>
    intro m s hm
    cases e with
    | arrive m' s' =>
      cases hs
      rcases List.mem_append.1 hm with hm | hm
      · exact ih m s hm
      · obtain ⟨rfl, rfl⟩ := Prod.mk.inj (List.mem_singleton.1 hm)
        exact hl.2
    | close s' => cases hs; exact ih m s hm
    | proc p => cases hs; exact ih m s hm
    | loop k =>
      simp only [Sys.step, Sys.loop] at hs
      split at hs
      · cases hs
      · split at hs
        · cases hs
        · split at hs
          · cases hs
          · cases hs
            refine ih m s ?_
            simp only [Sys.recv] at hm
            split at hm
            · exact hm
            · split at hm
              · cases hm
              · next hq => rw [hq]; exact List.mem_cons_of_mem _ hm

/-- The loop is an iteration of the server. -/
theorem loop_iteration {k : LoopEnv N T S} (h : x.loop g c k = .ok y) :
    x.srv.iteration g c.cfg (x.tickOf k) = .ok y.srv := by
  simp only [Sys.loop] at h
  split at h
  · cases h
  · next srv hi =>
    split at h
    · cases h
    · split at h
      · cases h
      · cases h; exact hi

theorem goodTick_of (h : SysRun g c P es x) {k : LoopEnv N T S} (hl : LegalEv g c x (.loop k)) :
    GoodTick g c.cfg (x.tickOf k) := by
  refine ⟨?_, hl.2.1, hl.2.2⟩
  intro m s hr
  simp only [Sys.tickOf, Sys.recv] at hr
  split at hr
  · cases hr
  · split at hr
    · cases hr
    · next m' s' q hq =>
      cases hr
      exact h.queue_good m s (by rw [hq]; exact List.mem_cons_self)

theorem loop_chain (hg : g.Loose) (h : SysRun g c P es x) {k : LoopEnv N T S} (hl : LegalEv g c x (.loop k))
    {ks : List (Server.Tick N T S)} (hs : SRun g c.cfg ks x.srv) (he : x.loop g c k = .ok y) :
    Chain g x.srv y.srv := iteration_chain hg (hs.inv hg) (goodTick_of h hl) (loop_iteration he)

/-- The server in the system is a server on its own. -/
theorem SysRun.srun (h : SysRun g c P es x) : ∃ ks, SRun g c.cfg ks x.srv := by
  induction h with
  | init h =>
    unfold Sys.init at h
    dsimp only at h
    split at h
    · cases h
    · cases h; exact ⟨[], .init⟩
  | @step es x x' e h0 hl _ hs ih =>
    obtain ⟨ks, hk⟩ := ih
    cases e with
    | arrive m s => cases hs; exact ⟨ks, hk⟩
    | close s => cases hs; exact ⟨ks, hk⟩
    | proc p => cases hs; exact ⟨ks, hk⟩
    | loop k => exact ⟨_, SRun.step _ hk hl.1 (goodTick_of h0 hl) (loop_iteration hs)⟩

theorem PoolRun.trans {num : T → Nat} {maxF : Nat} {ps ps' ps'' : Pools T} {es es' : List (PoolEv T)}
    (h : PoolRun num maxF ps es ps') (h' : PoolRun num maxF ps' es' ps'') :
    PoolRun num maxF ps (es ++ es') ps'' := by
  induction h' with
  | nil => simpa using h
  | snoc _ hs ih => rw [← List.append_assoc]; exact .snoc ih hs

/-- The event of the pools that an action of the server is. -/
def poolEv (g : DGraph N T K) : Out N T S → Option (PoolEv T)
  | .recruit ts => some (.recruit ts)
  | .blockFailure n w => some (.failure (g.task n) w)
  | _ => none

/-- The event of the pools that an action of a process is. -/
def procEv : ProcEv T → PoolEv T
  | .exit t id code => .exit t id code
  | .report t e => .report t e

omit [DecidableEq N] [DecidableEq K] [DecidableEq S] in
theorem poolOuts_run : ∀ (os : List (Out N T S)) {ps ps' : Pools T}, Sys.poolOuts g c os ps = .ok ps' →
    PoolRun c.num c.maxF ps (os.filterMap (poolEv g)) ps'
  | [], ps, ps', h => by cases h; exact .nil
  | o :: os, ps, ps', h => by
    simp only [Sys.poolOuts] at h
    split at h
    · cases h
    · next ps1 h1 =>
      have h2 := poolOuts_run os h
      have h3 : PoolRun c.num c.maxF ps ([o].filterMap (poolEv g)) ps1 := by
        cases o with
        | recruit ts => exact .snoc (es := []) .nil h1
        | blockFailure n w => exact .snoc (es := []) .nil h1
        | _ => cases h1; exact .nil
      have h4 := h3.trans h2
      rw [← List.filterMap_append] at h4
      exact h4

theorem procs_run : ∀ (l : List (ProcEv T)) (ps : Pools T),
    PoolRun c.num c.maxF ps (l.map procEv) (l.foldl Sys.procStep ps)
  | [], _ => .nil
  | p :: l, ps => by
    have h1 : PoolRun c.num c.maxF ps [procEv p] (Sys.procStep ps p) := by
      cases p <;> exact .snoc (es := []) .nil rfl
    exact h1.trans (procs_run l _)

/-- The parts of an iteration. -/
theorem loop_parts {k : LoopEnv N T S} (h : x.loop g c k = .ok y) :
    ∃ ps, Sys.poolOuts g c (y.srv.out.drop x.srv.out.length) x.pools = .ok ps ∧
      (k.procs.foldl Sys.procStep ps).health = .ok y.pools ∧ y.closed = x.closedThen k ∧
      y.queue = x.recv.2.1 ∧ y.errs = x.recv.2.2 + ((x.closedThen k).length - x.closed.length) := by
  simp only [Sys.loop] at h
  split at h
  · cases h
  · split at h
    · cases h
    · next ps hp =>
      split at h
      · cases h
      · next hh => cases h; exact ⟨ps, hp, hh, rfl, rfl, rfl⟩

/-- The events of the pools during an iteration. -/
def loopPoolEvs (g : DGraph N T K) (x y : Sys N T K S) (k : LoopEnv N T S) : List (PoolEv T) :=
  (y.srv.out.drop x.srv.out.length).filterMap (poolEv g) ++ k.procs.map procEv ++ [.health]

theorem loop_pools {k : LoopEnv N T S} (h : x.loop g c k = .ok y) :
    PoolRun c.num c.maxF x.pools (loopPoolEvs g x y k) y.pools := by
  obtain ⟨ps, h1, h2, _⟩ := loop_parts h
  exact .snoc ((poolOuts_run _ h1).trans (procs_run k.procs ps)) h2

/-- The pools in the system are pools on their own. -/
theorem SysRun.poolRun (h : SysRun g c P es x) :
    ∃ pes, PoolRun c.num c.maxF (Pools.init c.cfg.served) pes x.pools := by
  induction h with
  | init h =>
    unfold Sys.init at h
    dsimp only at h
    split at h
    · cases h
    · next ps hp => cases h; exact ⟨_, poolOuts_run _ hp⟩
  | @step es x x' e h0 hl _ hs ih =>
    obtain ⟨pes, hp⟩ := ih
    cases e with
    | arrive m s => cases hs; exact ⟨pes, hp⟩
    | close s => cases hs; exact ⟨pes, hp⟩
    | proc p =>
      cases hs
      exact ⟨_, hp.trans (procs_run (c := c) [p] x.pools)⟩
    | loop k => exact ⟨_, hp.trans (loop_pools hs)⟩

end Verif.Spec
