import Verif.Props.Processes
import Verif.Proofs.ProcessPools

/-! # The worker pools are what their processes make them: C97

`Model/WorkerPool` (pools of workers that know whether their process runs) and `Model/Processes` (pools of ids, and a table
of processes) are two models of the same files.  If processes can be started, they do the same, step by step. -/

namespace Verif

open PWorld Spec

variable {T : Type} [DecidableEq T] {fail : StartFails} {num : T → Nat} {maxF : Nat} {tasks : List T}

/-- The same pools with the same workers in the same order, whose processes are in the same state. -/
def PWorld.Shows (w : PWorld T) (ps : Pools T) : Prop :=
  ps.next = w.next ∧ ps.pools.map (fun e => (e.1, e.2.workers)) = w.pools.map (fun e => (e.1, e.2.map (seen w.os)))

/-- A sequence of events without an exception. -/
inductive PRun (fail : StartFails) (num : T → Nat) (w : PWorld T) : List (PEv T) → PWorld T → Prop where
  | nil : PRun fail num w [] w
  | snoc {es : List (PEv T)} {e : PEv T} {w' w'' : PWorld T} : PRun fail num w es w' →
      w'.step fail num e = ⟨none, w''⟩ → PRun fail num w (es ++ [e]) w''

omit [DecidableEq T] in
/-- A loop over the pools. -/
theorem shows_thread {f : T → One → PRes One} {g : T → Pool → Nat → Pool × Nat} (hg : Pools.Good g)
    (hs : ∀ t, Sim (f t) (g t)) {w : PWorld T} {ps ps' : Pools T} (hok : Pools.OK ps.pools ps.next)
    (h : w.Shows ps) (h' : (ps'.pools, ps'.next) = Pools.thread g ps.pools ps.next) :
    ∃ w', each f w.pools w.next w.os = ⟨none, w'⟩ ∧ w'.Shows ps' := by
  obtain ⟨a1, a2, a3, _⟩ := each_sim hg hs w.pools ps.pools ps.next w.next w.os (le_of_eq h.1) hok h.2
  rcases hr : each f w.pools w.next w.os with ⟨err, w'⟩
  rw [hr, ← h.1, ← h'] at a2 a3
  rw [hr] at a1
  simp only at a1
  subst a1
  exact ⟨w', rfl, a2, a3⟩

theorem shows_recruit (hf : ∀ i, fail i = none) {w : PWorld T} {ps : Pools T} (hok : Pools.OK ps.pools ps.next)
    (h : w.Shows ps) (ready : List T) :
    ∃ w', w.recruit fail num ready = ⟨none, w'⟩ ∧ w'.Shows (ps.recruit num ready) := by
  refine shows_thread (Pools.good_setNum num ready) ?_ hok h ?_
  · intro t x p hp hx
    simp only
    split_ifs
    · exact setNum_sim hf _ x p hp hx
    · exact same_sim x p hp hx
  · rw [← Pools.recruitLoop_eq]
    rfl

theorem shows_health (hf : ∀ i, fail i = none) {w : PWorld T} {ps ps' : Pools T} (hok : Pools.OK ps.pools ps.next)
    (h : w.Shows ps) {reported : T → Option PyErr} (hr : ∀ t e, reported t = some e → e = .queueEmpty)
    (hh : ps.health = .ok ps') : ∃ w', w.health fail reported = ⟨none, w'⟩ ∧ w'.Shows ps' := by
  refine shows_thread Pools.good_health ?_ hok h (Pools.step_thread (num := fun _ => 0) (maxF := 0) (e := .health) hok.1 hh)
  intro t x p hp hx
  have : healthOne fail (reported t) x = replaceDead fail x := by
    unfold healthOne
    cases he : reported t with
    | none => rfl
    | some e => simp only [hr t e he, if_true]
  simp only [this]
  exact replaceDead_sim hf x p hp hx

theorem shows_restart (hf : ∀ i, fail i = none) {w : PWorld T} {ps ps' : Pools T} (hok : Pools.OK ps.pools ps.next)
    (h : w.Shows ps) {t : T} {id : Nat} (hc : maxF < ps.counts t id + 1) (hh : ps.onBlockFailure maxF t id = .ok ps') :
    ∃ w', w.restart fail t id = ⟨none, w'⟩ ∧ w'.Shows ps' := by
  have ht := Pools.step_thread (num := fun _ => 0) (maxF := maxF) (e := .failure t id) hok.1 hh
  have hg : Pools.stepFun (fun _ => 0) maxF ps (.failure t id) =
      fun t' p a => if t' = t then (p.stop id).start a 1 else (p, a) := by
    unfold Pools.stepFun
    simp only [hc, if_true]
  rw [hg] at ht
  refine shows_thread (Pools.good_restart t id) ?_ hok h ht
  intro t' x p hp hx
  simp only
  split_ifs
  · exact restart_sim hf id x p hp hx
  · exact same_sim x p hp hx

theorem shows_exit {w : PWorld T} {ps : Pools T} (hok : Pools.OK ps.pools ps.next) (h : w.Shows ps) {t : T} {p : Pool}
    {id : Nat} (hp : (t, p) ∈ ps.pools) (hw : ⟨id, some .running⟩ ∈ p.workers) (code : Int) :
    (w.exit id code).Shows (ps.exit t id code) := by
  -- the only worker with this id
  have honly : ∀ e ∈ ps.pools, ∀ v ∈ e.2.workers, v.id = id → e = (t, p) ∧ v = ⟨id, some .running⟩ := by
    intro e he v hv hid
    have he' : e = (t, p) := by
      by_contra hne
      have hpw : ps.pools.Pairwise (fun e g => ∀ v ∈ e.2.workers, ∀ w ∈ g.2.workers, v.id ≠ w.id) := hok.2.2
      have : Std.Symm (fun e g : T × Pool => ∀ v ∈ e.2.workers, ∀ w ∈ g.2.workers, v.id ≠ w.id) :=
        ⟨fun x y hxy v hv w hw hc => hxy w hw v hv hc.symm⟩
      have := hpw.forall he hp hne
      exact this v hv _ hw hid
    subst he'
    exact ⟨rfl, Pool.ids_inj (hok.2.1 _ hp).1 hv hw hid⟩
  -- it runs
  have hmem : (t, p.workers) ∈ w.pools.map (fun e => (e.1, e.2.map (seen w.os))) := by
    rw [← h.2]
    exact List.mem_map.2 ⟨_, hp, rfl⟩
  obtain ⟨e0, he0, hee⟩ := List.mem_map.1 hmem
  rw [Prod.mk.injEq] at hee
  rw [← hee.2] at hw
  obtain ⟨v0, hv0, hs0⟩ := List.mem_map.1 hw
  have hrun : w.os id = some none := by
    unfold seen at hs0
    simp only [Worker.mk.injEq] at hs0
    obtain ⟨h1, h2⟩ := hs0
    rw [← h1]
    split_ifs at h2
    rcases ho : w.os v0.id with _ | _ | c
    · rw [ho] at h2; cases h2
    · rfl
    · rw [ho] at h2; cases h2
  unfold PWorld.exit
  rw [if_pos hrun]
  refine ⟨h.1, ?_⟩
  simp only
  -- pool by pool
  have key : ∀ (q : List (T × Pool)) (l : List (T × List PWorker)),
      (∀ e ∈ q, ∀ v ∈ e.2.workers, v.id = id → e.1 = t ∧ v = ⟨id, some .running⟩) →
      q.map (fun e => (e.1, e.2.workers)) = l.map (fun e => (e.1, e.2.map (seen w.os))) →
      (q.map (fun e => if e.1 = t then (t, (⟨e.2.workers.map (fun w => if w.id = id ∧ w.proc = some .running then
          ⟨w.id, some (.exited code)⟩ else w), e.2.errors⟩ : Pool)) else e)).map (fun e => (e.1, e.2.workers)) =
        l.map (fun e => (e.1, e.2.map (seen (setOs w.os id (some code))))) := by
    intro q
    induction q with
    | nil =>
      intro l _ hl
      cases l with
      | nil => rfl
      | cons a l => simp at hl
    | cons e q ih =>
      intro l hq hl
      cases l with
      | nil => simp at hl
      | cons a l =>
        rw [List.map_cons, List.map_cons] at hl
        obtain ⟨h1, h2⟩ := List.cons.inj hl
        rw [List.map_cons, List.map_cons, List.map_cons, ih l (fun e he => hq e (List.mem_cons_of_mem _ he)) h2]
        congr 1
        rw [Prod.mk.injEq] at h1
        obtain ⟨h3, h4⟩ := h1
        have hsee : ∀ v ∈ a.2, v.id ≠ id → seen (setOs w.os id (some code)) v = seen w.os v := by
          intro v _ hne
          apply seen_congr
          simp only [setOs]
          rw [if_neg hne]
        split_ifs with ht
        · simp only
          rw [← ht, h3]
          congr 1
          rw [h4, List.map_map]
          apply List.map_congr_left
          intro v hv
          simp only [Function.comp]
          by_cases hid : v.id = id
          · have := hq e List.mem_cons_self (seen w.os v) (by rw [h4]; exact List.mem_map_of_mem hv) hid
            rw [this.2]
            have hpr : v.proc = true := by
              have h5 := this.2
              unfold seen at h5
              simp only [Worker.mk.injEq] at h5
              by_contra hc
              rw [if_neg hc] at h5
              cases h5.2
            unfold seen
            simp only [hpr, hid, setOs, if_true, and_self]
          · rw [hsee v hv hid, if_neg (fun hc => hid hc.1)]
        · rw [Prod.mk.injEq]
          refine ⟨h3, ?_⟩
          rw [h4]
          apply List.map_congr_left
          intro v hv
          symm
          apply hsee v hv
          intro hid
          exact ht (hq e List.mem_cons_self (seen w.os v) (by rw [h4]; exact List.mem_map_of_mem hv) hid).1
  exact key ps.pools w.pools (fun e he v hv hid => by
    obtain ⟨h1, h2⟩ := honly e he v hv hid
    exact ⟨by rw [h1], h2⟩) h.2

/-- If nobody with this id runs in the pool of the task, nothing ends. -/
theorem exit_nobody {w : PWorld T} {ps : Pools T} (h : w.Shows ps) {t : T} {id : Nat}
    (hno : ∀ p, (t, p) ∈ ps.pools → ⟨id, some .running⟩ ∉ p.workers) (code : Int) : w.Shows (ps.exit t id code) := by
  refine ⟨h.1, ?_⟩
  rw [← h.2]
  unfold Pools.exit
  simp only
  rw [List.map_map]
  apply List.map_congr_left
  intro e he
  simp only [Function.comp]
  split_ifs with ht
  · simp only
    rw [ht]
    congr 1
    conv_rhs => rw [← List.map_id e.2.workers]
    apply List.map_congr_left
    intro v hv
    rw [if_neg]
    · rfl
    · rintro ⟨h1, h2⟩
      apply hno e.2 (by rw [← ht]; exact he)
      rw [← h1, ← h2]
      exact hv
  · rfl

/-- Whatever happens to the pools of `Model/WorkerPool` happens to those with processes, too. -/
theorem C97_refines (hf : ∀ i, fail i = none) (hnd : tasks.Nodup) {es : List (PoolEv T)} {ps : Pools T}
    (h : PoolRun num maxF (Pools.init tasks) es ps) :
    ∃ pes w, PRun fail num (PWorld.init tasks) pes w ∧ w.Shows ps := by
  induction h with
  | nil =>
    refine ⟨[], _, .nil, rfl, ?_⟩
    unfold Pools.init PWorld.init
    simp
  | @snoc es e ps1 ps2 h0 hs ih =>
    obtain ⟨pes, w, hrun, hsh⟩ := ih
    have hok := Pools.run_ok (Pools.init_ok hnd) h0
    cases e with
    | recruit ready =>
      simp only [poolStep] at hs
      cases hs
      obtain ⟨w', h1, h2⟩ := shows_recruit hf hok hsh ready
      exact ⟨_, w', hrun.snoc (e := .recruit ready) h1, h2⟩
    | health =>
      obtain ⟨w', h1, h2⟩ := shows_health (reported := fun _ => none) hf hok hsh (fun _ _ hc => by cases hc) hs
      exact ⟨_, w', hrun.snoc (e := .health fun _ => none) h1, h2⟩
    | failure t id =>
      by_cases hc : maxF < ps1.counts t id + 1
      · obtain ⟨w', h1, h2⟩ := shows_restart hf hok hsh hc hs
        exact ⟨_, w', hrun.snoc (e := .restart t id) h1, h2⟩
      · simp only [poolStep, Pools.onBlockFailure, hc, if_false] at hs
        cases hs
        exact ⟨pes, w, hrun, hsh⟩
    | exit t id code =>
      simp only [poolStep] at hs
      cases hs
      by_cases hr : ∃ p, (t, p) ∈ ps1.pools ∧ ⟨id, some .running⟩ ∈ p.workers
      · obtain ⟨p, hp, hw⟩ := hr
        exact ⟨_, _, hrun.snoc (e := .exit id code) rfl, shows_exit hok hsh hp hw code⟩
      · exact ⟨pes, w, hrun, exit_nobody hsh (fun p hp hw => hr ⟨p, hp, hw⟩) code⟩
    | report t e =>
      simp only [poolStep] at hs
      cases hs
      refine ⟨pes, w, hrun, hsh.1, ?_⟩
      rw [← hsh.2]
      unfold Pools.report
      simp only
      rw [List.map_map]
      apply List.map_congr_left
      intro e he
      simp only [Function.comp]
      split_ifs with ht
      · rw [← ht]
      · rfl

omit [DecidableEq T] in
/-- The running processes are those of the workers that the pools take for running. -/
theorem shows_running {w : PWorld T} {ps : Pools T} (hfit : Fits (fun _ => False) w) (h : w.Shows ps) (i : Nat) :
    w.os i = some none ↔ ∃ t p, (t, p) ∈ ps.pools ∧ ⟨i, some .running⟩ ∈ p.workers := by
  constructor
  · intro hi
    rcases hfit.alive i hi with ⟨e, he, hm⟩ | hc
    · have : (e.1, e.2.map (seen w.os)) ∈ ps.pools.map (fun e => (e.1, e.2.workers)) := by
        rw [h.2]
        exact List.mem_map.2 ⟨e, he, rfl⟩
      obtain ⟨e', he', hee⟩ := List.mem_map.1 this
      rw [Prod.mk.injEq] at hee
      refine ⟨e'.1, e'.2, he', ?_⟩
      rw [hee.2]
      refine List.mem_map.2 ⟨_, hm, ?_⟩
      unfold seen
      simp only [if_true, hi]
    · exact hc.elim
  · rintro ⟨t, p, hp, hw⟩
    have hmem : (t, p.workers) ∈ w.pools.map (fun e => (e.1, e.2.map (seen w.os))) := by
      rw [← h.2]
      exact List.mem_map.2 ⟨_, hp, rfl⟩
    obtain ⟨e0, _, hee⟩ := List.mem_map.1 hmem
    rw [Prod.mk.injEq] at hee
    rw [← hee.2] at hw
    obtain ⟨v0, _, hs0⟩ := List.mem_map.1 hw
    unfold seen at hs0
    simp only [Worker.mk.injEq] at hs0
    obtain ⟨h1, h2⟩ := hs0
    rw [← h1]
    split_ifs at h2
    rcases ho : w.os v0.id with _ | _ | c
    · rw [ho] at h2; cases h2
    · rfl
    · rw [ho] at h2; cases h2

theorem PRun.fits {pes : List (PEv T)} {w : PWorld T} (h : PRun fail num (PWorld.init tasks) pes w) :
    Fits (fun _ => False) w := by
  induction h with
  | nil => exact init_fits tasks
  | @snoc _ e _ _ _ hs ih =>
    have := step_fits (fail := fail) (num := num) ih e
    rw [hs] at this
    exact this.mono fun j ⟨e', he, _⟩ => by cases he

omit [DecidableEq T] in
/-- A check of the health that does not raise does not depend on what is reported. -/
theorem health_quiet {reported : T → Option PyErr} : ∀ (l : List (T × List PWorker)) (next : Nat)
    (os : Nat → Option (Option Int)), (each (fun t x => healthOne fail (reported t) x) l next os).err = none →
    each (fun t x => healthOne fail (reported t) x) l next os = each (fun _ x => healthOne fail none x) l next os
  | [], _, _, _ => rfl
  | (t, ws) :: r, next, os, h => by
    have key : healthOne fail (reported t) ⟨ws, next, os⟩ = healthOne fail none ⟨ws, next, os⟩ := by
      cases hr : reported t with
      | none => rfl
      | some e =>
        by_cases he : e = .queueEmpty
        · simp [healthOne, he]
        · exfalso
          simp [each, healthOne, hr, he] at h
    rw [each] at h ⊢
    conv_rhs => rw [each]
    rw [key] at h ⊢
    rcases hy : healthOne fail none ⟨ws, next, os⟩ with ⟨err, y⟩
    rw [hy] at h
    cases err with
    | some e => rfl
    | none =>
      simp only at h ⊢
      rw [health_quiet r y.next y.os h]

/-- The pools of other tasks are left alone. -/
theorem restart_other {t : T} {id : Nat} : ∀ (l : List (T × List PWorker)) (next : Nat) (os : Nat → Option (Option Int)),
    (∀ e ∈ l, e.1 ≠ t) →
    each (fun t' x => if t' = t then start fail (stopOne x id) 1 else ⟨none, x⟩) l next os = ⟨none, ⟨l, next, os⟩⟩
  | [], _, _, _ => rfl
  | (t', ws) :: r, next, os, h => by
    rw [each, if_neg (h _ List.mem_cons_self)]
    simp only
    rw [restart_other r next os (fun e he => h e (List.mem_cons_of_mem _ he))]

/-- Conversely, whatever happens to the pools with processes happens to those of `Model/WorkerPool`, if every reported
failure leads to a restart (`restart` is only the part of `on_block_failure` after the counting); nothing is reported. -/
theorem C97_refined (hf : ∀ i, fail i = none) (hnd : tasks.Nodup) {pes : List (PEv T)} {w : PWorld T}
    (h : PRun fail num (PWorld.init tasks) pes w) :
    ∃ es ps, PoolRun num 0 (Pools.init tasks) es ps ∧ w.Shows ps ∧ ∀ e ∈ ps.pools, e.2.errors = [] := by
  induction h with
  | nil =>
    refine ⟨[], _, .nil, ⟨rfl, ?_⟩, ?_⟩
    · unfold Pools.init PWorld.init
      simp
    · intro e he
      obtain ⟨t, _, rfl⟩ := List.mem_map.1 he
      rfl
  | @snoc pes e w1 w2 h0 hs ih =>
    obtain ⟨es, ps, hrun, hsh, herr⟩ := ih
    have hok := Pools.run_ok (Pools.init_ok hnd) hrun
    have errs : ∀ {e : PoolEv T} {ps' : Pools T}, poolStep num 0 ps e = .ok ps' → (∀ t x, e ≠ .report t x) →
        ∀ x ∈ ps'.pools, x.2.errors = [] := by
      intro e ps' hst hne x hx
      obtain ⟨p, b, hp, hb, hpok, hpe, _⟩ := Pools.step_mem hok hst (t := x.1) (p' := x.2) hx
      rw [hpe]
      have h0 : p.errors = [] := herr _ hp
      cases e with
      | recruit ready =>
        unfold Pools.stepFun
        simp only
        split_ifs
        · unfold Pool.setNum Pool.start Pool.stopN
          split_ifs <;> exact h0
        · exact h0
      | health =>
        unfold Pools.stepFun Pools.healthPool Pool.start Pool.reap
        simp only
        split_ifs <;> simp [h0]
      | failure t id =>
        unfold Pools.stepFun Pool.stop Pool.start
        simp only
        split_ifs <;> exact h0
      | exit t id code =>
        unfold Pools.stepFun Pools.exitPool
        simp only
        split_ifs <;> exact h0
      | report t e => exact absurd rfl (hne t e)
    cases e with
    | recruit ready =>
      obtain ⟨w', h1, h2⟩ := shows_recruit (num := num) hf hok hsh ready
      have : w1.step fail num (.recruit ready) = ⟨none, w'⟩ := h1
      rw [this] at hs
      cases hs
      exact ⟨_, _, hrun.snoc (e := .recruit ready) rfl, h2, errs (e := .recruit ready) rfl (by intro _ _ hc; cases hc)⟩
    | health reported =>
      have hq : w1.health fail (fun _ => none) = ⟨none, w2⟩ := by
        have h1 : w1.health fail reported = ⟨none, w2⟩ := hs
        unfold PWorld.health at h1 ⊢
        rw [health_quiet w1.pools w1.next w1.os (by rw [h1])] at h1
        exact h1
      have hh : ∀ (l : List (T × Pool)) (a : Nat), (∀ e ∈ l, e.2.errors = []) → ∃ x, Pools.healthLoop l a = .ok x := by
        intro l
        induction l with
        | nil => intro a _; exact ⟨_, rfl⟩
        | cons e l ihl =>
          obtain ⟨t, p⟩ := e
          intro a hl
          have hp : p.checkErrors = .ok p := by
            unfold Pool.checkErrors
            rw [hl _ List.mem_cons_self]
          unfold Pools.healthLoop
          rw [hp]
          simp only
          obtain ⟨x, hx⟩ := ihl (if 0 < p.reap.2 then p.reap.1.start a p.reap.2 else (p.reap.1, a)).2
            (fun e he => hl e (List.mem_cons_of_mem _ he))
          rw [hx]
          exact ⟨_, rfl⟩
      obtain ⟨x, hx⟩ := hh ps.pools ps.next herr
      have hst : ps.health = .ok { ps with pools := x.1, next := x.2 } := by
        unfold Pools.health
        rw [hx]
      obtain ⟨w', h1, h2⟩ := shows_health (reported := fun _ => none) hf hok hsh (fun _ _ hc => by cases hc) hst
      rw [hq] at h1
      cases h1
      exact ⟨_, _, hrun.snoc (e := .health) hst, h2, errs (e := .health) hst (by intro _ _ hc; cases hc)⟩
    | restart t id =>
      have hs' : w1.restart fail t id = ⟨none, w2⟩ := hs
      by_cases hg : ∃ p, ps.get t = some p
      · obtain ⟨p, hg⟩ := hg
        have hst : ∃ ps', ps.onBlockFailure 0 t id = .ok ps' := by
          unfold Pools.onBlockFailure
          simp only [hg, Nat.succ_pos, if_true]
          exact ⟨_, rfl⟩
        obtain ⟨ps', hst⟩ := hst
        obtain ⟨w', h1, h2⟩ := shows_restart hf hok hsh (Nat.succ_pos _) hst
        rw [hs'] at h1
        cases h1
        exact ⟨_, _, hrun.snoc (e := .failure t id) hst, h2, errs (e := .failure t id) hst (by intro _ _ hc; cases hc)⟩
      · have hk : ∀ e ∈ w1.pools, e.1 ≠ t := by
          intro e he hc
          have : (e.1, e.2.map (seen w1.os)) ∈ ps.pools.map (fun e => (e.1, e.2.workers)) := by
            rw [hsh.2]
            exact List.mem_map.2 ⟨e, he, rfl⟩
          obtain ⟨e', he', hee⟩ := List.mem_map.1 this
          rw [Prod.mk.injEq] at hee
          apply hg
          unfold Pools.get
          cases hfd : ps.pools.find? (fun e => e.1 = t) with
          | none =>
            have := List.find?_eq_none.1 hfd e' he'
            simp [hee.1, hc] at this
          | some y => exact ⟨y.2, rfl⟩
        unfold PWorld.restart at hs'
        rw [restart_other w1.pools w1.next w1.os hk] at hs'
        cases hs'
        exact ⟨es, ps, hrun, hsh, herr⟩
    | exit id code =>
      have hs' : (⟨none, w1.exit id code⟩ : PRes (PWorld T)) = ⟨none, w2⟩ := hs
      cases hs'
      by_cases hid : w1.os id = some none
      · obtain ⟨t, p, hp, hw⟩ := (shows_running h0.fits hsh id).1 hid
        exact ⟨_, _, hrun.snoc (e := .exit t id code) rfl, shows_exit hok hsh hp hw code,
          errs (e := .exit t id code) rfl (by intro _ _ hc; cases hc)⟩
      · have : w1.exit id code = w1 := by
          unfold PWorld.exit
          rw [if_neg hid]
        rw [this]
        exact ⟨es, ps, hrun, hsh, herr⟩

omit [DecidableEq T] in
/-- The same exceptions: if the error queues hold what is reported, one check of the health raises if the other does. -/
theorem C97_same_exception (hf : ∀ i, fail i = none) {w : PWorld T} {ps : Pools T} (h : w.Shows ps)
    {reported : T → Option PyErr} (hr : ∀ e ∈ ps.pools, reported e.1 = e.2.errors.head?) (e : PyErr) :
    ps.health = .error e ↔ (w.health fail reported).err = some e := by
  have hstart : ∀ (x : One) (n : Nat), (start fail x n).err = none := by
    intro x n
    obtain ⟨ws, os', h1, _⟩ := spawn_ok hf n x.next x.os
    unfold start
    rw [h1]
  have hrep : ∀ x : One, (replaceDead fail x).err = none := by
    intro x
    unfold replaceDead
    split_ifs
    · exact hstart _ _
    · rfl
  have key : ∀ (q : List (T × Pool)) (l : List (T × List PWorker)) (a next : Nat) (os : Nat → Option (Option Int)),
      q.map (·.1) = l.map (·.1) → (∀ e ∈ q, reported e.1 = e.2.errors.head?) →
      (each (fun t x => healthOne fail (reported t) x) l next os).err =
        match Pools.healthLoop q a with | .error e => some e | .ok _ => none := by
    intro q
    induction q with
    | nil =>
      intro l a next os hl _
      cases l with
      | nil => rfl
      | cons b l => simp at hl
    | cons b q ih =>
      obtain ⟨t, p⟩ := b
      intro l a next os hl hq
      cases l with
      | nil => simp at hl
      | cons c l =>
        obtain ⟨t', ws⟩ := c
        rw [List.map_cons, List.map_cons] at hl
        obtain ⟨ht, hl2⟩ := List.cons.inj hl
        simp only at ht
        subst ht
        have h1 : reported t = p.errors.head? := hq (t, p) List.mem_cons_self
        have go : ∀ p' : Pool, p.checkErrors = .ok p' → healthOne fail (reported t) ⟨ws, next, os⟩ = replaceDead fail ⟨ws, next, os⟩ →
            (each (fun t x => healthOne fail (reported t) x) ((t, ws) :: l) next os).err =
              match Pools.healthLoop ((t, p) :: q) a with | .error e => some e | .ok _ => none := by
          intro p' hc hh
          rw [each, hh]
          unfold Pools.healthLoop
          rw [hc]
          simp only
          have h2 := hrep ⟨ws, next, os⟩
          rcases hy : replaceDead fail ⟨ws, next, os⟩ with ⟨err, y⟩
          rw [hy] at h2
          simp only at h2
          subst h2
          simp only
          have h3 := ih l (if 0 < p'.reap.2 then p'.reap.1.start a p'.reap.2 else (p'.reap.1, a)).2 y.next y.os hl2
            (fun e he => hq e (List.mem_cons_of_mem _ he))
          rw [h3]
          cases Pools.healthLoop q (if 0 < p'.reap.2 then p'.reap.1.start a p'.reap.2 else (p'.reap.1, a)).2 <;> rfl
        cases hp : p.errors with
        | nil =>
          rw [hp] at h1
          refine go p (by unfold Pool.checkErrors; rw [hp]) ?_
          rw [h1]
          rfl
        | cons e' es =>
          rw [hp] at h1
          by_cases he : e' = .queueEmpty
          · refine go { p with errors := es } (by unfold Pool.checkErrors; rw [hp]; simp [he]) ?_
            rw [h1]
            simp [healthOne, he]
          · unfold Pools.healthLoop Pool.checkErrors
            rw [hp]
            simp [each, h1, healthOne, he]
  have hk : ps.pools.map (·.1) = w.pools.map (·.1) := by
    have := congrArg (List.map Prod.fst) h.2
    rw [List.map_map, List.map_map] at this
    exact this
  unfold PWorld.health Pools.health
  rw [key ps.pools w.pools ps.next w.next w.os hk hr]
  cases Pools.healthLoop ps.pools ps.next with
  | error e' => simp
  | ok x => simp

/-- In every history of the pools: the running processes are exactly those of the workers that are taken for running; when
the pools are stopped, no process is left. -/
theorem C97_pools (hf : ∀ i, fail i = none) (hnd : tasks.Nodup) {es : List (PoolEv T)} {ps : Pools T}
    (h : PoolRun num maxF (Pools.init tasks) es ps) :
    ∃ pes w, PRun fail num (PWorld.init tasks) pes w ∧ w.Shows ps ∧
      (∀ i, w.os i = some none ↔ ∃ t p, (t, p) ∈ ps.pools ∧ ⟨i, some .running⟩ ∈ p.workers) ∧
      ∀ i, (w.stopAll fail).val.os i ≠ some none := by
  obtain ⟨pes, w, h1, h2⟩ := C97_refines hf hnd h
  refine ⟨pes, w, h1, h2, shows_running h1.fits h2, fun i hi => ?_⟩
  obtain ⟨_, _, _, a4⟩ := stopAll_spec (fail := fail) w.pools [] w.next w.os _ h1.fits (by simp)
  exact (a4 i hi).elim

/-- Two tasks, whose workers end, fail and are replaced: both models come to the same pools. -/
example :
    let num : Fin 2 → Nat := fun t => if t = 0 then 2 else 1
    let es : List (PoolEv (Fin 2)) := [.recruit [0, 1], .exit 0 0 1, .exit 0 1 0, .health, .failure 1 2, .recruit [0]]
    let pes : List (PEv (Fin 2)) :=
      [.recruit [0, 1], .exit 0 1, .exit 1 0, .health (fun _ => none), .restart 1 2, .recruit [0]]
    let w := pes.foldl (fun (w : PWorld (Fin 2)) e => (w.step (fun _ => none) num e).val) (PWorld.init [0, 1])
    (poolExec num 0 (Pools.init [0, 1]) es).map (fun ps => (ps.next, ps.pools.map (fun e => (e.1, e.2.workers)))) =
        some (w.next, w.pools.map (fun e => (e.1, e.2.map (seen w.os)))) ∧
      w.pools = [(0, [⟨1, false⟩, ⟨3, true⟩]), (1, [⟨4, true⟩])] := by decide

end Verif
