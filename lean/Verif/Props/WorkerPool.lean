import Verif.Proofs.WorkerPool

/-! # C42-C45, C59: worker pools -/

namespace Verif

open Spec

variable {T : Type} [DecidableEq T] {num : T → Nat} {maxF : Nat} {tasks : List T}

/-! ## C42: the size of a pool -/

/-- Setting the number of workers of a pool leaves exactly that many: workers are only added, with ids that
were never used, or only the youngest are terminated; all others stay as they are, in particular running. -/
theorem C42_set_num (hnd : tasks.Nodup) {es : List (PoolEv T)} {ps : Pools T}
    (h : PoolRun num maxF (Pools.init tasks) es ps) {t : T} {p : Pool} (hp : (t, p) ∈ ps.pools) (n : Nat) :
    (p.setNum ps.next n).1.workers.length = n ∧
    (p.workers.length ≤ n → ∃ new, (p.setNum ps.next n).1.workers = p.workers ++ new ∧
      ∀ w ∈ new, w.proc = some .running ∧ ps.next ≤ w.id ∧ w.id < (p.setNum ps.next n).2) ∧
    (n ≤ p.workers.length → ∃ gone, p.workers = (p.setNum ps.next n).1.workers ++ gone ∧
      ∀ v ∈ (p.setNum ps.next n).1.workers, ∀ w ∈ gone, v.id < w.id) := by
  have hok : p.OK ps.next := (Pools.run_ok (Pools.init_ok hnd) h).2.1 _ hp
  refine ⟨Pool.setNum_length hok, fun hle => ?_, fun hle => ?_⟩
  · rcases Pool.setNum_cases (n := n) hok with ⟨_, h2, h3⟩ | ⟨h1, h2, _⟩
    · refine ⟨_, h2, fun w hw => ?_⟩
      have := Pool.mem_newWorkers hw
      rw [h3]
      exact ⟨this.2.2, this.1, this.2.1⟩
    · exact ⟨[], by rw [h2, List.take_of_length_le hle, List.append_nil], by simp⟩
  · rcases Pool.setNum_cases (n := n) hok with ⟨h1, _, _⟩ | ⟨_, h2, _⟩
    · omega
    · refine ⟨p.workers.drop n, by rw [h2, List.take_append_drop], ?_⟩
      rw [h2]
      have hpw := hok.1
      rw [← List.take_append_drop n p.workers, List.pairwise_append] at hpw
      exact hpw.2.2

/-- Recruiting workers gives every ready task exactly its number of workers, and leaves other pools alone. -/
theorem C42_recruit (hnd : tasks.Nodup) {es : List (PoolEv T)} {ps : Pools T}
    (h : PoolRun num maxF (Pools.init tasks) es ps) (ready : List T) {t : T} {p' : Pool}
    (hp : (t, p') ∈ (ps.recruit num ready).pools) :
    (t ∈ ready → p'.workers.length = num t) ∧ (t ∉ ready → (t, p') ∈ ps.pools) := by
  obtain ⟨p, b, hpp, _, hok, he, _⟩ := Pools.step_mem (num := num) (maxF := maxF) (e := .recruit ready)
    (Pools.run_ok (Pools.init_ok hnd) h) rfl hp
  unfold Pools.stepFun at he
  dsimp only at he
  constructor
  · intro hr
    rw [if_pos hr] at he
    rw [he]
    exact Pool.setNum_length hok
  · intro hr
    rw [if_neg hr] at he
    rw [he]
    exact hpp

/-- Stopping the pools terminates every worker. -/
theorem C42_stop (hnd : tasks.Nodup) {es : List (PoolEv T)} {ps : Pools T}
    (h : PoolRun num maxF (Pools.init tasks) es ps) {t : T} {p : Pool} (hp : (t, p) ∈ ps.stopAll.pools) :
    p.workers = [] := by
  unfold Pools.stopAll at hp
  obtain ⟨e, he, heq⟩ := List.mem_map.1 hp
  cases heq
  have hok := (Pools.run_ok (Pools.init_ok hnd) h).2.1 _ he
  exact List.eq_nil_of_length_eq_zero (Pool.setNum_length hok)

/-- Ids of workers are never reused, and never shared: a worker whose id was already given out at an earlier
moment was in the same pool at that moment. -/
theorem C42_ids (hnd : tasks.Nodup) {es es' : List (PoolEv T)} {ps ps' : Pools T}
    (h : PoolRun num maxF (Pools.init tasks) es ps) (h' : PoolRun num maxF ps es' ps') {t : T} {id : Nat}
    (hp : InPool ps' t id) : (id < ps.next → InPool ps t id) ∧ id < ps'.next ∧
      ∀ t', InPool ps' t' id → t' = t := by
  have hok := Pools.run_ok (Pools.init_ok hnd) h
  have hok' := Pools.run_ok hok h'
  refine ⟨?_, ?_, ?_⟩
  · intro hlt
    induction h' generalizing t id with
    | nil => exact hp
    | snoc hr hs ih =>
      have hok1 := Pools.run_ok hok hr
      have hle : ∀ {es'' ps''}, PoolRun num maxF ps es'' ps'' → ps.next ≤ ps''.next := by
        intro es'' ps'' hr''
        induction hr'' with
        | nil => exact le_refl _
        | snoc hr3 hs3 ih3 => exact le_trans ih3 (Pools.step_next_le (Pools.run_ok hok hr3) hs3)
      obtain ⟨p', hp', w, hw, hid⟩ := hp
      obtain ⟨p, b, hpp, hb, hpok, he, _⟩ := Pools.step_mem hok1 hs hp'
      subst he
      obtain ⟨v, hv, hve⟩ := (Pools.good_stepFun _ _ _ _ t p b hpok).2.2 w hw (by
        have := hle hr; omega)
      exact ih ⟨p, hpp, v, hv, by omega⟩ hok1 hlt
  · obtain ⟨p', hp', w, hw, hid⟩ := hp
    have := (hok'.2.1 _ hp').2 w hw
    omega
  · rintro t' ⟨q, hq, v, hv, hvid⟩
    obtain ⟨p', hp', w, hw, hid⟩ := hp
    by_contra hne
    rcases List.mem_iff_getElem.1 hp' with ⟨i, hi, hi'⟩
    rcases List.mem_iff_getElem.1 hq with ⟨j, hj, hj'⟩
    rcases Nat.lt_trichotomy i j with hij | hij | hij
    · have := (List.pairwise_iff_getElem.1 hok'.2.2) i j hi hj hij
      rw [hi', hj'] at this
      exact this w hw v hv (by omega)
    · subst hij
      rw [hi'] at hj'
      cases hj'
      exact hne rfl
    · have := (List.pairwise_iff_getElem.1 hok'.2.2) j i hj hi hij
      rw [hi', hj'] at this
      exact this v hv w hw (by omega)

/-- A pool of three is shrunk to one and grown to two: worker 0 stays, worker 3 is new. -/
example : (poolExec (fun _ : Nat => 3) 3 (Pools.init [7]) [.recruit [7]]).map (fun ps =>
    ps.pools.map (fun e => ((e.2.setNum ps.next 1).1.setNum ps.next 2).1.workers.map (·.id))) =
    some [[0, 3]] := by decide +kernel

/-! ## C43: health checks -/

/-- After a health check every worker that had exited with a nonzero code is gone and all others are still
there, untouched; as many new running workers with fresh ids were started as were removed; the number of
workers is the same.  There was no exception, or the first one was `queue.Empty` and is gone. -/
theorem C43_health (hnd : tasks.Nodup) {es : List (PoolEv T)} {ps ps' : Pools T}
    (h : PoolRun num maxF (Pools.init tasks) es ps) (hh : ps.health = .ok ps') {t : T} {p : Pool}
    (hp : (t, p) ∈ ps.pools) :
    ∃ p', (t, p') ∈ ps'.pools ∧ p'.workers.length = p.workers.length ∧
      (p.errors = p'.errors ∧ p.errors = [] ∨ p.errors = .queueEmpty :: p'.errors) ∧
      ∃ kept new, p'.workers = kept ++ new ∧
        (∀ w ∈ new, w.proc = some .running ∧ ps.next ≤ w.id) ∧
        (∀ id, id ∈ kept.map (·.id) ↔ ∃ w ∈ p.workers, w.id = id ∧ ¬∃ c : Int, c ≠ 0 ∧ w.proc = some (.exited c)) ∧
        (∀ w ∈ p.workers, w.proc = some .running → w ∈ kept) ∧
        (∀ w ∈ p'.workers, w.proc = some .running ∨ w.proc = none) := by
  have hok := Pools.run_ok (Pools.init_ok hnd) h
  obtain ⟨b, hb, hpok, hmem, _⟩ := Pools.step_mem' (num := num) (maxF := maxF) (e := .health) hok hh hp
  unfold Pools.stepFun at hmem
  have herr : ∀ y, p.errors.head? = some y → y = .queueEmpty := by
    unfold Pools.health at hh
    split at hh
    · cases hh
    · rename_i l next hl
      exact (Pools.healthLoop_eq _ _ _ hl).2 _ hp
  have hw := (Pools.healthPool_workers hpok).1
  have hfail : ∀ w : Worker, Pool.failed w = true ↔ ∃ c : Int, c ≠ 0 ∧ w.proc = some (.exited c) := by
    intro w
    unfold Pool.failed
    rcases hpr : w.proc with _ | (_ | c)
    · simp
    · simp
    · simp
  refine ⟨_, hmem, Pools.healthPool_length hpok, ?_, _, _, hw, ?_, ?_, ?_, ?_⟩
  · have he : (Pools.healthPool p b).1.errors = p.errors.tail := by
      unfold Pools.healthPool
      dsimp only
      split <;> rfl
    change _ = (Pools.healthPool p b).1.errors ∧ _ ∨ _ = _ :: (Pools.healthPool p b).1.errors
    rw [he]
    cases hp : p.errors with
    | nil => exact Or.inl ⟨rfl, rfl⟩
    | cons y ys =>
      rw [hp] at herr
      rw [herr y rfl]
      exact Or.inr rfl
  · intro w hwm
    have := Pool.mem_newWorkers hwm
    exact ⟨this.2.2, by omega⟩
  · intro id
    simp only [List.map_map, List.mem_map, List.mem_filter, Function.comp, Pool.forget_id]
    constructor
    · rintro ⟨w, ⟨hwm, hf⟩, rfl⟩
      refine ⟨w, hwm, rfl, ?_⟩
      rw [← hfail]
      simpa using hf
    · rintro ⟨w, hwm, rfl, hf⟩
      refine ⟨w, ⟨hwm, ?_⟩, rfl⟩
      rw [← hfail] at hf
      simpa using hf
  · intro w hwm hr
    refine List.mem_map.2 ⟨w, List.mem_filter.2 ⟨hwm, by simp [Pool.failed, hr]⟩, by simp [Pool.forget, hr]⟩
  · intro w hwm
    rw [hw] at hwm
    rcases List.mem_append.1 hwm with hwm | hwm
    · obtain ⟨v, hv, rfl⟩ := List.mem_map.1 hwm
      unfold Pool.forget
      rcases hpr : v.proc with _ | (_ | c)
      · exact Or.inr hpr
      · exact Or.inl hpr
      · exact Or.inr rfl
    · exact Or.inl (Pool.mem_newWorkers hwm).2.2


/-- A health check raises only an exception that is the first one a worker has reported to its pool since the last
check, and not `queue.Empty`; and if there is such an exception, it raises. -/
theorem C43_raises (ps : Pools T) :
    (∀ e, ps.health = .error e → ∃ t p, (t, p) ∈ ps.pools ∧ p.errors.head? = some e ∧ e ≠ .queueEmpty) ∧
    ((∃ t p e, (t, p) ∈ ps.pools ∧ p.errors.head? = some e ∧ e ≠ .queueEmpty) → ∃ e, ps.health = .error e) := by
  constructor
  swap
  · rintro ⟨t, p, e, hp, he, hne⟩
    cases hh : Pools.healthLoop ps.pools ps.next with
    | error e => exact ⟨e, by unfold Pools.health; rw [hh]⟩
    | ok x => exact absurd ((Pools.healthLoop_eq _ _ _ hh).2 _ hp _ he) hne
  intro e h
  have key : ∀ (l : List (T × Pool)) (a : Nat), Pools.healthLoop l a = .error e →
      ∃ t p, (t, p) ∈ l ∧ p.errors.head? = some e ∧ e ≠ .queueEmpty := by
    intro l
    induction l with
    | nil => intro a h; unfold Pools.healthLoop at h; cases h
    | cons x r ih =>
      intro a h
      obtain ⟨t, p⟩ := x
      unfold Pools.healthLoop at h
      split at h
      · rename_i e' he
        cases h
        refine ⟨t, p, List.mem_cons_self, ?_⟩
        unfold Pool.checkErrors at he
        split at he
        · cases he
        · rename_i e2 es2 hes
          split at he
          · cases he
          · rename_i hne
            cases he
            rw [hes]
            exact ⟨rfl, hne⟩
      · dsimp only at h
        split at h
        · rename_i e' he
          cases h
          obtain ⟨t', p', hm, hin⟩ := ih _ he
          exact ⟨t', p', List.mem_cons_of_mem _ hm, hin⟩
        · cases h
  unfold Pools.health at h
  split at h
  · rename_i e' he
    cases h
    exact key _ _ he
  · cases h

/-- Workers 0 and 1 end, with code 1 and 0: worker 0 is replaced by worker 3, worker 1 is not replaced. -/
example : (poolExec (fun _ : Nat => 3) 3 (Pools.init [7])
    [.recruit [7], .exit 7 0 1, .exit 7 1 0, .health]).map (fun ps => ps.pools) =
    some [(7, ⟨[⟨1, none⟩, ⟨2, some .running⟩, ⟨3, some .running⟩], []⟩)] := by decide +kernel

/-! ## C44: at most `num_workers` workers -/

/-- The claim: in every history, no pool has more workers than its task wants. -/
def C44_statement : Prop :=
  ∀ (T : Type) [DecidableEq T] (num : T → Nat) (maxF : Nat) (tasks : List T) (es : List (PoolEv T)) (ps : Pools T),
    tasks.Nodup → PoolRun num maxF (Pools.init tasks) es ps → ∀ t p, (t, p) ∈ ps.pools → p.workers.length ≤ num t

/-- The claim holds in every history in which failures are reported by workers that are still in their pool. -/
theorem C44_bound_partial (hnd : tasks.Nodup) {es : List (PoolEv T)} {ps : Pools T}
    (h : Timely num maxF (Pools.init tasks) es ps) {t : T} {p : Pool} (hp : (t, p) ∈ ps.pools) :
    p.workers.length ≤ num t := by
  have hrun : PoolRun num maxF (Pools.init tasks) es ps := by
    clear hp
    induction h with
    | nil => exact .nil
    | snoc _ _ hs ih => exact .snoc ih hs
  have hinit : ∀ t p, (t, p) ∈ (Pools.init tasks).pools → p.workers.length ≤ num t := by
    intro t p hm
    unfold Pools.init at hm
    obtain ⟨t', _, he⟩ := List.mem_map.1 hm
    cases he
    simp
  induction h generalizing t p with
  | nil => exact hinit t p hp
  | @snoc es e ps1 ps2 hr htl hs ih =>
    have hrun1 : PoolRun num maxF (Pools.init tasks) es ps1 := by
      clear ih hp hs htl hrun
      induction hr with
      | nil => exact .nil
      | snoc _ _ hs ih => exact .snoc ih hs
    have hok := Pools.run_ok (Pools.init_ok hnd) hrun1
    obtain ⟨q, b, hq, hb, hqok, he, _⟩ := Pools.step_mem hok hs hp
    have hlen := ih hq hrun1
    subst he
    cases e with
    | recruit ready =>
      unfold Pools.stepFun
      dsimp only
      split
      · exact le_of_eq (Pool.setNum_length hqok)
      · exact hlen
    | health =>
      unfold Pools.stepFun
      dsimp only
      rw [Pools.healthPool_length hqok]
      exact hlen
    | failure t0 id =>
      unfold Pools.stepFun
      dsimp only
      split
      · split
        · rename_i heq
          subst heq
          obtain ⟨q', hq', w, hw, hid⟩ := htl t id rfl
          have := Pools.key_unique hok.1 hq' hq
          subst this
          rw [Pool.start_workers (Pool.stop_ok hqok id), Pool.stop_workers, List.length_append,
            Pool.newWorkers_length]
          have : (q'.workers.filter (fun w => w.id ≠ id)).length < q'.workers.length :=
            List.length_filter_lt_length_iff_exists.2 ⟨w, hw, by simpa using hid⟩
          omega
        · exact hlen
      · exact hlen
    | exit t0 id code =>
      unfold Pools.stepFun
      have e1 := congrArg List.length (Pools.exitPool_ids t0 id code t q)
      rw [List.length_map, List.length_map] at e1
      dsimp only
      omega
    | report t0 e =>
      unfold Pools.stepFun
      dsimp only
      rw [Pools.reportPool_workers]
      exact hlen

/-- In any history, the number of workers exceeds the wanted number only through a failure that is reported by
a worker that is not in the pool any more: every other event leaves the excess as it is, or removes it. -/
theorem C44_step (hnd : tasks.Nodup) {es : List (PoolEv T)} {e : PoolEv T} {ps ps' : Pools T}
    (h : PoolRun num maxF (Pools.init tasks) es ps) (hs : poolStep num maxF ps e = .ok ps') {t : T} {p p' : Pool}
    (hp : (t, p) ∈ ps.pools) (hp' : (t, p') ∈ ps'.pools) :
    p'.workers.length ≤ max p.workers.length (num t) ∨
      ∃ id, e = .failure t id ∧ ¬InPool ps t id ∧ p'.workers.length = p.workers.length + 1 := by
  have hok := Pools.run_ok (Pools.init_ok hnd) h
  obtain ⟨q, b, hq, hb, hqok, he, _⟩ := Pools.step_mem hok hs hp'
  have := Pools.key_unique hok.1 hq hp
  subst this
  subst he
  cases e with
  | recruit ready =>
    left
    unfold Pools.stepFun
    dsimp only
    split
    · rw [Pool.setNum_length hqok]; exact le_max_right _ _
    · exact le_max_left _ _
  | health =>
    left
    unfold Pools.stepFun
    dsimp only
    rw [Pools.healthPool_length hqok]
    exact le_max_left _ _
  | failure t0 id =>
    unfold Pools.stepFun
    dsimp only
    split
    · split
      · rename_i heq
        subst heq
        rw [Pool.start_workers (Pool.stop_ok hqok id), Pool.stop_workers, List.length_append,
          Pool.newWorkers_length]
        by_cases hin : InPool ps t id
        · left
          obtain ⟨q', hq', w, hw, hid⟩ := hin
          have := Pools.key_unique hok.1 hq' hp
          subst this
          have : (q'.workers.filter (fun w => w.id ≠ id)).length < q'.workers.length :=
            List.length_filter_lt_length_iff_exists.2 ⟨w, hw, by simpa using hid⟩
          refine le_trans ?_ (le_max_left _ _)
          omega
        · right
          refine ⟨id, rfl, hin, ?_⟩
          rw [List.filter_eq_self.2]
          intro w hw
          rw [decide_eq_true_iff]
          exact fun hc => hin ⟨q, hp, w, hw, hc⟩
      · exact Or.inl (le_max_left _ _)
    · exact Or.inl (le_max_left _ _)
  | exit t0 id code =>
    left
    unfold Pools.stepFun
    have e1 := congrArg List.length (Pools.exitPool_ids t0 id code t q)
    rw [List.length_map, List.length_map] at e1
    dsimp only
    rw [e1]
    exact le_max_left _ _
  | report t0 e =>
    left
    unfold Pools.stepFun
    dsimp only
    rw [Pools.reportPool_workers]
    exact le_max_left _ _

/-- A worker fails three blocks and dies; it is replaced; a fourth failure, which was still on its way, makes
the pool start another worker, although there is none to stop. -/
def C44_witness : List (PoolEv Nat) :=
  [.recruit [0], .failure 0 0, .failure 0 0, .failure 0 0, .exit 0 0 1, .health, .failure 0 0]

/-- The claim is false: a task with one worker has two after this history. -/
theorem C44_false : ¬C44_statement := by
  intro hC
  have hx : (poolExec (fun _ : Nat => 1) 3 (Pools.init [0]) C44_witness).map (·.pools) =
      some [(0, ⟨[⟨1, some .running⟩, ⟨2, some .running⟩], []⟩)] := by decide +kernel
  cases hps : poolExec (fun _ : Nat => 1) 3 (Pools.init [0]) C44_witness with
  | none => rw [hps] at hx; cases hx
  | some ps =>
    rw [hps] at hx
    have hp : ps.pools = [(0, ⟨[⟨1, some .running⟩, ⟨2, some .running⟩], []⟩)] := Option.some.inj hx
    have hr := poolExec_run (fun _ : Nat => 1) 3 C44_witness _ _ ps [] .nil hps
    have := hC Nat (fun _ => 1) 3 [0] _ ps (by decide) hr 0 ⟨[⟨1, some .running⟩, ⟨2, some .running⟩], []⟩
      (by rw [hp]; exact List.mem_cons_self)
    simp at this

/-- A restart in time: four failures of worker 0, which is replaced by worker 2. -/
example : Timely (fun _ : Nat => 2) 0 (Pools.init [5]) ([] ++ [.recruit [5]] ++ [.failure 5 0])
    ⟨[(5, ⟨[⟨1, some .running⟩, ⟨2, some .running⟩], []⟩)], 3, fun t i => if t = 5 ∧ i = 0 then 0 else 0⟩ :=
  .snoc (.snoc .nil (by simp) rfl)
    (by
      intro t id h
      cases h
      exact ⟨⟨[⟨0, some .running⟩, ⟨1, some .running⟩], []⟩, List.mem_cons_self, ⟨0, some .running⟩,
        List.mem_cons_self, rfl⟩)
    rfl

/-! ## C59: a worker is restarted after every `max_block_failures + 1` failures -/

/-- Counts are exact: the number of failures modulo `max_block_failures + 1`. -/
theorem C59_count {es : List (PoolEv T)} {ps : Pools T} (h : PoolRun num maxF (Pools.init tasks) es ps) (t : T)
    (id : Nat) : ps.counts t id = es.count (.failure t id) % (maxF + 1) := by
  induction h with
  | nil => simp [Pools.init]
  | @snoc es e ps1 ps2 hr hs ih =>
    rw [List.count_append]
    have hother : (∀ t' id', e ≠ .failure t' id') → ps2.counts = ps1.counts := by
      intro hne
      cases e with
      | recruit ready => simp only [poolStep] at hs; cases hs; rfl
      | health =>
        simp only [poolStep] at hs
        unfold Pools.health at hs
        split at hs
        · cases hs
        · cases hs; rfl
      | failure t' id' => exact absurd rfl (hne t' id')
      | exit t0 id code => simp only [poolStep] at hs; cases hs; rfl
      | report t0 e => simp only [poolStep] at hs; cases hs; rfl
    by_cases hf : ∃ t' id', e = .failure t' id'
    · obtain ⟨t', id', rfl⟩ := hf
      simp only [poolStep] at hs
      unfold Pools.onBlockFailure at hs
      dsimp only at hs
      have hlt : ps1.counts t id < maxF + 1 := by rw [ih]; exact Nat.mod_lt _ (by omega)
      by_cases heq : t = t' ∧ id = id'
      · obtain ⟨rfl, rfl⟩ := heq
        rw [List.count_singleton_self, Nat.add_mod, ← ih]
        split at hs
        · split at hs
          · cases hs
          · cases hs
            have : ps1.counts t id = maxF := by omega
            rw [this]
            by_cases h0 : maxF = 0
            · subst h0; simp
            · rw [Nat.mod_eq_of_lt (by omega : 1 < maxF + 1), Nat.mod_self]; simp
        · cases hs
          have hm : 0 < maxF := by omega
          rw [Nat.mod_eq_of_lt (by omega : 1 < maxF + 1), Nat.mod_eq_of_lt (by omega)]
          simp
      · have hne : (PoolEv.failure t' id' : PoolEv T) ≠ .failure t id := by
          intro hc; cases hc; exact heq ⟨rfl, rfl⟩
        rw [List.count_singleton, if_neg (by simpa using hne), Nat.add_zero, ← ih]
        split at hs
        · split at hs
          · cases hs
          · cases hs
            simp only [if_neg heq]
        · cases hs
          simp only [if_neg heq]
    · push Not at hf
      rw [hother hf, ih, List.count_singleton, if_neg (by simpa using hf t id)]
      rfl

/-- When a worker reports a failure: if that makes a multiple of `max_block_failures + 1`, the worker is
terminated and a new one is started, otherwise no pool changes.  Other workers are never touched. -/
theorem C59_restart (hnd : tasks.Nodup) {es : List (PoolEv T)} {ps ps' : Pools T}
    (h : PoolRun num maxF (Pools.init tasks) es ps) {t : T} {id : Nat}
    (hs : poolStep num maxF ps (.failure t id) = .ok ps') :
    (¬(maxF + 1) ∣ es.count (.failure t id) + 1 → ps'.pools = ps.pools ∧ ps'.next = ps.next) ∧
    ((maxF + 1) ∣ es.count (.failure t id) + 1 → ∀ t' p', (t', p') ∈ ps'.pools → ∃ p, (t', p) ∈ ps.pools ∧
      (t' ≠ t → p' = p) ∧ (t' = t → p'.errors = p.errors ∧
        p'.workers = p.workers.filter (fun w => w.id ≠ id) ++ [⟨ps.next, some .running⟩])) := by
  have hok := Pools.run_ok (Pools.init_ok hnd) h
  have hc := C59_count h t id
  have hiff : maxF < ps.counts t id + 1 ↔ (maxF + 1) ∣ es.count (.failure t id) + 1 := by
    rw [hc]
    have h1 := Nat.mod_lt (es.count (.failure t id)) (by omega : 0 < maxF + 1)
    rw [Nat.dvd_iff_mod_eq_zero]
    constructor
    · intro h2
      have h3 : es.count (.failure t id) % (maxF + 1) = maxF := by omega
      rw [Nat.add_mod, h3]
      by_cases h0 : maxF = 0
      · subst h0; simp
      · rw [Nat.mod_eq_of_lt (by omega : 1 < maxF + 1), Nat.mod_self]
    · intro h2
      by_contra h3
      have h4 : es.count (.failure t id) % (maxF + 1) + 1 < maxF + 1 := by omega
      rw [Nat.add_mod, Nat.mod_eq_of_lt (by omega : 1 < maxF + 1), Nat.mod_eq_of_lt h4] at h2
      omega
  constructor
  · intro hn
    rw [← hiff] at hn
    simp only [poolStep] at hs
    unfold Pools.onBlockFailure at hs
    dsimp only at hs
    rw [if_neg hn] at hs
    cases hs
    exact ⟨rfl, rfl⟩
  · intro hd t' p' hp'
    rw [← hiff] at hd
    simp only [poolStep] at hs
    unfold Pools.onBlockFailure at hs
    dsimp only at hs
    rw [if_pos hd] at hs
    split at hs
    · cases hs
    · rename_i p hp
      cases hs
      have hpm := Pools.get_mem hp
      obtain ⟨⟨t1, q⟩, hq, he⟩ := List.mem_map.1 hp'
      dsimp only at he
      split at he
      · rename_i heq
        subst heq
        cases he
        refine ⟨p, hpm, fun hne => absurd rfl hne, fun _ => ⟨?_, ?_⟩⟩
        · unfold Pool.start Pool.stop
          split <;> rfl
        · rw [Pool.start_workers (Pool.stop_ok (hok.2.1 _ hpm) id), Pool.stop_workers]
          rfl
      · rename_i hne
        cases he
        exact ⟨_, hq, fun _ => rfl, fun hc => absurd hc hne⟩

/-- A failure of a known task never raises. -/
theorem C59_total (ps : Pools T) {t : T} {p : Pool} (hp : (t, p) ∈ ps.pools) (id : Nat) :
    ∃ ps', ps.onBlockFailure maxF t id = .ok ps' := by
  unfold Pools.onBlockFailure
  dsimp only
  split
  · have : ∃ q, ps.get t = some q := by
      unfold Pools.get
      cases hf : ps.pools.find? (fun e => e.1 = t) with
      | none => exact absurd (List.find?_eq_none.1 hf _ hp) (by simp)
      | some e => exact ⟨_, rfl⟩
    obtain ⟨q, hq⟩ := this
    rw [hq]
    exact ⟨_, rfl⟩
  · exact ⟨_, rfl⟩

/-- With one allowed failure, the second and fourth failure restart the worker. -/
example : (poolExec (fun _ : Nat => 2) 1 (Pools.init [5]) [.recruit [5], .failure 5 0, .failure 5 0, .failure 5 1,
    .failure 5 0, .failure 5 1]).map (fun ps => ps.pools.map (fun e => e.2.workers.map (·.id))) =
    some [[2, 3]] := by decide +kernel

/-! ## C45: a dying worker is replaced while there is work -/

/-- A worker that ended with a nonzero code is replaced at the next health check: after it the task has a
running worker that was not there before. -/
theorem C45_crash_partial (hnd : tasks.Nodup) {es : List (PoolEv T)} {ps ps' : Pools T}
    (h : PoolRun num maxF (Pools.init tasks) es ps) (hh : ps.health = .ok ps') {t : T} {p : Pool}
    (hp : (t, p) ∈ ps.pools) {w : Worker} {c : Int} (hw : w ∈ p.workers) (hc : c ≠ 0)
    (hwc : w.proc = some (.exited c)) :
    ∃ p', (t, p') ∈ ps'.pools ∧ ∃ v ∈ p'.workers, v.proc = some .running ∧ ps.next ≤ v.id := by
  have hok := Pools.run_ok (Pools.init_ok hnd) h
  obtain ⟨b, hb, hpok, hmem, _⟩ := Pools.step_mem' (num := num) (maxF := maxF) (e := .health) hok hh hp
  unfold Pools.stepFun at hmem
  refine ⟨_, hmem, ⟨b, some .running⟩, ?_, rfl, hb⟩
  rw [(Pools.healthPool_workers hpok).1]
  refine List.mem_append_right _ (List.mem_map.2 ⟨0, ?_, rfl⟩)
  rw [List.mem_range]
  exact List.length_pos_of_mem (List.mem_filter.2 ⟨hw, by simp [Pool.failed, hwc, hc]⟩)

/-- The claim, for the pools: however the process of the last worker of a task ends, the health checks and
recruitments for that task start a new worker. -/
def C45_statement : Prop :=
  ∀ (T : Type) [DecidableEq T] (num : T → Nat) (maxF : Nat) (tasks : List T) (es es' : List (PoolEv T))
    (ps ps' : Pools T) (t : T), tasks.Nodup → t ∈ tasks → 0 < num t →
    PoolRun num maxF (Pools.init tasks) es ps → InPool ps t 0 →
    (∀ e ∈ es', e = .health ∨ e = .recruit [t]) → PoolEv.health ∈ es' → PoolEv.recruit [t] ∈ es' →
    PoolRun num maxF ps es' ps' → ∃ p w, (t, p) ∈ ps'.pools ∧ w ∈ p.workers ∧ w.proc = some .running

/-- Once all workers of a task have ended with code 0, no number of health checks and recruitments starts
another. -/
theorem C45_never (hnd : tasks.Nodup) {es es' : List (PoolEv T)} {ps ps' : Pools T}
    (h : PoolRun num maxF (Pools.init tasks) es ps) (h' : PoolRun num maxF ps es' ps')
    (hes : ∀ e ∈ es', e = .health ∨ ∃ ready, e = .recruit ready) {t : T} {p : Pool} (hp : (t, p) ∈ ps.pools)
    (hlen : p.workers.length = num t) (hw : ∀ w ∈ p.workers, w.proc = some (.exited 0) ∨ w.proc = none) {p' : Pool}
    (hp' : (t, p') ∈ ps'.pools) : ∀ w ∈ p'.workers, w.proc ≠ some .running := by
  have hok := Pools.run_ok (Pools.init_ok hnd) h
  suffices hs : p'.workers.length = num t ∧ ∀ w ∈ p'.workers, w.proc = some (.exited 0) ∨ w.proc = none by
    intro w hwm hc
    rcases hs.2 w hwm with h1 | h1 <;> rw [hc] at h1 <;> cases h1
  induction h' generalizing p' with
  | nil => rw [Pools.key_unique hok.1 hp' hp]; exact ⟨hlen, hw⟩
  | snoc hr hst ih =>
    have hok1 := Pools.run_ok hok hr
    obtain ⟨q, b, hq, hb, hqok, he, _⟩ := Pools.step_mem hok1 hst hp'
    obtain ⟨hl, hall⟩ := ih (fun e he => hes e (List.mem_append_left _ he)) hq
    subst he
    rcases hes _ (List.mem_append_right _ List.mem_cons_self) with rfl | ⟨ready, rfl⟩
    · unfold Pools.stepFun
      dsimp only
      refine ⟨by rw [Pools.healthPool_length hqok]; exact hl, ?_⟩
      have hnf : q.workers.filter Pool.failed = [] := by
        rw [List.filter_eq_nil_iff]
        intro w hwm
        rcases hall w hwm with h1 | h1 <;> simp [Pool.failed, h1]
      rw [(Pools.healthPool_workers hqok).1, hnf]
      intro w hwm
      rw [List.length_nil] at hwm
      rcases List.mem_append.1 hwm with hwm | hwm
      · obtain ⟨v, hv, rfl⟩ := List.mem_map.1 hwm
        rcases hall v (List.mem_filter.1 hv).1 with h1 | h1 <;> simp [Pool.forget, h1]
      · simp [Pool.newWorkers] at hwm
    · unfold Pools.stepFun
      dsimp only
      split
      · have e1 : (q.setNum b (num t)) = (q, b) := by
          unfold Pool.setNum
          rw [if_neg (by omega), if_neg (by omega)]
        rw [e1]
        exact ⟨hl, hall⟩
      · exact ⟨hl, hall⟩

/-- The claim is false: the only worker of a task ends with code 0 (for instance because its function returned
while holding a block); it is not replaced. -/
theorem C45_false : ¬C45_statement := by
  intro hC
  have hx : (poolExec (fun _ : Nat => 1) 3 (Pools.init [0]) [.recruit [0], .exit 0 0 0]).map (·.pools) =
      some [(0, ⟨[⟨0, some (.exited 0)⟩], []⟩)] := by decide +kernel
  cases hps : poolExec (fun _ : Nat => 1) 3 (Pools.init [0]) [.recruit [0], .exit 0 0 0] with
  | none => rw [hps] at hx; cases hx
  | some ps =>
    rw [hps] at hx
    have hp : ps.pools = [(0, ⟨[⟨0, some (.exited 0)⟩], []⟩)] := Option.some.inj hx
    have hr := poolExec_run (fun _ : Nat => 1) 3 _ _ _ ps [] .nil hps
    cases hps2 : poolExec (fun _ : Nat => 1) 3 ps [.health, .recruit [0]] with
    | none =>
      unfold poolExec at hps2
      simp only [poolStep] at hps2
      have : ∃ x, ps.health = .ok x := by
        unfold Pools.health
        rw [hp]
        exact ⟨_, rfl⟩
      obtain ⟨x, hxx⟩ := this
      rw [hxx] at hps2
      cases hps2
    | some ps2 =>
      have hr2 := poolExec_run (fun _ : Nat => 1) 3 _ _ _ ps2 [] .nil hps2
      obtain ⟨p, w, hpm, hw, hrun⟩ := hC Nat (fun _ => 1) 3 [0] _ _ ps ps2 0 (by decide) (by decide) (by decide) hr
        ⟨_, by rw [hp]; exact List.mem_cons_self, _, List.mem_cons_self, rfl⟩ (by simp) (by simp) (by simp) hr2
      exact C45_never (by decide) hr hr2 (by simp) (p := ⟨[⟨0, some (.exited 0)⟩], []⟩)
        (by rw [hp]; exact List.mem_cons_self) rfl (by simp) hpm w hw hrun

/-- A crash is noticed: worker 0 is replaced by worker 1. -/
example : (poolExec (fun _ : Nat => 1) 3 (Pools.init [0]) [.recruit [0], .exit 0 0 (-9), .health]).map (·.pools) =
    some [(0, ⟨[⟨1, some .running⟩], []⟩)] := by decide +kernel

end Verif
