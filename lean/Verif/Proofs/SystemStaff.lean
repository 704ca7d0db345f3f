import Verif.Proofs.SystemFail

/-! # Workers that are there -/

set_option linter.unusedSectionVars false

namespace Verif.Spec

open Verif

variable {N T K S : Type} [DecidableEq N] [DecidableEq T] [DecidableEq K] [DecidableEq S]
variable {g : DGraph N T K} {cfg : SConf T} {σ σ' : Server N T K S}

/-- At most one failure is announced in an iteration, the one that was received. -/
theorem iteration_fail_one {k : Server.Tick N T S} (h : σ.iteration g cfg k = .ok σ') :
    ∃ a b d, σ'.out = σ.out ++ (a ++ b ++ d) ∧ (∀ n w, .blockFailure n w ∉ a) ∧ (∀ n w, .blockFailure n w ∉ d) ∧
      (b = [] ∨ ∃ n w s, b = [.blockFailure n w] ∧ k.recv = .msg (.blockFailed n w) s) := by
  obtain ⟨σ1, σ2, h1, h2, h3⟩ := iteration_split h
  have hr : NoFail σ1 σ' := by
    rw [h3]
    exact (checkLost_noFail h2).trans (late_noFail σ2 _)
  have hnf : NoFail σ σ1 → ∃ a b d, σ'.out = σ.out ++ (a ++ b ++ d) ∧ (∀ n w, .blockFailure n w ∉ a) ∧
      (∀ n w, .blockFailure n w ∉ d) ∧
      (b = [] ∨ ∃ n w s, b = [.blockFailure n w] ∧ k.recv = .msg (.blockFailed n w) s) := by
    intro h4
    obtain ⟨os, e, f⟩ := h4.trans hr
    exact ⟨os, [], [], by simpa using e, f, by simp, Or.inl rfl⟩
  cases hrec : k.recv with
  | msg m s =>
    rw [hrec] at h1
    obtain ⟨a1, a2⟩ := handle_fails h1
    by_cases hm : ∃ n w, m = .blockFailed n w
    · obtain ⟨n, w, rfl⟩ := hm
      obtain ⟨σ3, σ4, b1, b2, b3⟩ := a2 n w rfl
      obtain ⟨o1, c1, c2⟩ := safeRelease_noFail b1
      obtain ⟨o2, c3, c4⟩ := ((b3 ▸ checkAll_noFail (g := g) σ4 : NoFail σ4 σ1)).trans hr
      refine ⟨o1, [.blockFailure n w], o2, ?_, c2, c4, Or.inr ⟨n, w, s, rfl, rfl⟩⟩
      rw [c3, b2]
      simp [Server.emit, c1]
    · rw [hrec] at hnf
      exact hnf (a1 (fun n w e => hm ⟨n, w, e⟩))
  | closed =>
    rw [hrec] at hnf h1
    cases h1
    exact hnf (NoFail.refl _)
  | nothing =>
    rw [hrec] at hnf h1
    unfold Server.handleMessages at h1
    simp only at h1
    split at h1
    · cases h1; exact hnf (NoFail.refl _)
    · next t ht =>
      split at h1
      · cases h1; exact hnf (NoFail.refl _)
      · obtain ⟨os, e, f⟩ := (handle_fails h1).1 (fun n w e => by cases e)
        exact hnf ⟨os, e, f⟩

/-! ## The pools -/

/-- The worker runs, or its crash has not been noticed yet. -/
def Live (w : Worker) : Prop := w.proc = some .running ∨ ∃ c, c ≠ 0 ∧ w.proc = some (.exited c)

/-- No pool has too many workers, the pools of tasks that were recruited (`R`) have all of them, and in every pool
that has workers one of them is alive unless the task is finished (`fin`). -/
def Staff (num : T → Nat) (fin R : T → Prop) (ps : Pools T) : Prop :=
  ∀ t p, (t, p) ∈ ps.pools → p.workers.length ≤ num t ∧ (R t → p.workers.length = num t) ∧
    (p.workers = [] ∨ (∃ w ∈ p.workers, Live w) ∨ fin t)

theorem Staff.mono {num : T → Nat} {fin fin' R R' : T → Prop} {ps : Pools T} (h : Staff num fin R ps)
    (hf : ∀ t, fin t → fin' t) (hR : ∀ t, R' t → R t) : Staff num fin' R' ps := by
  intro t p hp
  obtain ⟨h1, h2, h3⟩ := h t p hp
  exact ⟨h1, fun hr => h2 (hR t hr), h3.imp id (Or.imp id (hf t))⟩

theorem poolStep_staff {num : T → Nat} {maxF : Nat} {fin R : T → Prop} {ps ps' : Pools T} {e : PoolEv T}
    (hok : Pools.OK ps.pools ps.next) (hfail : ∀ t id, e = .failure t id → InPool ps t id)
    (hexit : ∀ t id, e = .exit t id 0 → fin t ∨ ∃ id', id' ≠ id ∧ Running ps t id')
    (h : poolStep num maxF ps e = .ok ps') (hs : Staff num fin R ps) :
    Staff num fin (fun t => R t ∨ ∃ ready, e = .recruit ready ∧ t ∈ ready) ps' := by
  intro t p' hp'
  obtain ⟨p, b, hp, hb, hpok, he, _⟩ := Pools.step_mem hok h hp'
  obtain ⟨h1, h2, h3⟩ := hs t p hp
  subst he
  -- everything stays as it is
  have same : ∀ e' : PoolEv T, (∀ ready, e' ≠ .recruit ready ∨ t ∉ ready) → p.workers.length ≤ num t ∧
      ((R t ∨ ∃ ready, e' = .recruit ready ∧ t ∈ ready) → p.workers.length = num t) ∧
      (p.workers = [] ∨ (∃ w ∈ p.workers, Live w) ∨ fin t) := by
    intro e' hn
    refine ⟨h1, ?_, h3⟩
    rintro (hr | ⟨ready, rfl, ht⟩)
    · exact h2 hr
    · rcases hn ready with hn | hn
      · exact absurd rfl hn
      · exact absurd ht hn
  cases e with
  | recruit ready =>
    simp only [Pools.stepFun]
    by_cases ht : t ∈ ready
    · rw [if_pos ht]
      have hl := Pool.setNum_length (n := num t) hpok
      refine ⟨le_of_eq hl, fun _ => hl, ?_⟩
      rcases Pool.setNum_cases (n := num t) hpok with ⟨c1, c2, _⟩ | ⟨c1, c2, _⟩
      · right; left
        rw [c2]
        refine ⟨⟨b + 0, some .running⟩, List.mem_append_right _ (List.mem_map.2 ⟨0, ?_, rfl⟩), Or.inl rfl⟩
        rw [List.mem_range]; omega
      · rw [c2, List.take_of_length_le h1]
        exact h3
    · rw [if_neg ht]
      refine same _ (fun r => ?_)
      by_cases hr : r = ready
      · exact Or.inr (hr ▸ ht)
      · left; intro hc; cases hc; exact hr rfl
  | health =>
    simp only [Pools.stepFun]
    have hl := Pools.healthPool_length hpok
    refine ⟨by rw [hl]; exact h1, ?_, ?_⟩
    · rintro (hr | ⟨_, hc, _⟩)
      · rw [hl]; exact h2 hr
      · cases hc
    · rcases h3 with h3 | ⟨w, hw, h3⟩ | h3
      · left
        apply List.eq_nil_of_length_eq_zero
        rw [hl, h3]
        rfl
      · right; left
        rw [(Pools.healthPool_workers hpok).1]
        rcases h3 with h3 | ⟨c, hc, h3⟩
        · refine ⟨w, List.mem_append_left _ (List.mem_map.2 ⟨w, List.mem_filter.2 ⟨hw, ?_⟩, ?_⟩), Or.inl h3⟩
          · simp [Pool.failed, h3]
          · unfold Pool.forget; rw [h3]
        · refine ⟨⟨b + 0, some .running⟩, List.mem_append_right _ (List.mem_map.2 ⟨0, ?_, rfl⟩), Or.inl rfl⟩
          rw [List.mem_range]
          exact List.length_pos_of_mem (List.mem_filter.2 ⟨hw, by simp [Pool.failed, h3, hc]⟩)
      · exact Or.inr (Or.inr h3)
  | failure t0 id =>
    simp only [Pools.stepFun]
    have hsame := same (.failure t0 id) (fun r => Or.inl (fun hc => by cases hc))
    split
    · split
      · rename_i heq
        subst heq
        obtain ⟨q', hq', w, hw, hid⟩ := hfail t id rfl
        have := Pools.key_unique hok.1 hq' hp
        subst this
        have hlen : (((q'.stop id).start b 1).1.workers).length = q'.workers.length := by
          rw [Pool.start_workers (Pool.stop_ok hpok id), Pool.stop_workers, List.length_append,
            Pool.newWorkers_length]
          have h5 : (q'.workers.filter (fun w => w.id ≠ id)).length + 1 = q'.workers.length := by
            have hnd : (q'.workers.map (·.id)).Nodup := by
              rw [List.nodup_iff_pairwise_ne, List.pairwise_map]
              exact hpok.1.imp (fun hlt => by omega)
            have h6 : q'.workers.filter (fun w => w.id ≠ id) = q'.workers.erase w := by
              have hnd' : q'.workers.Nodup := hnd.of_map
              rw [hnd'.erase_eq_filter]
              apply List.filter_congr
              intro v hv
              by_cases hvw : v = w
              · subst hvw; simp [hid]
              · have : v.id ≠ id := fun hc => hvw (Pool.ids_inj hpok.1 hv hw (hc.trans hid.symm))
                simp [this, hvw]
            rw [h6, List.length_erase_of_mem hw]
            have := List.length_pos_of_mem hw
            omega
          omega
        refine ⟨by rw [hlen]; exact h1, ?_, ?_⟩
        · rintro (hr | ⟨_, hc, _⟩)
          · rw [hlen]; exact h2 hr
          · cases hc
        · right; left
          rw [Pool.start_workers (Pool.stop_ok hpok id)]
          exact ⟨⟨b + 0, some .running⟩, List.mem_append_right _ (List.mem_map.2 ⟨0, by simp, rfl⟩), Or.inl rfl⟩
      · exact hsame
    · exact hsame
  | exit t0 id code =>
    simp only [Pools.stepFun]
    have e1 := congrArg List.length (Pools.exitPool_ids t0 id code t p)
    rw [List.length_map, List.length_map] at e1
    refine ⟨by rw [e1]; exact h1, ?_, ?_⟩
    · rintro (hr | ⟨_, hc, _⟩)
      · rw [e1]; exact h2 hr
      · cases hc
    · rcases h3 with h3 | ⟨w, hw, h3⟩ | h3
      · left
        apply List.eq_nil_of_length_eq_zero
        rw [e1, h3]
        rfl
      · by_cases ht : t = t0
        · subst ht
          have hmem : ∀ v ∈ p.workers, (if v.id = id ∧ v.proc = some .running then ⟨v.id, some (.exited code)⟩
              else v : Worker) ∈ (Pools.exitPool t id code t p).workers := by
            intro v hv
            unfold Pools.exitPool
            rw [if_pos rfl]
            exact List.mem_map.2 ⟨v, hv, rfl⟩
          by_cases hc : code = 0
          · subst hc
            rcases hexit t id rfl with hf | ⟨id', hne, q, hq, v, hv, hvi, hvr⟩
            · exact Or.inr (Or.inr hf)
            · right; left
              have := Pools.key_unique hok.1 hq hp
              subst this
              refine ⟨_, hmem v hv, ?_⟩
              rw [if_neg (fun hc => hne (hvi.symm.trans hc.1))]
              exact Or.inl hvr
          · right; left
            refine ⟨_, hmem w hw, ?_⟩
            split
            · exact Or.inr ⟨code, hc, rfl⟩
            · exact h3
        · right; left
          refine ⟨w, ?_, h3⟩
          unfold Pools.exitPool
          rw [if_neg ht]
          exact hw
      · exact Or.inr (Or.inr h3)
  | report t0 x =>
    simp only [Pools.stepFun]
    rw [Pools.reportPool_workers]
    exact same _ (fun r => Or.inl (fun hc => by cases hc))

/-- A recruitment does not stop workers. -/
theorem recruit_inPool {num : T → Nat} {maxF : Nat} {fin R : T → Prop} {ps ps' : Pools T} {ready : List T}
    (hok : Pools.OK ps.pools ps.next) (h : poolStep num maxF ps (.recruit ready) = .ok ps')
    (hs : Staff num fin R ps) {t : T} {id : Nat} (hi : InPool ps t id) : InPool ps' t id := by
  obtain ⟨p, hp, w, hw, hid⟩ := hi
  obtain ⟨b, hb, hpok, hmem, _⟩ := Pools.step_mem' hok h hp
  refine ⟨_, hmem, w, ?_, hid⟩
  simp only [Pools.stepFun]
  split
  · rcases Pool.setNum_cases (n := num t) hpok with ⟨c1, c2, _⟩ | ⟨c1, c2, _⟩
    · rw [c2]; exact List.mem_append_left _ hw
    · rw [c2, List.take_of_length_le (hs t p hp).1]; exact hw
  · exact hw

variable {c : SysConf T}

/-- The tasks that are recruited in a piece of the log. -/
def RecruitedIn (os : List (Out N T S)) (t : T) : Prop := ∃ ts, .recruit ts ∈ os ∧ t ∈ ts

theorem poolOuts_append : ∀ (os os' : List (Out N T S)) (ps ps' : Pools T),
    Sys.poolOuts g c (os ++ os') ps = .ok ps' →
    ∃ ps1, Sys.poolOuts g c os ps = .ok ps1 ∧ Sys.poolOuts g c os' ps1 = .ok ps'
  | [], os', ps, ps', h => ⟨ps, rfl, h⟩
  | o :: os, os', ps, ps', h => by
    simp only [List.cons_append, Sys.poolOuts] at h ⊢
    split at h
    · cases h
    · next ps1 h1 => exact poolOuts_append os os' ps1 ps' h

theorem poolOuts_staff {fin : T → Prop} : ∀ (os : List (Out N T S)) (R : T → Prop) (ps ps' : Pools T),
    (∀ n w, .blockFailure n w ∉ os) → Pools.OK ps.pools ps.next → Sys.poolOuts g c os ps = .ok ps' →
    Staff c.num fin R ps → Staff c.num fin (fun t => R t ∨ RecruitedIn os t) ps' ∧
      ∀ t id, InPool ps t id → InPool ps' t id
  | [], R, ps, ps', _, _, h, hs => by
    cases h
    refine ⟨hs.mono (fun _ => id) ?_, fun _ _ => id⟩
    rintro t (hr | ⟨ts, hm, _⟩)
    · exact hr
    · cases hm
  | o :: os, R, ps, ps', hn, hok, h, hs => by
    simp only [Sys.poolOuts] at h
    split at h
    · cases h
    · next ps1 h1 =>
      have hn' : ∀ n w, .blockFailure n w ∉ os := fun n w hm => hn n w (List.mem_cons_of_mem _ hm)
      have other : ps1 = ps → (∀ ts, o ≠ .recruit ts) →
          Staff c.num fin (fun t => R t ∨ RecruitedIn (o :: os) t) ps' ∧ ∀ t id, InPool ps t id → InPool ps' t id := by
        rintro rfl ho
        obtain ⟨a, b⟩ := poolOuts_staff os R ps1 ps' hn' hok h hs
        refine ⟨a.mono (fun _ => id) ?_, b⟩
        rintro t (hr | ⟨ts, hm, ht⟩)
        · exact Or.inl hr
        · rcases List.mem_cons.1 hm with hm | hm
          · exact absurd hm.symm (ho ts)
          · exact Or.inr ⟨ts, hm, ht⟩
      cases o with
      | recruit ts =>
        have hstep : poolStep c.num c.maxF ps (.recruit ts) = .ok ps1 := h1
        have hs1 := poolStep_staff hok (by intro t id hc; cases hc) (by intro t id hc; cases hc) hstep hs
        obtain ⟨a, b⟩ := poolOuts_staff os _ ps1 ps' hn' (Pools.step_ok hok hstep) h hs1
        refine ⟨a.mono (fun _ => id) ?_, fun t id hi => b t id (recruit_inPool hok hstep hs hi)⟩
        rintro t (hr | ⟨ts', hm, ht⟩)
        · exact Or.inl (Or.inl hr)
        · rcases List.mem_cons.1 hm with hm | hm
          · cases hm
            exact Or.inl (Or.inr ⟨ts, rfl, ht⟩)
          · exact Or.inr ⟨ts', hm, ht⟩
      | blockFailure n w => exact absurd List.mem_cons_self (hn n w)
      | _ => cases h1; exact other rfl (fun ts hc => by cases hc)

theorem poolOuts_ok {os : List (Out N T S)} {ps ps' : Pools T} (hok : Pools.OK ps.pools ps.next)
    (h : Sys.poolOuts g c os ps = .ok ps') : Pools.OK ps'.pools ps'.next := Pools.run_ok hok (poolOuts_run os h)

theorem procs_staff {fin R : T → Prop} : ∀ (l : List (ProcEv T)) (ps : Pools T), Pools.OK ps.pools ps.next →
    (∀ t id, .exit t id 0 ∈ l → fin t) → Staff c.num fin R ps → Staff c.num fin R (l.foldl Sys.procStep ps)
  | [], ps, _, _, hs => hs
  | p :: l, ps, hok, hl, hs => by
    have hstep : poolStep c.num c.maxF ps (procEv p) = .ok (Sys.procStep ps p) := by cases p <;> rfl
    have hs1 := poolStep_staff hok (by intro t id hc; cases p <;> cases hc) (by
      intro t id hc
      left
      cases p with
      | exit t' id' code => cases hc; exact hl t id List.mem_cons_self
      | report t' e => cases hc) hstep hs
    exact procs_staff l _ (Pools.step_ok hok hstep) (fun t id hm => hl t id (List.mem_cons_of_mem _ hm))
      (hs1.mono (fun _ => id) (fun t hr => Or.inl hr))

end Verif.Spec
