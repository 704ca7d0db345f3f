import Verif.Spec.Raised
import Verif.Proofs.SystemFail
import Verif.Props.ServerReuse

/-! # Lemmas for C120 -/

set_option linter.unusedSectionVars false

namespace Verif

open Spec FineSrv

variable {N T K S : Type} [DecidableEq N] [DecidableEq T] [DecidableEq K] [DecidableEq S]
  {g : DGraph N T K} {cfg : SConf T} {ks : List (FineTick N T S)} {x x' : FineSrv N T K S} {k : FineTick N T S}
  {σ σ' : Server N T K S}

theorem told_append (a b : List (Out N T S)) : told (a ++ b) = told a ++ told b := List.filterMap_append

theorem told_nil {os : List (Out N T S)} (h : ∀ n w, .blockFailure n w ∉ os) : told os = [] := by
  unfold told
  rw [List.filterMap_eq_nil_iff]
  intro o ho
  cases o with
  | blockFailure n w => exact absurd ho (h n w)
  | _ => rfl

theorem told_noFail (h : NoFail σ σ') : told σ'.out = told σ.out := by
  obtain ⟨os, h1, h2⟩ := h
  rw [h1, told_append, told_nil h2, List.append_nil]

/-- What `releaseLost` adds to the log. -/
theorem releaseLost_only {pick : N → Nat → Finset N → N} : ∀ (L : List N) (σ σ' : Server N T K S),
    Server.releaseLost g pick L σ = .ok σ' →
      NoFail σ σ' ∧ ∃ os, σ'.out = σ.out ++ os ∧ ∀ o ∈ os, Silent o ∨ ∃ m ∈ L, o = .release m .failed
  | [], σ, σ', h => by
    cases h
    exact ⟨NoFail.refl _, [], (List.append_nil _).symm, by simp⟩
  | n :: L, σ, σ', h => by
    unfold Server.releaseLost at h
    split at h
    · cases h
    · rename_i σ1 h1
      obtain ⟨a1, os, a2, a3⟩ := releaseLost_only L σ1 σ' h
      refine ⟨(release_noFail h1).trans a1, ?_⟩
      unfold Server.release at h1
      split at h1
      · cases h1
      · rename_i st' _
        cases h1
        obtain ⟨_, _, _, o1, b1, b2⟩ := (checkAll_frame (g := g)
          (({ σ with sched := st' }).emit [.release n .failed, .released (g.task n)])).trans (recruit_frame _)
        refine ⟨[.release n .failed, .released (g.task n)] ++ o1 ++ os, ?_, ?_⟩
        · rw [a2, b1]
          simp [Server.emit]
        · intro o ho
          rcases List.mem_append.1 ho with ho | ho
          · rcases List.mem_append.1 ho with ho | ho
            · rcases List.mem_cons.1 ho with rfl | ho
              · exact Or.inr ⟨n, List.mem_cons_self, rfl⟩
              · rw [List.mem_singleton.1 ho]
                exact Or.inl trivial
            · exact Or.inl (b2 o ho)
          · rcases a3 o ho with h | ⟨m, h1, h2⟩
            · exact Or.inl h
            · exact Or.inr ⟨m, List.mem_cons_of_mem _ h1, h2⟩

theorem count_bad_only {os : List (Out N T S)} {L : List N} {n : N}
    (h : ∀ o ∈ os, Silent o ∨ ∃ m ∈ L, o = .release m .failed) (hn : n ∉ L) : (evs os).count (Ev.bad n) = 0 := by
  rw [List.count_eq_zero]
  intro hm
  obtain ⟨o, ho, he⟩ := List.mem_filterMap.1 hm
  rcases h o ho with h1 | ⟨m, h1, rfl⟩
  · cases o <;> first | exact h1 | cases he
  · cases he
    exact hn h1

/-- The IO loop only adds to the queue of exceptions. -/
theorem ioRun_excs (es : List (SrvIo N T S)) (x : FineSrv N T K S) : ∃ l, (x.ioRun es).excs = x.excs ++ l := by
  induction es generalizing x with
  | nil => exact ⟨[], (List.append_nil _).symm⟩
  | cons e es ih =>
    obtain ⟨l, h⟩ := ih (x.ioStep e)
    refine ⟨addExcs (x.links (streamOf e)) e ++ l, ?_⟩
    change ((x.ioStep e).ioRun es).excs = _
    rw [h, (ioStep_add x e).2, List.append_assoc]

theorem isClosed_run {x x' : FineSrv N T K S} {s : S} {l : Look N T S} {c : Bool}
    (h : x.isClosed s l = .ok (c, x')) : ∃ es, x' = x.ioRun es := by
  unfold isClosed at h
  dsimp only at h
  split at h
  · cases h; exact ⟨_, by rw [ioRun_append, ioRun_append]⟩
  · split at h
    · cases h
    · cases h; exact ⟨_, by rw [ioRun_append, ioRun_append]⟩

theorem lostIds_run (look : Nat → Look N T S) : ∀ (b : Book N K S) (i : Nat) (x : FineSrv N T K S) {ks : List K}
    {x' : FineSrv N T K S}, x.lostIds look i b = .ok (ks, x') → ∃ es, x' = x.ioRun es
  | [], _, x, ks, x', h => by
    cases h
    exact ⟨[], rfl⟩
  | (k, log) :: rest, i, x, ks, x', h => by
    unfold lostIds at h
    split at h
    · cases h
    · rename_i c y hy
      split at h
      · cases h
      · rename_i ks' z hz
        cases h
        obtain ⟨l, h1⟩ := isClosed_run hy
        obtain ⟨l', h2⟩ := lostIds_run look rest (i + 1) y hz
        exact ⟨l ++ l', by rw [h2, h1, ioRun_append]⟩

/-- One exception is taken out of the queue in every iteration that finds one. -/
theorem iteration_excs (h : x.iteration g cfg k = .ok x') : ∃ l, x'.excs = (x.ioRun k.io0).excs.tail ++ l := by
  unfold iteration at h
  split at h
  · cases h
  · rename_i r x1 h1
    have hx1 : ∃ l, x1.excs = (x.ioRun k.io0).excs.tail ++ l := by
      unfold getMessage at h1
      dsimp only at h1
      split at h1
      · cases h1
      · rename_i r' he
        cases h1
        rw [he]
        exact ioRun_excs k.io1 { x.ioRun k.io0 with excs := r' }
      · rename_i he
        have h2 : ∃ l, ((x.ioRun k.io0).ioRun k.io1).excs = (x.ioRun k.io0).excs.tail ++ l := ⟨_, by rw [he]; rfl⟩
        split at h1
        · cases h1; exact h2
        · cases h1; exact h2
    obtain ⟨l1, e1⟩ := hx1
    split at h
    · cases h
    · split at h
      · cases h
      · rename_i σ1 _ x2 h2
        have hx2 : ∃ l, x2.excs = x1.excs ++ l := by
          unfold checkLost at h2
          split at h2
          · cases h2
          · rename_i ks' y hy
            split at h2
            · cases h2
            · split at h2
              · cases h2
              · cases h2
                obtain ⟨es, hes⟩ := lostIds_run _ _ _ _ hy
                change ∃ l, y.excs = x1.excs ++ l
                rw [hes]
                exact ioRun_excs es _
        obtain ⟨l2, e2⟩ := hx2
        refine ⟨l1 ++ l2, ?_⟩
        rw [← List.append_assoc, ← e1, ← e2]
        cases h
        split <;> rfl

/-- Streams of which nothing is read any more. -/
theorem over_mono (es : List (SrvIo N T S)) {s : S} (h : (x.links s).pc = .over) : ((x.ioRun es).links s).pc = .over :=
  links_mono (P := fun l => l.pc = .over) (fun l e h => by
    cases e <;> simp only [linkStep] <;> (try split) <;> (try split) <;> (try split) <;> simp_all) es h

theorem over_queue (es : List (SrvIo N T S)) {s : S} (h : (x.links s).pc = .over) :
    fromStream s (x.ioRun es).queue = fromStream s x.queue := by
  induction es generalizing x with
  | nil => rfl
  | cons e es ih =>
    have h1 := over_mono [e] h
    change fromStream s ((x.ioStep e).ioRun es).queue = _
    rw [ih (x := x.ioStep e) h1, (ioStep_add x e).1]
    unfold fromStream
    rw [List.filter_append, List.map_append]
    suffices hz : (addQueue (x.links (streamOf e)) e).filter (fun p => decide (p.2 = s)) = [] by rw [hz]; simp
    cases e with
    | arrive m s' =>
      change (if (x.links s').pc = .reading then [(m, s')] else []).filter _ = []
      by_cases hr : (x.links s').pc = .reading
      · rw [if_pos hr, List.filter_cons_of_neg]
        · rfl
        · rw [decide_eq_true_iff]
          rintro rfl
          rw [h] at hr
          cases hr
      · rw [if_neg hr]
        rfl
    | _ => rfl

/-- What happens to a stream depends on its own steps only. -/
theorem own_steps (s : S) (es : List (SrvIo N T S)) : ∀ {x y : FineSrv N T K S}, x.links s = y.links s →
    (x.ioRun es).links s = (y.ioRun (es.filter (fun e => decide (streamOf e = s)))).links s ∧
    (fromStream s x.queue = fromStream s y.queue → fromStream s (x.ioRun es).queue =
      fromStream s (y.ioRun (es.filter (fun e => decide (streamOf e = s)))).queue) ∧
    ∀ e ∈ (y.ioRun (es.filter (fun e => decide (streamOf e = s)))).excs, e ∈ y.excs ∨ e ∈ (x.ioRun es).excs := by
  induction es with
  | nil => exact fun h => ⟨h, id, fun e he => Or.inl he⟩
  | cons e es ih =>
    intro x y h
    by_cases hs : streamOf e = s
    · rw [List.filter_cons_of_pos (by rw [decide_eq_true_iff]; exact hs)]
      have hl : x.links (streamOf e) = y.links (streamOf e) := by rw [hs]; exact h
      obtain ⟨h1, h2, h3⟩ := ih (x := x.ioStep e) (y := y.ioStep e) (by
        rw [ioStep_links, ioStep_links, hl]
        unfold upd
        rw [if_pos hs.symm, if_pos hs.symm])
      refine ⟨h1, fun hq => h2 ?_, ?_⟩
      · rw [(ioStep_add x e).1, (ioStep_add y e).1, hl]
        unfold fromStream at hq ⊢
        rw [List.filter_append, List.filter_append, List.map_append, List.map_append, hq]
      · intro z hz
        rcases h3 z hz with h | h
        · rw [(ioStep_add y e).2] at h
          rcases List.mem_append.1 h with h | h
          · exact Or.inl h
          · refine Or.inr ?_
            obtain ⟨l, h4⟩ := ioRun_excs es (x.ioStep e)
            change z ∈ ((x.ioStep e).ioRun es).excs
            rw [h4, (ioStep_add x e).2, hl]
            exact List.mem_append_left _ (List.mem_append_right _ h)
        · exact Or.inr h
    · rw [List.filter_cons_of_neg (by rw [decide_eq_true_iff]; exact hs)]
      obtain ⟨h1, h2, h3⟩ := ih (x := x.ioStep e) (y := y) (by rw [ioStep_other x hs]; exact h)
      refine ⟨h1, fun hq => h2 ?_, h3⟩
      rw [(ioStep_add x e).1, ← hq]
      unfold fromStream
      rw [List.filter_append, List.map_append]
      suffices hz : (addQueue (x.links (streamOf e)) e).filter (fun p => decide (p.2 = s)) = [] by rw [hz]; simp
      cases e with
      | arrive m s' =>
        change (if (x.links s').pc = .reading then [(m, s')] else []).filter _ = []
        by_cases hr : (x.links s').pc = .reading
        · rw [if_pos hr, List.filter_cons_of_neg]
          · rfl
          · rw [decide_eq_true_iff]
            exact hs
        · rw [if_neg hr]
          rfl
      | _ => rfl

/-- Nothing comes from a stream that is not read any more. -/
theorem iteration_over {s : S} (h : x.iteration g cfg k = .ok x') (hpc : (x.links s).pc = .over)
    (hq : fromStream s x.queue = []) : fromStream s x'.queue = [] := by
  unfold iteration at h
  split at h
  · cases h
  · rename_i r x1 h1
    have hx1 : (x1.links s).pc = .over ∧ fromStream s x1.queue = [] := by
      unfold getMessage at h1
      dsimp only at h1
      have p0 := over_mono k.io0 hpc
      have q0 := (over_queue k.io0 hpc).trans hq
      split at h1
      · cases h1
      · rename_i r' he
        cases h1
        exact ⟨over_mono (x := { x.ioRun k.io0 with excs := r' }) k.io1 p0,
          (over_queue (x := { x.ioRun k.io0 with excs := r' }) k.io1 p0).trans q0⟩
      · have p1 := over_mono k.io1 p0
        have q1 := (over_queue k.io1 p0).trans q0
        split at h1
        · cases h1; exact ⟨p1, q1⟩
        · rename_i m s' q he
          cases h1
          refine ⟨p1, ?_⟩
          rw [he] at q1
          unfold fromStream at q1 ⊢
          rw [List.map_eq_nil_iff] at q1 ⊢
          rw [List.filter_eq_nil_iff] at q1 ⊢
          exact fun a ha => q1 a (List.mem_cons_of_mem _ ha)
    obtain ⟨p1, q1⟩ := hx1
    split at h
    · cases h
    · rename_i σ1 _
      split at h
      · cases h
      · rename_i x2 h2
        have hx2 : fromStream s x2.queue = [] := by
          unfold checkLost at h2
          split at h2
          · cases h2
          · rename_i ks' y hy
            split at h2
            · cases h2
            · split at h2
              · cases h2
              · cases h2
                obtain ⟨es, hes⟩ := lostIds_run _ _ _ _ hy
                change fromStream s y.queue = []
                rw [hes]
                exact (over_queue (x := { x1 with srv := σ1 }) es p1).trans q1
        cases h
        split <;> exact hx2

theorem poolOuts_counts (c : SysConf T) : ∀ (os : List (Out N T S)) (ps ps' : Pools T),
    (∀ n w, .blockFailure n w ∉ os) → Sys.poolOuts g c os ps = .ok ps' → ps'.counts = ps.counts
  | [], ps, ps', _, h => by cases h; rfl
  | o :: os, ps, ps', hn, h => by
    unfold Sys.poolOuts at h
    split at h
    · cases h
    · rename_i p1 h1
      rw [poolOuts_counts c os p1 ps' (fun n w hm => hn n w (List.mem_cons_of_mem _ hm)) h]
      cases o with
      | blockFailure n w => exact absurd List.mem_cons_self (hn n w)
      | recruit ts => cases h1; rfl
      | _ => cases h1; rfl

theorem procs_counts (ps : Pools T) (es : List (ProcEv T)) : (es.foldl Sys.procStep ps).counts = ps.counts := by
  induction es generalizing ps with
  | nil => rfl
  | cons e es ih =>
    rw [List.foldl_cons, ih]
    cases e <;> rfl

theorem health_counts {ps ps' : Pools T} (h : ps.health = .ok ps') : ps'.counts = ps.counts := by
  unfold Pools.health at h
  split at h
  · cases h
  · cases h; rfl

/-- Without failure messages nothing is counted for workers, and nobody is told of a failure. -/
theorem mute_run {c : SysConf T} {P : Sys N T K S → SysEv N T S → Prop} {es : List (SysEv N T S)} {y : Sys N T K S}
    (h : SysRun g c P es y) (hm : Mute es) :
    (∀ n w s, (.blockFailed n w, s) ∉ y.queue) ∧ told y.srv.out = [] ∧ ∀ t id, y.pools.counts t id = 0 := by
  induction h with
  | init h =>
    unfold Sys.init at h
    dsimp only at h
    split at h
    · cases h
    · rename_i ps hp
      cases h
      obtain ⟨os, h1, h2⟩ := recruit_noFail (g := g)
        (⟨Sched.init g, [], [], [], false, false, fun _ => [], []⟩ : Server N T K S)
      have h3 : (Server.init g : Server N T K S).out = os := h1
      refine ⟨by simp, ?_, ?_⟩
      · change told (Server.init g : Server N T K S).out = []
        rw [h3, told_nil h2]
      · intro t id
        change ps.counts t id = 0
        rw [poolOuts_counts c _ _ _ (by rw [h3]; exact h2) hp]
        rfl
  | step e h hl hp hs ih =>
    rename_i es x x'
    obtain ⟨i1, i2, i3⟩ := ih (fun n w s h => hm n w s (List.mem_append_left _ h))
    cases e with
    | arrive m s =>
      cases hs
      refine ⟨?_, i2, i3⟩
      intro n w s' hq
      rcases List.mem_append.1 hq with hq | hq
      · exact i1 n w s' hq
      · cases List.mem_singleton.1 hq
        exact hm n w s (by simp)
    | close s => cases hs; exact ⟨i1, i2, i3⟩
    | proc p =>
      cases hs
      refine ⟨i1, i2, ?_⟩
      intro t id
      rw [← i3 t id]
      cases p <;> rfl
    | loop k =>
      unfold Sys.step Sys.loop at hs
      dsimp only at hs
      split at hs
      · cases hs
      · rename_i srv h1
        split at hs
        · cases hs
        · rename_i ps h2
          split at hs
          · cases hs
          · rename_i ps' h3
            cases hs
            obtain ⟨os, e1, e2⟩ := iteration_fails h1
            have hq : ∀ n w s, x.recv.1 ≠ .msg (.blockFailed n w) s := by
              intro n w s hc
              unfold Sys.recv at hc
              split at hc
              · cases hc
              · split at hc
                · cases hc
                · rename_i m s' q hq
                  cases hc
                  exact i1 n w s (by rw [hq]; exact List.mem_cons_self)
            have hos : ∀ n w, .blockFailure n w ∉ os := by
              intro n w hc
              obtain ⟨s, hr⟩ := e2 n w hc
              exact hq n w s hr
            refine ⟨?_, ?_, ?_⟩
            · intro n w s hc
              change (.blockFailed n w, s) ∈ x.recv.2.1 at hc
              unfold Sys.recv at hc
              split at hc
              · exact i1 n w s hc
              · split at hc
                · cases hc
                · rename_i m s' q hq
                  exact i1 n w s (by rw [hq]; exact List.mem_cons_of_mem _ hc)
            · change told srv.out = []
              rw [e1, told_append, i2, told_nil hos]
              rfl
            · intro t id
              change ps'.counts t id = 0
              rw [health_counts h3, procs_counts, poolOuts_counts c _ _ _ ?_ h2]
              · exact i3 t id
              · rw [e1, List.drop_left]
                exact hos

end Verif
