import Verif.Proofs.SystemKeep

/-! # Which failures the observers are told about, and when the worker pools raise -/

set_option linter.unusedSectionVars false

namespace Verif.Spec

open Verif

variable {N T K S : Type} [DecidableEq N] [DecidableEq T] [DecidableEq K] [DecidableEq S]
variable {g : DGraph N T K} {cfg : SConf T} {σ σ' : Server N T K S}

/-- No failure is announced. -/
def NoFail (σ σ' : Server N T K S) : Prop := ∃ os, σ'.out = σ.out ++ os ∧ ∀ n w, .blockFailure n w ∉ os

theorem NoFail.refl (σ : Server N T K S) : NoFail σ σ := ⟨[], by simp, by simp⟩

theorem NoFail.trans {a b c : Server N T K S} (h : NoFail a b) (h' : NoFail b c) : NoFail a c := by
  obtain ⟨os, h1, h2⟩ := h
  obtain ⟨os', h1', h2'⟩ := h'
  refine ⟨os ++ os', by rw [h1', h1, List.append_assoc], ?_⟩
  intro n w hm
  rcases List.mem_append.1 hm with h | h
  · exact h2 n w h
  · exact h2' n w h

theorem recruit_noFail (σ : Server N T K S) : NoFail σ (σ.recruit g) := by
  obtain ⟨_, _, _, _, os, h1, h2, _⟩ := recruit_spec (g := g) σ
  refine ⟨os ++ [.recruit (σ.sched.getReadyTasks g)], by rw [h1, List.append_assoc], ?_⟩
  intro n w hm
  rcases List.mem_append.1 hm with hm | hm
  · obtain ⟨t, _, e | e⟩ := h2 _ hm <;> cases e
  · simp at hm

theorem checkAll_noFail (σ : Server N T K S) : NoFail σ (σ.checkAll g) := by
  obtain ⟨_, _, _, os, h1, h2, _⟩ := checkAll_spec (g := g) σ
  refine ⟨os, h1, ?_⟩
  intro n w hm
  obtain ⟨t, e⟩ := h2 _ hm
  cases e

theorem skips_noFail {os : List (Out N T S)} {skips : List N} {n : N} {w : Nat} (h : .blockFailure n w ∉ os) :
    .blockFailure n w ∉ skips.map .skip ++ os := by
  intro hm
  rcases List.mem_append.1 hm with hm | hm
  · obtain ⟨m, _, e⟩ := List.mem_map.1 hm
    cases e
  · exact h hm

theorem handleAcquire_noFail {chk : Nat → N → Check} {now : Int} {t : T} {s : S}
    (h : σ.handleAcquire g cfg chk now t s = .ok σ') : NoFail σ σ' := by
  unfold Server.handleAcquire at h
  split at h
  · cases h
  · next skips r st' _ =>
    dsimp only at h
    split at h
    · split at h
      · cases h
      · split at h
        · cases h
          refine NoFail.trans ?_ (recruit_noFail _)
          exact ⟨skips.map .skip ++ [.shutdown s t], by simp [Server.emit],
            fun n w => skips_noFail (by simp)⟩
        · split at h
          · cases h
            exact ⟨skips.map .skip ++ [], by simp [Server.emit], fun n w => skips_noFail (by simp)⟩
          · cases h
    · next n _ =>
      split at h
      · cases h
      · cases h
        exact ⟨skips.map .skip ++ [.send s n, .acquired t], by simp [Server.emit],
          fun n w => skips_noFail (by simp)⟩

theorem release_noFail {pick : Nat → Finset N → N} {n : N} {status : BlockStatus}
    (h : σ.release g pick n status = .ok σ') : NoFail σ σ' := by
  unfold Server.release at h
  split at h
  · cases h
  · cases h
    refine NoFail.trans ?_ ((checkAll_noFail _).trans (recruit_noFail _))
    exact ⟨[.release n status, .released (g.task n)], rfl, by simp⟩

theorem safeRelease_noFail {pick : Nat → Finset N → N} {n : N} {status : BlockStatus} {s : S}
    (h : σ.safeRelease g pick n status s = .ok σ') : NoFail σ σ' := by
  unfold Server.safeRelease at h
  split at h
  · split at h
    · cases h
    · next h1 =>
      split at h
      · cases h
      · cases h
        obtain ⟨os, e, h2⟩ := release_noFail h1
        exact ⟨os, e, h2⟩
  · cases h; exact NoFail.refl _

theorem checkLost_noFail {pick : N → Nat → Finset N → N} {closed : S → Bool} {clock : Nat → Int}
    (h : σ.checkLost g pick closed clock = .ok σ') : NoFail σ σ' := by
  unfold Server.checkLost at h
  split at h
  · cases h
  · next lost book _ =>
    have key : ∀ (L : List N) (σ σ' : Server N T K S), Server.releaseLost g pick L σ = .ok σ' → NoFail σ σ' := by
      intro L
      induction L with
      | nil => intro σ σ' h; cases h; exact NoFail.refl _
      | cons n L ih =>
        intro σ σ' h
        unfold Server.releaseLost at h
        split at h
        · cases h
        · next h1 => exact (release_noFail h1).trans (ih _ _ h)
    obtain ⟨os, e, f⟩ := key _ _ _ h
    exact ⟨os, e, f⟩

theorem late_noFail (σ : Server N T K S) (b : Bool) : NoFail σ (if b then σ.checkAll g else σ) := by
  split
  · exact checkAll_noFail σ
  · exact NoFail.refl σ

theorem handle_fails {chk : Nat → N → Check} {pick : Nat → Finset N → N} {now : Int} {m : Msg N T} {s : S}
    (h : σ.handle g cfg chk pick now m s = .ok σ') :
    ((∀ n w, m ≠ .blockFailed n w) → NoFail σ σ') ∧
    ∀ n w, m = .blockFailed n w → ∃ σ1 σ2, σ.safeRelease g pick n .failed s = .ok σ1 ∧
      σ2 = σ1.emit [.blockFailure n w] ∧ σ' = σ2.checkAll g := by
  unfold Server.handle at h
  dsimp only at h
  split at h
  · cases h
  · next σ1 h1 =>
    cases h
    cases m with
    | acquire t => exact ⟨fun _ => (handleAcquire_noFail h1).trans (checkAll_noFail _), fun n w e => by cases e⟩
    | release n st => exact ⟨fun _ => (safeRelease_noFail h1).trans (checkAll_noFail _), fun n w e => by cases e⟩
    | blockFailed n w =>
      refine ⟨fun hc => absurd rfl (hc n w), ?_⟩
      intro n' w' e
      cases e
      simp only at h1
      split at h1
      · cases h1
      · next σ2 h2 => cases h1; exact ⟨σ2, _, h2, rfl, rfl⟩
    | clientException => cases h1
    | other => cases h1

/-- A failure is announced only when it is reported by a client. -/
theorem iteration_fails {k : Server.Tick N T S} (h : σ.iteration g cfg k = .ok σ') :
    ∃ os, σ'.out = σ.out ++ os ∧ ∀ n w, .blockFailure n w ∈ os → ∃ s, k.recv = .msg (.blockFailed n w) s := by
  obtain ⟨σ1, σ2, h1, h2, h3⟩ := iteration_split h
  have hr : NoFail σ1 σ' := by
    rw [h3]
    exact (checkLost_noFail h2).trans (late_noFail σ2 _)
  obtain ⟨os2, e2, f2⟩ := hr
  suffices hs : ∃ os, σ1.out = σ.out ++ os ∧ ∀ n w, .blockFailure n w ∈ os → ∃ s, k.recv = .msg (.blockFailed n w) s by
    obtain ⟨os, e1, f1⟩ := hs
    refine ⟨os ++ os2, by rw [e2, e1, List.append_assoc], ?_⟩
    intro n w hm
    rcases List.mem_append.1 hm with hm | hm
    · exact f1 n w hm
    · exact absurd hm (f2 n w)
  have hnf : NoFail σ σ1 → ∃ os, σ1.out = σ.out ++ os ∧
      ∀ n w, .blockFailure n w ∈ os → ∃ s, k.recv = .msg (.blockFailed n w) s := by
    rintro ⟨os, e, f⟩
    exact ⟨os, e, fun n w hm => absurd hm (f n w)⟩
  cases hrec : k.recv with
  | msg m s =>
    rw [hrec] at h1
    obtain ⟨a1, a2⟩ := handle_fails h1
    by_cases hm : ∃ n w, m = .blockFailed n w
    · obtain ⟨n, w, rfl⟩ := hm
      obtain ⟨σ3, σ4, b1, b2, b3⟩ := a2 n w rfl
      obtain ⟨o1, c1, c2⟩ := safeRelease_noFail b1
      obtain ⟨o2, c3, c4⟩ := checkAll_noFail (g := g) σ4
      refine ⟨o1 ++ [.blockFailure n w] ++ o2, ?_, ?_⟩
      · rw [b3, c3, b2]
        simp [Server.emit, c1]
      · intro n' w' hm
        rcases List.mem_append.1 hm with hm | hm
        · rcases List.mem_append.1 hm with hm | hm
          · exact absurd hm (c2 _ _)
          · cases List.mem_singleton.1 hm
            exact ⟨s, rfl⟩
        · exact absurd hm (c4 _ _)
    · rw [hrec] at hnf
      exact hnf (a1 (fun n w e => hm ⟨n, w, e⟩))
  | closed =>
    rw [hrec] at hnf h1
    cases h1
    exact hnf (NoFail.refl _)
  | nothing =>
    rw [hrec] at hnf h1
    unfold Server.handleMessages at h1
    simp only at h1
    split at h1
    · cases h1; exact hnf (NoFail.refl _)
    · next t ht =>
      split at h1
      · cases h1; exact hnf (NoFail.refl _)
      · obtain ⟨os, e, f⟩ := (handle_fails h1).1 (fun n w e => by cases e)
        exact hnf ⟨os, e, f⟩

/-! ## The pools -/

theorem poolStep_keys {num : T → Nat} {maxF : Nat} {ps ps' : Pools T} {e : PoolEv T}
    (hnd : (ps.pools.map (·.1)).Nodup) (h : poolStep num maxF ps e = .ok ps') :
    ps'.pools.map (·.1) = ps.pools.map (·.1) := by
  have h1 := Pools.step_thread hnd h
  have e1 : ps'.pools = (Pools.thread (Pools.stepFun num maxF ps e) ps.pools ps.next).1 := by rw [← h1]
  rw [e1, Pools.thread_keys]

theorem poolRun_keys {num : T → Nat} {maxF : Nat} {ps ps' : Pools T} {es : List (PoolEv T)}
    (hnd : (ps.pools.map (·.1)).Nodup) (h : PoolRun num maxF ps es ps') :
    ps'.pools.map (·.1) = ps.pools.map (·.1) := by
  induction h with
  | nil => rfl
  | snoc _ hs ih => rw [poolStep_keys (by rw [ih]; exact hnd) hs, ih]

/-- No pool has an exception. -/
def Clean (ps : Pools T) : Prop := ∀ t p, (t, p) ∈ ps.pools → p.errors = []

theorem setNum_errors (p : Pool) (a n : Nat) : (p.setNum a n).1.errors = p.errors := by
  unfold Pool.setNum Pool.start Pool.stopN
  split
  · rfl
  · split <;> rfl

theorem stop_errors (p : Pool) (id : Nat) : (p.stop id).errors = p.errors := by
  unfold Pool.stop
  split <;> rfl

theorem healthPool_errors (p : Pool) (a : Nat) : (Pools.healthPool p a).1.errors = p.errors.tail := by
  unfold Pools.healthPool Pool.start Pool.reap
  dsimp only
  split <;> rfl

theorem poolStep_clean {num : T → Nat} {maxF : Nat} {ps ps' : Pools T} {e : PoolEv T}
    (hok : Pools.OK ps.pools ps.next) (hr : ∀ t x, e ≠ .report t x) (h : poolStep num maxF ps e = .ok ps')
    (hc : Clean ps) : Clean ps' := by
  intro t p' hp
  obtain ⟨p, b, h1, _, _, h2, _⟩ := Pools.step_mem hok h hp
  have h3 := hc t p h1
  rw [h2]
  cases e with
  | recruit ready =>
    simp only [Pools.stepFun]
    split
    · rw [setNum_errors]; exact h3
    · exact h3
  | health => simp only [Pools.stepFun]; rw [healthPool_errors, h3]; rfl
  | failure t0 id =>
    simp only [Pools.stepFun]
    split
    · split
      · exact (stop_errors p id).trans h3
      · exact h3
    · exact h3
  | exit t0 id code =>
    simp only [Pools.stepFun, Pools.exitPool]
    split <;> exact h3
  | report t0 x => exact absurd rfl (hr t0 x)

/-- Only a health check looks at exceptions. -/
theorem poolRun_errors {num : T → Nat} {maxF : Nat} {ps ps' : Pools T} {es : List (PoolEv T)}
    (hok : Pools.OK ps.pools ps.next) (hr : .health ∉ es) (h : PoolRun num maxF ps es ps') {t : T} {p : Pool}
    (hp : (t, p) ∈ ps.pools) {y : PyErr} (hne : p.errors.head? = some y) :
    ∃ p', (t, p') ∈ ps'.pools ∧ p'.errors.head? = some y := by
  induction h with
  | nil => exact ⟨p, hp, hne⟩
  | @snoc es e ps1 ps2 h1 hs ih =>
    obtain ⟨q, hq, hqe⟩ := ih (fun hm => hr (List.mem_append_left _ hm))
    obtain ⟨b, _, _, h2, _⟩ := Pools.step_mem' (Pools.run_ok hok h1) hs hq
    refine ⟨_, h2, ?_⟩
    cases e with
    | recruit ready =>
      simp only [Pools.stepFun]
      split
      · rw [setNum_errors]; exact hqe
      · exact hqe
    | health => exact absurd (by simp) hr
    | failure t0 id =>
      simp only [Pools.stepFun]
      split
      · split
        · exact (stop_errors q id).symm ▸ hqe
        · exact hqe
      · exact hqe
    | exit t0 id code =>
      simp only [Pools.stepFun, Pools.exitPool]
      split <;> exact hqe
    | report t0 x =>
      simp only [Pools.stepFun, Pools.reportPool]
      split
      · rw [List.head?_append, hqe]
        rfl
      · exact hqe

theorem poolRun_clean {num : T → Nat} {maxF : Nat} {ps ps' : Pools T} {es : List (PoolEv T)}
    (hok : Pools.OK ps.pools ps.next) (hr : ∀ t x, .report t x ∉ es) (h : PoolRun num maxF ps es ps')
    (hc : Clean ps) : Clean ps' := by
  induction h with
  | nil => exact hc
  | @snoc es e ps1 ps2 h1 hs ih =>
    refine poolStep_clean (Pools.run_ok hok h1) ?_ hs (ih (fun t x hm => hr t x (List.mem_append_left _ hm)))
    rintro t x rfl
    exact hr t x (by simp)

/-- The exceptions in the pools are among those that were reported. -/
theorem poolRun_only {num : T → Nat} {maxF : Nat} {ps ps' : Pools T} {es : List (PoolEv T)} {Q : PyErr → Prop}
    (hok : Pools.OK ps.pools ps.next) (hr : ∀ t x, .report t x ∈ es → Q x) (h : PoolRun num maxF ps es ps')
    (hc : ∀ t p, (t, p) ∈ ps.pools → ∀ x ∈ p.errors, Q x) : ∀ t p, (t, p) ∈ ps'.pools → ∀ x ∈ p.errors, Q x := by
  induction h with
  | nil => exact hc
  | @snoc es e ps1 ps2 h1 hs ih =>
    have ih := ih (fun t x hm => hr t x (List.mem_append_left _ hm))
    intro t p' hp
    obtain ⟨p, b, h1, _, _, h2, _⟩ := Pools.step_mem (Pools.run_ok hok h1) hs hp
    have h3 := ih t p h1
    rw [h2]
    cases e with
    | recruit ready =>
      simp only [Pools.stepFun]
      split
      · rw [setNum_errors]; exact h3
      · exact h3
    | health =>
      simp only [Pools.stepFun]
      rw [healthPool_errors]
      exact fun x hx => h3 x (List.mem_of_mem_tail hx)
    | failure t0 id =>
      simp only [Pools.stepFun]
      split
      · split
        · intro x hx
          exact h3 x (stop_errors p id ▸ hx)
        · exact h3
      · exact h3
    | exit t0 id code =>
      simp only [Pools.stepFun, Pools.exitPool]
      split <;> exact h3
    | report t0 y =>
      simp only [Pools.stepFun, Pools.reportPool]
      split
      · intro x hx
        rcases List.mem_append.1 hx with hx | hx
        · exact h3 x hx
        · rw [List.mem_singleton.1 hx]
          exact hr t0 y (by simp)
      · exact h3

end Verif.Spec
