import Verif.Proofs.SystemFail
import Verif.Proofs.SystemKeep
import Verif.Proofs.ServerLog
import Verif.Proofs.ServerCount
import Verif.Spec.MonitorSpec

/-! # Only tasks that were asked for get blocks; what the monitor is told -/

set_option linter.unusedSectionVars false

namespace Verif

open Spec

variable {N T K S : Type} [DecidableEq N] [DecidableEq T] [DecidableEq K] [DecidableEq S]
  {g : DGraph N T K} {cfg : SConf T} {σ σ' : Server N T K S}

/-- A block is sent to a client or skipped. -/
def Gives (n : N) : Out N T S → Prop
  | .send _ m => m = n
  | .skip m => m = n
  | _ => False

/-- Blocks are sent or skipped, and requests delayed, only for tasks of which `R` holds. -/
def SendIn (g : DGraph N T K) (R : T → Prop) (σ σ' : Server N T K S) : Prop :=
  (∃ os, σ'.out = σ.out ++ os ∧ ∀ o n, o ∈ os → Gives n o → R (g.task n)) ∧ ∀ t, σ'.pending t ≠ [] → R t

omit [DecidableEq N] [DecidableEq T] [DecidableEq S] in
theorem Silent.gives {o : Out N T S} (h : Silent o) (n : N) : ¬ Gives n o := by
  cases o <;> first | exact h.elim | exact id

variable {R : T → Prop}

theorem SendIn.trans {a b c : Server N T K S} (h : SendIn g R a b) (h' : SendIn g R b c) : SendIn g R a c := by
  obtain ⟨⟨os, h1, h2⟩, _⟩ := h
  obtain ⟨⟨os', h1', h2'⟩, h3'⟩ := h'
  refine ⟨⟨os ++ os', by rw [h1', h1, List.append_assoc], ?_⟩, h3'⟩
  intro o n hm
  rcases List.mem_append.1 hm with h | h
  · exact h2 o n h
  · exact h2' o n h

theorem SendIn.frame (h : ∀ t, σ.pending t ≠ [] → R t) (hf : Frame σ σ') : SendIn g R σ σ' := by
  obtain ⟨os, h1, h2⟩ := hf.out
  exact ⟨⟨os, h1, fun o n hm hg => absurd hg ((h2 _ hm).gives n)⟩, by rw [hf.pending]; exact h⟩

theorem SendIn.refl (h : ∀ t, σ.pending t ≠ [] → R t) : SendIn g R σ σ := SendIn.frame h (Frame.refl σ)

theorem handleAcquire_sendIn (hg : g.Loose) (h : SInv g σ) {chk : Nat → N → Check} {now : Int} {t : T}
    {s' : S} (ht : t ∈ cfg.served) (hR : R t) (hp : ∀ t, σ.pending t ≠ [] → R t)
    (he : σ.handleAcquire g cfg chk now t s' = .ok σ') : SendIn g R σ σ' := by
  obtain ⟨σ1, skips, r, h1, h2, h3, h4⟩ := handleAcquire_spec (cfg := cfg) hg h chk now s' ht
  rw [h1] at he
  cases he
  have hsk : ∀ (o : Out N T S) n, o ∈ skips.map Out.skip → Gives n o → R (g.task n) := by
    obtain ⟨skips', r', st', e1, _, e2, _⟩ := C25_loose hg h.run chk t
    rw [h3] at e1
    cases e1
    intro o n hm hgv
    obtain ⟨x, hx, rfl⟩ := List.mem_map.1 hm
    obtain ⟨i, hi⟩ := List.getElem?_of_mem hx
    have e : x = n := hgv
    rw [← e, (e2 i x hi).2.1]
    exact hR
  rcases r with _ | n
  · simp only at h4
    obtain ⟨_, h4⟩ := h4
    split at h4
    · rw [h4.2]
      refine SendIn.trans (b := { σ with
        sched := σ'.sched, out := σ.out ++ skips.map .skip ++ [.shutdown s' t] }) ?_
        (SendIn.frame hp (recruit_frame _))
      refine ⟨⟨skips.map .skip ++ [.shutdown s' t], by simp, ?_⟩, hp⟩
      intro o n hm hgv
      rcases List.mem_append.1 hm with hm | hm
      · exact hsk o n hm hgv
      · cases List.mem_singleton.1 hm
        exact hgv.elim
    · rw [h4.2.2]
      refine ⟨⟨skips.map .skip, rfl, hsk⟩, ?_⟩
      intro t'
      change upd σ.pending t (σ.pending t ++ [s']) t' ≠ [] → _
      unfold upd
      split
      · rename_i e; intro _; rw [e]; exact hR
      · exact hp t'
  · simp only at h4
    obtain ⟨h4, h5, _, _, h6, _⟩ := h4
    refine ⟨⟨skips.map .skip ++ [.send s' n, .acquired t], by rw [h4, List.append_assoc], ?_⟩,
      by rw [h5]; exact hp⟩
    intro o m hm hgv
    rcases List.mem_append.1 hm with hm | hm
    · exact hsk o m hm hgv
    · rcases List.mem_cons.1 hm with rfl | hm
      · cases show n = m from hgv
        rw [h6]
        exact hR
      · cases List.mem_singleton.1 hm
        exact hgv.elim

theorem safeRelease_sendIn (hg : g.Loose) (h : SInv g σ) {n : N} (hn : n ∈ g.nodes) {s' : S}
    {status : BlockStatus} (hst : status = .success ∨ status = .failed) {pick : Nat → Finset N → N}
    (hp : LegalPick pick) (hpend : ∀ t, σ.pending t ≠ [] → R t)
    (he : σ.safeRelease g pick n status s' = .ok σ') : SendIn g R σ σ' := by
  obtain ⟨σ1, h1, _, h3, h4⟩ := safeRelease_spec hg h hn (s := s') hst hp
  rw [h1] at he
  cases he
  split at h4
  · obtain ⟨os, h5, h6⟩ := h4
    refine ⟨⟨_, h5, ?_⟩, by rw [h3]; exact hpend⟩
    intro o m hm hgv
    rcases List.mem_cons.1 hm with rfl | h
    · exact hgv.elim
    · exact absurd hgv ((h6 _ h).gives m)
  · rw [h4]
    exact SendIn.refl hpend

theorem handle_sendIn (hg : g.Loose) (h : SInv g σ) {m : Msg N T} (hm : GoodMsg g cfg m) {s' : S}
    {chk : Nat → N → Check} {pick : Nat → Finset N → N} (hp : LegalPick pick) {now : Int}
    (hms : ∀ t, m = .acquire t → R t) (hpend : ∀ t, σ.pending t ≠ [] → R t)
    (he : σ.handle g cfg chk pick now m s' = .ok σ') : SendIn g R σ σ' := by
  cases m with
  | acquire t =>
    obtain ⟨σ1, _, _, h1, _⟩ := handleAcquire_spec (cfg := cfg) hg h chk now s' hm
    simp only [Server.handle, h1] at he
    cases he
    have := handleAcquire_sendIn hg h hm (hms t rfl) hpend h1
    exact this.trans (SendIn.frame this.2 (checkAll_frame _))
  | release n status =>
    obtain ⟨σ1, h1, _⟩ := safeRelease_spec hg h hm.1 (s := s') hm.2 hp
    simp only [Server.handle, h1] at he
    cases he
    have := safeRelease_sendIn hg h hm.1 hm.2 hp hpend h1
    exact this.trans (SendIn.frame this.2 (checkAll_frame _))
  | blockFailed n w =>
    obtain ⟨σ1, h1, _⟩ := safeRelease_spec hg h (n := n) hm (s := s') (status := .failed) (Or.inr rfl) hp
    simp only [Server.handle, h1] at he
    cases he
    have := safeRelease_sendIn hg h (n := n) hm (Or.inr rfl) hp hpend h1
    have hf : Frame σ1 (σ1.emit [.blockFailure n w]) :=
      ⟨rfl, rfl, rfl, [.blockFailure n w], rfl, by simp [Silent]⟩
    exact this.trans (SendIn.frame this.2 (hf.trans (checkAll_frame _)))
  | clientException => exact absurd hm id
  | other => exact absurd hm id

theorem iteration_sendIn (hg : g.Loose) (h : SInv g σ) {k : Server.Tick N T S} (hk : GoodTick g cfg k)
    (hks : ∀ t s, k.recv = .msg (.acquire t) s → R t) (hpend : ∀ t, σ.pending t ≠ [] → R t)
    (he : σ.iteration g cfg k = .ok σ') : SendIn g R σ σ' := by
  obtain ⟨σ1, h1, h2⟩ := handleMessages_ok hg h k.recv hk.1 k.chk hk.2.1 k.now
  have hn1 : SendIn g R σ σ1 := by
    rcases hr : k.recv with ⟨m, s'⟩ | _ | _
    · rw [hr] at h1
      refine handle_sendIn hg h (hk.1 m s' hr) hk.2.1 ?_ hpend h1
      rintro t rfl
      exact hks t s' hr
    · rw [hr] at h1
      unfold Server.handleMessages at h1
      simp only at h1
      split at h1
      · cases h1; exact SendIn.refl hpend
      · rename_i t ht
        split at h1
        · cases h1; exact SendIn.refl hpend
        · rename_i s' rest hpt
          have hRt : R t := hpend t (by rw [hpt]; exact List.cons_ne_nil _ _)
          have hpend' : ∀ t', upd σ.pending t rest t' ≠ [] → R t' := by
            intro t'
            unfold upd
            split
            · rename_i e; intro _; rw [e]; exact hRt
            · exact hpend t'
          have hz : SendIn g R σ { σ with pending := upd σ.pending t rest } :=
            ⟨⟨[], by simp, by simp⟩, hpend'⟩
          exact hz.trans (handle_sendIn (cfg := cfg) hg (h.pending _) (m := .acquire t)
            (List.mem_of_find?_eq_some ht) hk.2.1 (fun _ e => by cases e; exact hRt) hpend' h1)
    · rw [hr] at h1
      cases h1
      exact SendIn.refl hpend
  obtain ⟨σ2, os, L, h3, h4, _, h5, h6, h7, _⟩ := checkLost_ok hg h2 hk.2.2 k.closed k.clock
  have hn2 : SendIn g R σ1 σ2 := by
    refine ⟨⟨os, h6, ?_⟩, by rw [h5]; exact hn1.2⟩
    intro o n hm hgv
    rcases h7 _ hm with h | ⟨m, _, rfl⟩
    · exact absurd hgv (h.gives n)
    · exact hgv.elim
  unfold Server.iteration at he
  rw [h1] at he
  simp only at he
  rw [h3] at he
  cases he
  refine (hn1.trans hn2).trans ?_
  split
  · exact SendIn.frame hn2.2 (checkAll_frame σ2)
  · exact SendIn.refl hn2.2

/-! ### In the system -/

structure MonInv (g : DGraph N T K) (x : Sys N T K S) : Prop where
  asked : ∀ t s, (.acquire t, s) ∈ x.queue → .taskStart t ∈ x.srv.out
  failed : ∀ n w s, (.blockFailed n w, s) ∈ x.queue → .taskStart (g.task n) ∈ x.srv.out
  delayed : ∀ t, x.srv.pending t ≠ [] → .taskStart t ∈ x.srv.out
  sent : ∀ s n, .send s n ∈ x.srv.out → .taskStart (g.task n) ∈ x.srv.out
  skipped : ∀ n, .skip n ∈ x.srv.out → .taskStart (g.task n) ∈ x.srv.out
  workers : ∀ t p, (t, p) ∈ x.pools.pools → p.workers ≠ [] → .taskStart t ∈ x.srv.out
  order : ∀ pre post n w, x.srv.out = pre ++ .blockFailure n w :: post → .taskStart (g.task n) ∈ pre

variable {c : SysConf T} {P : Sys N T K S → SysEv N T S → Prop} {es : List (SysEv N T S)} {x y : Sys N T K S}

theorem recv_queue {k : LoopEnv N T S} (h : x.loop g c k = .ok y) :
    y.queue = x.recv.2.1 ∧ (∀ e ∈ y.queue, e ∈ x.queue) ∧
    ∀ m s, (x.tickOf k).recv = .msg m s → (m, s) ∈ x.queue := by
  have hq : y.queue = x.recv.2.1 := by
    simp only [Sys.loop] at h
    split at h
    · cases h
    · split at h
      · cases h
      · split at h
        · cases h
        · cases h; rfl
  refine ⟨hq, ?_, ?_⟩
  · intro e he
    rw [hq] at he
    simp only [Sys.recv] at he
    split at he
    · exact he
    · split at he
      · cases he
      · next hq => rw [hq]; exact List.mem_cons_of_mem _ he
  · intro m s hm
    simp only [Sys.tickOf, Sys.recv] at hm
    split at hm
    · cases hm
    · split at hm
      · cases hm
      · next hq => cases hm; rw [hq]; exact List.mem_cons_self

theorem split_append {α : Type} {a os pre post : List α} {o : α} (h : a ++ os = pre ++ o :: post) :
    (∃ post', a = pre ++ o :: post') ∨ (∃ pre', pre = a ++ pre' ∧ os = pre' ++ o :: post) := by
  rcases List.append_eq_append_iff.1 h with ⟨a', h1, h2⟩ | ⟨a', h1, h2⟩
  · exact Or.inr ⟨a', h1, h2⟩
  · cases a' with
    | nil => exact Or.inr ⟨[], by simpa using h1.symm, by simpa using h2.symm⟩
    | cons b a' =>
      rw [List.cons_append] at h2
      cases h2
      exact Or.inl ⟨a', h1⟩

/-- A pool without workers gets workers only if the server recruits them or a block has failed. -/
theorem poolRun_workers {num : T → Nat} {maxF : Nat} {Q : T → Prop} {ps ps' : Pools T} {pes : List (PoolEv T)}
    (hok : Pools.OK ps.pools ps.next) (h : PoolRun num maxF ps pes ps')
    (h0 : ∀ t p, (t, p) ∈ ps.pools → p.workers ≠ [] → Q t)
    (hr : ∀ ready, .recruit ready ∈ pes → ∀ t ∈ ready, Q t) (hf : ∀ t id, .failure t id ∈ pes → Q t) :
    ∀ t p, (t, p) ∈ ps'.pools → p.workers ≠ [] → Q t := by
  induction h with
  | nil => exact h0
  | @snoc es e ps1 ps2 h1 hs ih =>
    have ih := ih (fun r hm => hr r (List.mem_append_left _ hm)) (fun t id hm => hf t id (List.mem_append_left _ hm))
    intro t p' hp' hne
    obtain ⟨p, b, hp, _, hpok, he, _⟩ := Pools.step_mem (Pools.run_ok hok h1) hs hp'
    by_cases hw : p.workers = []
    · cases e with
      | recruit ready =>
        by_cases ht : t ∈ ready
        · exact hr ready (by simp) t ht
        · simp only [Pools.stepFun, ht, if_false] at he
          rw [he] at hne
          exact absurd hw hne
      | health =>
        simp only [Pools.stepFun] at he
        have := Pools.healthPool_length hpok
        rw [← he, hw] at this
        exact absurd (List.length_eq_zero_iff.1 this) hne
      | failure t0 id =>
        by_cases ht : t = t0
        · rw [ht]; exact hf t0 id (by simp)
        · simp only [Pools.stepFun, ht, if_false, ite_self] at he
          rw [he] at hne
          exact absurd hw hne
      | exit t0 id code =>
        have := congrArg List.length (Pools.exitPool_ids t0 id code t p)
        simp only [Pools.stepFun] at he
        rw [← he, hw] at this
        simp at this
        exact absurd this hne
      | report t0 e =>
        simp only [Pools.stepFun] at he
        rw [he, Pools.reportPool_workers] at hne
        exact absurd hw hne
    · exact ih t p hp hw

theorem started_taskStart (hg : g.Loose) {ks : List (Server.Tick N T S)} (h : SRun g cfg ks σ) {ts : List T}
    (hm : .recruit ts ∈ σ.out) {t : T} (ht : t ∈ ts) : .taskStart t ∈ σ.out := by
  have h1 := (h.recruited hg t).2 ⟨ts, hm, ht⟩
  have h2 := (h.announced hg).start t
  rw [if_pos h1] at h2
  exact List.one_le_count_iff.1 (le_of_eq h2.symm)

theorem SysRun.monInv (hg : g.Loose) (hnd : c.cfg.served.Nodup) (hP : ∀ x e, P x e → FromWorkers g x e)
    (h : SysRun g c P es x) : MonInv g x := by
  induction h with
  | @init x h =>
    have hx : x.srv = Server.init g ∧ x.queue = [] := by
      unfold Sys.init at h
      dsimp only at h
      split at h
      · cases h
      · cases h; exact ⟨rfl, rfl⟩
    have hp : x.srv.pending = fun _ => [] := by
      rw [hx.1]
      exact (recruit_frame _).pending
    have ho : ∀ o ∈ x.srv.out, Silent o ∧ ∀ n w, o ≠ .blockFailure n w := by
      rw [hx.1]
      intro o ho
      obtain ⟨_, _, _, _, os, e, h1, _⟩ := recruit_spec (g := g)
        (⟨Sched.init g, [], [], [], false, false, fun _ => [], []⟩ : Server N T K S)
      unfold Server.init at ho
      rw [e] at ho
      simp only [List.nil_append, List.mem_append, List.mem_singleton] at ho
      rcases ho with ho | rfl
      · obtain ⟨t, _, rfl | rfl⟩ := h1 o ho <;> exact ⟨trivial, fun _ _ e => by cases e⟩
      · exact ⟨trivial, fun _ _ e => by cases e⟩
    refine ⟨?_, ?_, ?_, ?_, ?_, ?_, ?_⟩
    · intro t s hm; rw [hx.2] at hm; cases hm
    · intro n w s hm; rw [hx.2] at hm; cases hm
    · intro t hm; rw [hp] at hm; exact absurd rfl hm
    · intro s n hm; exact ((ho _ hm).1).elim
    · intro n hm; exact ((ho _ hm).1).elim
    · unfold Sys.init at h
      dsimp only at h
      split at h
      · cases h
      · next ps hq =>
        cases h
        refine poolRun_workers (Pools.init_ok hnd) (poolOuts_run _ hq) ?_ ?_ ?_
        · intro t p hp hne
          obtain ⟨_, _, e⟩ := List.mem_map.1 hp
          cases e
          exact absurd rfl hne
        · intro ready hm t ht
          obtain ⟨o, ho1, ho2⟩ := List.mem_filterMap.1 hm
          cases o <;> cases ho2
          exact started_taskStart hg (cfg := c.cfg) .init ho1 ht
        · intro t id hm
          obtain ⟨o, ho1, ho2⟩ := List.mem_filterMap.1 hm
          cases o <;> cases ho2
          exact absurd rfl ((ho _ ho1).2 _ _)
    · intro pre post n w e
      exact absurd rfl ((ho (.blockFailure n w) (by rw [e]; simp)).2 n w)
  | @step es x x' e h0 hl hp hs ih =>
    have hA := hP _ _ hp
    cases e with
    | close s => cases hs; exact ⟨ih.asked, ih.failed, ih.delayed, ih.sent, ih.skipped, ih.workers, ih.order⟩
    | proc p =>
      cases hs
      refine ⟨ih.asked, ih.failed, ih.delayed, ih.sent, ih.skipped, ?_, ih.order⟩
      obtain ⟨pes, hq⟩ := h0.poolRun
      refine poolRun_workers (Pools.run_ok (Pools.init_ok hnd) hq) (procs_run (c := c) [p] x.pools) ih.workers ?_ ?_
      · intro ready hm
        obtain ⟨q, _, e⟩ := List.mem_map.1 hm
        cases q <;> cases e
      · intro t id hm
        obtain ⟨q, _, e⟩ := List.mem_map.1 hm
        cases q <;> cases e
    | arrive m s =>
      cases hs
      refine ⟨?_, ?_, ih.delayed, ih.sent, ih.skipped, ih.workers, ih.order⟩
      · intro t s' hm
        rcases List.mem_append.1 hm with hm | hm
        · exact ih.asked t s' hm
        · cases List.mem_singleton.1 hm
          rcases hA with h1 | ⟨id, p, h1, w, h2, _⟩
          · exact h1
          · exact ih.workers t p h1 (List.ne_nil_of_mem h2)
      · intro n w s' hm
        rcases List.mem_append.1 hm with hm | hm
        · exact ih.failed n w s' hm
        · cases List.mem_singleton.1 hm
          rcases hA with ⟨s', h1⟩ | ⟨id, p, h1, w, h2, _⟩
          · exact ih.sent s' n h1
          · exact ih.workers _ p h1 (List.ne_nil_of_mem h2)
    | loop k =>
      obtain ⟨ks, hr⟩ := h0.srun
      have hit := loop_iteration hs
      obtain ⟨_, hq, hm⟩ := recv_queue hs
      obtain ⟨⟨os, ho, hos⟩, hpend⟩ := iteration_sendIn (R := fun t => .taskStart t ∈ x.srv.out) hg (hr.inv hg)
        (goodTick_of h0 hl) (fun t s e => ih.asked t s (hm _ _ e)) ih.delayed hit
      obtain ⟨os', ho', hos'⟩ := iteration_fails hit
      have hoo : os' = os := List.append_cancel_left (ho'.symm.trans ho)
      subst hoo
      have mono : ∀ o, o ∈ x.srv.out → o ∈ x'.srv.out := fun o h => by rw [ho]; exact List.mem_append_left _ h
      have hord : ∀ pre post n w, x'.srv.out = pre ++ .blockFailure n w :: post → .taskStart (g.task n) ∈ pre := by
        intro pre post n w e
        rw [ho] at e
        rcases split_append e with ⟨post', h⟩ | ⟨pre', h, h'⟩
        · exact ih.order pre post' n w h
        · obtain ⟨s, h1⟩ := hos' n w (by rw [h']; simp)
          rw [h]
          exact List.mem_append_left _ (ih.failed n w s (hm _ _ h1))
      refine ⟨?_, ?_, ?_, ?_, ?_, ?_, hord⟩
      · intro t s h; exact mono _ (ih.asked t s (hq _ h))
      · intro n w s h; exact mono _ (ih.failed n w s (hq _ h))
      · intro t h; exact mono _ (hpend t h)
      · intro s n h
        rw [ho] at h
        rcases List.mem_append.1 h with h | h
        · exact mono _ (ih.sent s n h)
        · exact mono _ (hos _ n h rfl)
      · intro n h
        rw [ho] at h
        rcases List.mem_append.1 h with h | h
        · exact mono _ (ih.skipped n h)
        · exact mono _ (hos _ n h rfl)
      · obtain ⟨pes, hq⟩ := h0.poolRun
        have hr' : SRun g c.cfg (ks ++ [x.tickOf k]) x'.srv := .step _ hr hl.1 (goodTick_of h0 hl) hit
        refine poolRun_workers (Pools.run_ok (Pools.init_ok hnd) hq) (loop_pools hs)
          (fun t p hp hne => mono _ (ih.workers t p hp hne)) ?_ ?_
        · intro ready hm t ht
          simp only [loopPoolEvs, List.mem_append, List.mem_singleton, reduceCtorEq, or_false] at hm
          rcases hm with hm | hm
          · obtain ⟨o, ho1, ho2⟩ := List.mem_filterMap.1 hm
            cases o <;> cases ho2
            exact started_taskStart hg hr' (List.mem_of_mem_drop ho1) ht
          · obtain ⟨q, _, e⟩ := List.mem_map.1 hm
            cases q <;> cases e
        · intro t id hm
          simp only [loopPoolEvs, List.mem_append, List.mem_singleton, reduceCtorEq, or_false] at hm
          rcases hm with hm | hm
          · obtain ⟨o, ho1, ho2⟩ := List.mem_filterMap.1 hm
            cases o <;> cases ho2
            obtain ⟨pre, post, e⟩ := List.append_of_mem (List.mem_of_mem_drop ho1)
            rw [e]
            exact List.mem_append_left _ (hord pre post _ _ e)
          · obtain ⟨q, _, e⟩ := List.mem_map.1 hm
            cases q <;> cases e


/-! ## The monitor -/

theorem Monitor.run_snoc_ok {B : Type} {m m1 : Monitor B} {es : List (MonEv B)} (h : m.run es = .ok m1) (e : MonEv B) :
    m.run (es ++ [e]) = m1.step e := by
  induction es generalizing m with
  | nil =>
    cases h
    simp only [List.nil_append, Monitor.run]
    cases m1.step e <;> rfl
  | cons a es ih =>
    rw [List.cons_append]
    simp only [Monitor.run] at h ⊢
    cases hs : m.step a with
    | error x => rw [hs] at h; cases h
    | ok m2 => rw [hs] at h; exact ih h

theorem monEvs_snoc (g : DGraph N T K) (name : T → String) (st : Nat → TState) (out : List (Out N T S)) (o : Out N T S) :
    monEvs g name st (out ++ [o]) = monEvs g name st out ++ (monEv g name (st out.length) o).toList := by
  unfold monEvs
  rw [List.zipIdx_append, List.filterMap_append]
  congr 1
  simp only [List.zipIdx_singleton, Nat.zero_add, List.filterMap_cons, List.filterMap_nil]
  cases monEv g name (st out.length) o <;> rfl

theorem reported_snoc (g : DGraph N T K) (t : T) (out : List (Out N T S)) (o : Out N T S) :
    reported g t (out ++ [o]) = reported g t out ++ reported g t [o] := List.filterMap_append

theorem mon_runs (name : T → String) (st : Nat → TState) (out : List (Out N T S))
    (ho : ∀ pre post n w, out = pre ++ .blockFailure n w :: post → .taskStart (g.task n) ∈ pre) :
    ∃ m, (Monitor.init : Monitor N).run (monEvs g name st out) = .ok m ∧
      ∀ t, .taskStart t ∈ out → m.sums (name t) ≠ none := by
  induction out using List.reverseRecOn with
  | nil => exact ⟨_, rfl, fun t h => by cases h⟩
  | append_singleton out o ih =>
    obtain ⟨m, h1, h2⟩ := ih (fun pre post n w e => ho pre (post ++ [o]) n w (by rw [e]; simp))
    rw [monEvs_snoc]
    have hsilent : monEv g name (st out.length) o = none → (∀ t, o ≠ .taskStart t) → ∃ m, (Monitor.init : Monitor N).run
        (monEvs g name st out ++ (monEv g name (st out.length) o).toList) = .ok m ∧
        ∀ t, .taskStart t ∈ out ++ [o] → m.sums (name t) ≠ none := by
      intro e hne
      rw [e]
      refine ⟨m, by simpa using h1, ?_⟩
      intro t ht
      rcases List.mem_append.1 ht with ht | ht
      · exact h2 t ht
      · exact absurd (List.mem_singleton.1 ht).symm (hne t)
    have hev : ∀ e m', monEv g name (st out.length) o = some e → m.step e = .ok m' →
        (∀ t, .taskStart t ∈ out ++ [o] → m'.sums (name t) ≠ none) →
        ∃ m, (Monitor.init : Monitor N).run
        (monEvs g name st out ++ (monEv g name (st out.length) o).toList) = .ok m ∧
        ∀ t, .taskStart t ∈ out ++ [o] → m.sums (name t) ≠ none := by
      intro e m' he hs hq
      rw [he]
      exact ⟨m', by rw [← hs]; exact Monitor.run_snoc_ok h1 e, hq⟩
    cases o with
    | taskStart t0 =>
      refine hev _ _ rfl rfl ?_
      intro t ht
      simp only [upd]
      split_ifs with hc
      · simp
      · rcases List.mem_append.1 ht with ht | ht
        · exact h2 t ht
        · cases List.mem_singleton.1 ht; exact absurd rfl hc
    | acquired t0 =>
      refine hev _ _ rfl rfl ?_
      intro t ht
      exact h2 t (by simpa using ht)
    | released t0 =>
      refine hev _ _ rfl rfl ?_
      intro t ht
      exact h2 t (by simpa using ht)
    | taskDone t0 =>
      refine hev _ _ rfl rfl ?_
      intro t ht
      have := h2 t (by simpa using ht)
      unfold Monitor.onTaskDone
      cases m.bars (name t0) <;> cases hs : m.sums (name t0) <;> simp only [upd] <;> split_ifs <;> simp_all
    | blockFailure n w =>
      have hst := h2 _ (ho out [] n w rfl)
      obtain ⟨x, hx⟩ := Option.ne_none_iff_exists'.1 hst
      refine hev _ _ rfl (by simp only [Monitor.step, Monitor.onBlockFailure, hx]; rfl) ?_
      intro t ht
      have := h2 t (by simpa using ht)
      simp only [upd]
      split_ifs <;> simp_all
    | _ => exact hsilent rfl (fun t h => by cases h)


theorem reported_nil_of_not_started (out : List (Out N T S)) (t : T) (hn : .taskStart t ∉ out)
    (ho : ∀ pre post n w, out = pre ++ .blockFailure n w :: post → .taskStart (g.task n) ∈ pre) :
    reported g t out = [] := by
  unfold reported
  refine List.filterMap_eq_nil_iff.2 ?_
  intro o hm
  cases o with
  | blockFailure n w =>
    obtain ⟨pre, post, e⟩ := List.append_of_mem hm
    have := ho pre post n w e
    dsimp only
    rw [if_neg]
    rintro rfl
    exact hn (by rw [e]; exact List.mem_append_left _ this)
  | _ => rfl

theorem mon_failures (name : T → String) (hname : Function.Injective name) (st : Nat → TState) (out : List (Out N T S))
    (ho : ∀ pre post n w, out = pre ++ .blockFailure n w :: post → .taskStart (g.task n) ∈ pre)
    (h1 : ∀ t, out.count (.taskStart t) ≤ 1) {m : Monitor N}
    (hm : (Monitor.init : Monitor N).run (monEvs g name st out) = .ok m) :
    ∀ t x, m.sums (name t) = some x → x.failures = reported g t out := by
  induction out using List.reverseRecOn generalizing m with
  | nil => cases hm; intro t x h; cases h
  | append_singleton out o ih =>
    have ho' : ∀ pre post n w, out = pre ++ .blockFailure n w :: post → .taskStart (g.task n) ∈ pre :=
      fun pre post n w e => ho pre (post ++ [o]) n w (by rw [e]; simp)
    have h1' : ∀ t, out.count (.taskStart t) ≤ 1 := fun t => by
      have := h1 t
      rw [List.count_append] at this
      omega
    obtain ⟨m0, hm0, _⟩ := mon_runs (g := g) name st out ho'
    have ih := ih ho' h1' hm0
    rw [monEvs_snoc] at hm
    have hstep : ∀ e, monEv g name (st out.length) o = some e → m0.step e = .ok m := by
      intro e he
      rw [he] at hm
      rw [← Monitor.run_snoc_ok hm0 e]
      exact hm
    intro t x hx
    rw [reported_snoc]
    have hplain : reported g t [o] = [] → m.sums = m0.sums → x.failures = reported g t out ++ reported g t [o] := by
      intro e1 e2
      rw [e1, List.append_nil]
      exact ih t x (by rw [← e2]; exact hx)
    have hsilent : monEv g name (st out.length) o = none → m.sums = m0.sums := by
      intro e
      rw [e] at hm
      simp only [Option.toList_none, List.append_nil] at hm
      rw [hm0] at hm
      cases hm
      rfl
    cases o with
    | taskStart t0 =>
      have := hstep _ rfl
      cases this
      simp only [upd] at hx
      split_ifs at hx with hc
      · have hc := hname hc
        subst hc
        cases hx
        have hn : .taskStart t ∉ out := by
          intro hm
          have h2 := h1 t
          have h3 := List.one_le_count_iff.2 hm
          rw [List.count_append, List.count_singleton_self] at h2
          omega
        rw [reported_nil_of_not_started out t hn ho']
        rfl
      · rw [ih t x hx]
        exact (List.append_nil _).symm
    | acquired t0 =>
      have := hstep _ rfl
      cases this
      exact hplain rfl rfl
    | released t0 =>
      have := hstep _ rfl
      cases this
      exact hplain rfl rfl
    | taskDone t0 =>
      have := hstep _ rfl
      cases this
      have e1 : reported g t [(.taskDone t0 : Out N T S)] = [] := rfl
      rw [e1, List.append_nil]
      have hkey : m0.sums (name t) = some x ∨ (∃ y, m0.sums (name t) = some y ∧ x.failures = y.failures) ∨
          (m0.sums (name t) = none ∧ x.failures = []) := by
        unfold Monitor.onTaskDone at hx
        cases hb : m0.bars (name t0) <;> cases hs : m0.sums (name t0) <;> simp only [hb, hs, upd] at hx <;>
          split_ifs at hx with hc
        all_goals first
          | exact Or.inl hx
          | (cases hx
             rw [hc, hs]
             first
               | exact Or.inr (Or.inr ⟨rfl, rfl⟩)
               | exact Or.inr (Or.inl ⟨_, rfl, rfl⟩))
      rcases hkey with h | ⟨y, h, hy⟩ | ⟨h, hy⟩
      · exact ih t x h
      · rw [hy]; exact ih t y h
      · rw [hy]
        obtain ⟨m0', hm0', hk⟩ := mon_runs (g := g) name st out ho'
        rw [hm0] at hm0'
        cases hm0'
        exact (reported_nil_of_not_started out t (fun hmem => hk t hmem h) ho').symm
    | blockFailure n w =>
      have hs := hstep _ rfl
      simp only [Monitor.step, Monitor.onBlockFailure] at hs
      split at hs
      · cases hs
      · next y hy =>
        cases hs
        simp only [upd] at hx
        split_ifs at hx with hc
        · have hc := hname hc
          subst hc
          cases hx
          rw [ih _ y hy]
          simp [reported]
        · rw [ih t x hx]
          have : g.task n ≠ t := fun h => hc (by rw [h])
          simp [reported, this]
    | _ => exact hplain rfl (hsilent rfl)

end Verif
