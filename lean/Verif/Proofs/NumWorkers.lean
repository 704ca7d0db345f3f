import Verif.Spec.NumWorkersSpec
import Verif.Props.System
import Verif.Props.ServerStop

/-! # Tasks without workers -/

namespace Verif

open Spec

variable {N T K S : Type} [DecidableEq N] [DecidableEq T] [DecidableEq K] [DecidableEq S]
  {g : DGraph N T K} {c : SysConf T} {P : Sys N T K S → SysEv N T S → Prop} {es : List (SysEv N T S)}
  {x y : Sys N T K S} {σ σ' : Server N T K S} {cfg : SConf T} {t : T}

/-- No event is about a block of the task. -/
def Untouched (g : DGraph N T K) (t : T) (out : List (Out N T S)) : Prop := ∀ e ∈ evs out, g.task e.node ≠ t

omit [DecidableEq K] in
theorem untouched_append {a b : List (Out N T S)} : Untouched g t (a ++ b) ↔ Untouched g t a ∧ Untouched g t b := by
  unfold Untouched
  rw [evs_append]
  simp only [List.mem_append]
  exact ⟨fun h => ⟨fun e he => h e (Or.inl he), fun e he => h e (Or.inr he)⟩,
    fun h e he => he.elim (h.1 e) (h.2 e)⟩

omit [DecidableEq K] in
theorem untouched_silent {os : List (Out N T S)} (h : ∀ o ∈ os, Silent o) : Untouched g t os := by
  unfold Untouched
  rw [evs_silent h]
  simp

omit [DecidableEq K] in
theorem untouched_frame (hf : Frame σ σ') (h : Untouched g t σ.out) : Untouched g t σ'.out := by
  obtain ⟨os, e, ho⟩ := hf.out
  rw [e]
  exact untouched_append.2 ⟨h, untouched_silent ho⟩

omit [DecidableEq K] in
/-- A block of the task is with nobody. -/
theorem untouched_holder {out : List (Out N T S)} (h : Untouched g t out) {n : N} {s : S} (hn : holder out n = some s) :
    g.task n ≠ t := by
  have hm : .send s n ∈ out := by
    by_contra hc
    have := holder_of_no_send (a := []) hc (by simpa using hn)
    cases this
  exact h (.hand n) (List.mem_filterMap.2 ⟨_, hm, rfl⟩)

theorem safeRelease_untouched (hg : g.Loose) (h : SInv g σ) {n : N} (hn : n ∈ g.nodes) {s : S} {status : BlockStatus}
    (hs : status = .success ∨ status = .failed) {pick : Nat → Finset N → N} (hp : LegalPick pick)
    (hu : Untouched g t σ.out) (he : σ.safeRelease g pick n status s = .ok σ') :
    σ'.pending = σ.pending ∧ Untouched g t σ'.out ∧ SInv g σ' := by
  obtain ⟨σ1, h1, h2, h3, h4⟩ := safeRelease_spec hg h hn (s := s) hs hp
  rw [h1] at he
  cases he
  refine ⟨h3, ?_, h2⟩
  split at h4
  · next hh =>
    obtain ⟨os, e1, e2⟩ := h4
    rw [e1]
    refine untouched_append.2 ⟨hu, ?_⟩
    rw [show Out.release n status :: os = [.release n status] ++ os from rfl]
    refine untouched_append.2 ⟨?_, untouched_silent e2⟩
    intro e he
    have : e.node = n := by rcases hs with rfl | rfl <;> simp [evs, toEv] at he <;> rw [he] <;> rfl
    rw [this]
    exact untouched_holder hu hh
  · rw [h4]; exact hu

theorem handle_untouched (hg : g.Loose) (h : SInv g σ) {m : Msg N T} (hm : GoodMsg g cfg m) {s : S} (ha : ¬ About g t m)
    {chk : Nat → N → Check} {pick : Nat → Finset N → N} (hp : LegalPick pick) {now : Int}
    (hu : Untouched g t σ.out) (he : σ.handle g cfg chk pick now m s = .ok σ') :
    σ'.pending t = σ.pending t ∧ Untouched g t σ'.out ∧ SInv g σ' := by
  cases m with
  | acquire t' =>
    have hne : t ≠ t' := fun e => ha e.symm
    obtain ⟨σ1, skips, r, h1, hI, h2, h3⟩ := handleAcquire_spec (cfg := cfg) hg h chk now s hm
    simp only [Server.handle, h1] at he
    cases he
    obtain ⟨skips', r', st', f1, _, f3, _⟩ := C25_loose hg h.run chk t'
    rw [h2] at f1
    cases f1
    have hsk : Untouched g t (skips.map (.skip : N → Out N T S)) := by
      intro e he
      rw [evs_skips] at he
      obtain ⟨n, hn, rfl⟩ := List.mem_map.1 he
      obtain ⟨i, hi⟩ := List.mem_iff_getElem?.1 hn
      rw [show (Ev.skip n).node = n from rfl, (f3 i n hi).2.1]
      exact hne.symm
    rw [(checkAll_frame σ1).pending]
    suffices hs : σ1.pending t = σ.pending t ∧ Untouched g t σ1.out from
      ⟨hs.1, untouched_frame (checkAll_frame σ1) hs.2, hI.frame (checkAll_frame _)⟩
    rcases r with _ | n
    · obtain ⟨_, h3⟩ := h3
      split at h3
      · obtain ⟨h4, h5⟩ := h3
        refine ⟨by rw [h4], ?_⟩
        rw [h5]
        refine untouched_frame (recruit_frame _) ?_
        refine untouched_append.2 ⟨untouched_append.2 ⟨hu, hsk⟩, ?_⟩
        intro e he
        simp [evs, toEv] at he
      · obtain ⟨h4, h5, _⟩ := h3
        refine ⟨by rw [h4, upd, if_neg hne], ?_⟩
        rw [h5]
        exact untouched_append.2 ⟨hu, hsk⟩
    · obtain ⟨h4, h5, _, _, h6, _⟩ := h3
      refine ⟨by rw [h5], ?_⟩
      rw [h4]
      refine untouched_append.2 ⟨untouched_append.2 ⟨hu, hsk⟩, ?_⟩
      intro e he
      have : e = .hand n := by simpa [evs, toEv] using he
      rw [this, show (Ev.hand n).node = n from rfl, h6]
      exact hne.symm
  | release n status =>
    obtain ⟨σ1, h1, _⟩ := safeRelease_spec hg h hm.1 (s := s) hm.2 hp
    simp only [Server.handle, h1] at he
    cases he
    obtain ⟨a1, a2, a3⟩ := safeRelease_untouched hg h hm.1 hm.2 hp hu h1
    exact ⟨by rw [(checkAll_frame σ1).pending, a1], untouched_frame (checkAll_frame _) a2, a3.frame (checkAll_frame _)⟩
  | blockFailed n w =>
    obtain ⟨σ1, h1, _⟩ := safeRelease_spec hg h (n := n) hm (s := s) (status := .failed) (Or.inr rfl) hp
    simp only [Server.handle, h1] at he
    cases he
    obtain ⟨a1, a2, a3⟩ := safeRelease_untouched hg h hm (Or.inr rfl) hp hu h1
    have hf0 : Frame σ1 (σ1.emit [.blockFailure n w]) :=
      ⟨rfl, rfl, rfl, [.blockFailure n w], rfl, by simp [Silent]⟩
    have hf : Frame σ1 ((σ1.emit [.blockFailure n w]).checkAll g) := hf0.trans (checkAll_frame _)
    exact ⟨by rw [hf.pending, a1], untouched_frame hf a2, a3.frame hf⟩
  | clientException => exact absurd hm id
  | other => exact absurd hm id

theorem iteration_untouched (hg : g.Loose) (h : SInv g σ) {k : Server.Tick N T S} (hk : GoodTick g cfg k)
    (ha : ∀ m s, k.recv = .msg m s → ¬ About g t m) (hp : σ.pending t = []) (hu : Untouched g t σ.out)
    (he : σ.iteration g cfg k = .ok σ') : σ'.pending t = [] ∧ Untouched g t σ'.out := by
  obtain ⟨σ1, σ2, h1, h2, h3⟩ := iteration_split he
  have hs1 : σ1.pending t = [] ∧ Untouched g t σ1.out ∧ SInv g σ1 := by
    unfold Server.handleMessages at h1
    split at h1
    · next m s hr =>
      obtain ⟨a1, a2, a3⟩ := handle_untouched hg h (hk.1 _ _ hr) (ha _ _ hr) hk.2.1 hu h1
      exact ⟨a1.trans hp, a2, a3⟩
    · cases h1; exact ⟨hp, hu, h⟩
    · split at h1
      · cases h1; exact ⟨hp, hu, h⟩
      · next t' hf =>
        split at h1
        · cases h1; exact ⟨hp, hu, h⟩
        · next s rest hr =>
          have hne : t' ≠ t := by
            rintro rfl
            rw [hp] at hr
            cases hr
          obtain ⟨a1, a2, a3⟩ := handle_untouched (t := t) (cfg := cfg) hg
            (show SInv g { σ with pending := upd σ.pending t' rest } from
              ⟨⟨h.run, h.held⟩, h.nodup, h.entry, h.book⟩)
            (m := .acquire t') (List.mem_of_find?_eq_some hf) hne hk.2.1 hu h1
          refine ⟨a1.trans ?_, a2, a3⟩
          change upd σ.pending t' rest t = []
          rw [upd, if_neg hne.symm]
          exact hp
  obtain ⟨b1, b2, b3⟩ := hs1
  obtain ⟨σ2', os, L, c1, _, _, c2, c3, _, c4, _, c5, _⟩ := checkLost_ok hg b3 hk.2.2 k.closed k.clock
  rw [h2] at c1
  cases c1
  have hu2 : Untouched g t σ2.out := by
    rw [c3]
    refine untouched_append.2 ⟨b2, ?_⟩
    intro e hm
    rw [c4] at hm
    obtain ⟨n, hn, rfl⟩ := List.mem_map.1 hm
    obtain ⟨s, hs, _⟩ := (c5 n).1 hn
    exact untouched_holder b2 hs
  rw [h3]
  split
  · exact ⟨by rw [(checkAll_frame σ2).pending, c2, b1], untouched_frame (checkAll_frame _) hu2⟩
  · exact ⟨by rw [c2, b1], hu2⟩

/-- A pool without workers stays without workers. -/
theorem poolRun_none {ps ps' : Pools T} {pes : List (PoolEv T)} {num : T → Nat} {maxF : Nat} (hnum : num t = 0)
    (hok : Pools.OK ps.pools ps.next) (hf : ∀ id, .failure t id ∉ pes) (h : PoolRun num maxF ps pes ps')
    (h0 : ¬ Manned ps t) : ¬ Manned ps' t := by
  induction h with
  | nil => exact h0
  | @snoc pes e ps1 ps2 h1 hs ih =>
    have ih := ih (fun id hm => hf id (List.mem_append_left _ hm))
    rintro ⟨p', hp', hw⟩
    obtain ⟨p, b, hp, _, hpok, he, _⟩ := Pools.step_mem (Pools.run_ok hok h1) hs hp'
    have hpw : p.workers = [] := by
      by_contra hc
      exact ih ⟨p, hp, hc⟩
    apply hw
    rw [he]
    cases e with
    | recruit ready =>
      simp only [Pools.stepFun]
      split
      · simp [Pool.setNum, hnum, hpw]
      · exact hpw
    | health =>
      simp only [Pools.stepFun]
      rw [(Pools.healthPool_workers hpok).1, hpw]
      rfl
    | failure t0 id =>
      have hne : t ≠ t0 := by
        rintro rfl
        exact hf id (by simp)
      simp only [Pools.stepFun, if_neg hne]
      split <;> exact hpw
    | exit t0 id code =>
      simp only [Pools.stepFun, Pools.exitPool]
      split
      · simp [hpw]
      · exact hpw
    | report t0 e =>
      simp only [Pools.stepFun, Pools.reportPool]
      split <;> exact hpw

/-- A task without workers. -/
structure NoWorkers (g : DGraph N T K) (t : T) (x : Sys N T K S) : Prop where
  pool : ¬ Manned x.pools t
  queue : ∀ m s, (m, s) ∈ x.queue → ¬ About g t m
  pending : x.srv.pending t = []
  log : Untouched g t x.srv.out

theorem noWorkers (hg : g.Loose) (hnd : c.cfg.served.Nodup) (hnum : c.num t = 0) (hP : ∀ x e, P x e → OwnWorkers g x e)
    (h : SysRun g c P es x) : NoWorkers g t x := by
  induction h with
  | @init x h =>
    unfold Sys.init at h
    dsimp only at h
    split at h
    · cases h
    · next ps hp =>
      cases h
      have hf := recruit_frame (g := g) (⟨Sched.init g, [], [], [], false, false, fun _ => [], []⟩ : Server N T K S)
      have h0 : ¬ Manned (Pools.init c.cfg.served) t := by
        rintro ⟨p, hm, hw⟩
        obtain ⟨t', _, e⟩ := List.mem_map.1 hm
        cases e
        exact hw rfl
      refine ⟨poolRun_none hnum (Pools.init_ok hnd) ?_ (poolOuts_run _ hp) h0, fun m s hm => (by cases hm),
        congrFun hf.pending t, untouched_frame hf (fun e he => (by cases he))⟩
      intro id hm
      obtain ⟨o, ho, he⟩ := List.mem_filterMap.1 hm
      cases o with
      | blockFailure n w =>
        obtain ⟨_, _, _, _, os, e1, e2, _⟩ :=
          recruit_spec (g := g) (⟨Sched.init g, [], [], [], false, false, fun _ => [], []⟩ : Server N T K S)
        rw [show (Server.init g : Server N T K S) = Server.recruit g _ from rfl, e1] at ho
        rcases List.mem_append.1 ho with ho | ho
        · rcases List.mem_append.1 ho with ho | ho
          · cases ho
          · obtain ⟨t, _, hc | hc⟩ := e2 _ ho <;> cases hc
        · simp at ho
      | _ => cases he
  | @step es x x' e h0 hl hp hs ih =>
    have hown := hP _ _ hp
    cases e with
    | arrive m s =>
      cases hs
      refine ⟨ih.pool, ?_, ih.pending, ih.log⟩
      intro m' s' hm
      rcases List.mem_append.1 hm with hm | hm
      · exact ih.queue m' s' hm
      · cases List.mem_singleton.1 hm
        exact fun ha => ih.pool (hown t ha)
    | close s => cases hs; exact ⟨ih.pool, ih.queue, ih.pending, ih.log⟩
    | proc p =>
      cases hs
      obtain ⟨pes, hq⟩ := h0.poolRun
      refine ⟨poolRun_none hnum (Pools.run_ok (Pools.init_ok hnd) hq) ?_ (procs_run (c := c) [p] x.pools) ih.pool,
        ih.queue, ih.pending, ih.log⟩
      intro id hm
      cases p <;> simp [procEv] at hm
    | loop k =>
      obtain ⟨pes, hq⟩ := h0.poolRun
      obtain ⟨ks, hk⟩ := h0.srun
      have hit := loop_iteration hs
      have hrecv : ∀ m s, (x.tickOf k).recv = .msg m s → ¬ About g t m := by
        intro m s hr
        simp only [Sys.tickOf, Sys.recv] at hr
        split at hr
        · cases hr
        · split at hr
          · cases hr
          · next m' s' q hq =>
            cases hr
            exact ih.queue m s (by rw [hq]; exact List.mem_cons_self)
      obtain ⟨b1, b2⟩ := iteration_untouched hg (hk.inv hg) (goodTick_of h0 hl) hrecv ih.pending ih.log hit
      obtain ⟨ps, _, _, _, hqu, _⟩ := loop_parts hs
      refine ⟨?_, ?_, b1, b2⟩
      · refine poolRun_none hnum (Pools.run_ok (Pools.init_ok hnd) hq) ?_ (loop_pools hs) ih.pool
        intro id hm
        unfold loopPoolEvs at hm
        rcases List.mem_append.1 hm with hm | hm
        · rcases List.mem_append.1 hm with hm | hm
          · obtain ⟨o, ho, he⟩ := List.mem_filterMap.1 hm
            cases o with
            | blockFailure n w =>
              obtain ⟨os, e1, f1⟩ := iteration_fails hit
              rw [e1, List.drop_left] at ho
              obtain ⟨s, hr⟩ := f1 n w ho
              cases he
              exact hrecv _ _ hr rfl
            | _ => cases he
          · obtain ⟨p, _, he⟩ := List.mem_map.1 hm
            cases p <;> cases he
        · simp at hm
      · intro m s hm
        rw [hqu] at hm
        refine ih.queue m s ?_
        simp only [Sys.recv] at hm
        split at hm
        · exact hm
        · split at hm
          · cases hm
          · next m' s' q hq => rw [hq]; exact List.mem_cons_of_mem _ hm

end Verif
