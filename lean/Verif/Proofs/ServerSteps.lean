import Verif.Proofs.Server
import Mathlib.Logic.Relation

/-! # Iterations of the server decomposed into small steps -/

set_option linter.unusedSectionVars false

namespace Verif

open Spec

variable {N T K S : Type} [DecidableEq N] [DecidableEq T] [DecidableEq K] [DecidableEq S]
  {g : DGraph N T K} {cfg : SConf T} {σ σ' : Server N T K S}

/-- The steps an iteration is made of. -/
inductive Micro (g : DGraph N T K) (σ : Server N T K S) : Server N T K S → Prop where
  | send {chk : Nat → N → Check} {t : T} {s : S} {n : N} {skips : List N} {st' : Sched N T K}
      (bk : Book N K S) (h : σ.sched.acquireBlock g chk t = .ok (skips, some n, st'))
      (hn : n ∈ g.nodes) (ht : g.task n = t) :
      Micro g σ { σ with
        sched := st', book := bk, out := σ.out ++ skips.map .skip ++ [.send s n, .acquired t] }
  | shut {chk : Nat → N → Check} {t : T} {s : S} {skips : List N} {st' : Sched N T K}
      (h : σ.sched.acquireBlock g chk t = .ok (skips, none, st')) (h1 : (st'.states t).ready = 0)
      (h2 : (st'.states t).pending = 0) :
      Micro g σ (Server.recruit g { σ with
        sched := st', out := σ.out ++ skips.map .skip ++ [.shutdown s t] })
  | delay {chk : Nat → N → Check} {t : T} {skips : List N} {st' : Sched N T K} (p : T → List S)
      (h : σ.sched.acquireBlock g chk t = .ok (skips, none, st')) (h1 : (st'.states t).ready = 0)
      (h2 : (st'.states t).pending ≠ 0) :
      Micro g σ { σ with sched := st', out := σ.out ++ skips.map .skip, pending := p }
  | rel {pick : Nat → Finset N → N} {n : N} {status : BlockStatus} {st' : Sched N T K}
      (hn : holder σ.out n ≠ none) (hs : status = .success ∨ status = .failed)
      (h : σ.sched.releaseBlock g pick n status = .ok st') :
      Micro g σ (Server.recruit g (Server.checkAll g
        { σ with sched := st', out := σ.out ++ [.release n status, .released (g.task n)] }))
  | check : Micro g σ (σ.checkAll g)
  | fail (n : N) (w : Nat) : Micro g σ (σ.emit [.blockFailure n w])
  | book (bk : Book N K S) : Micro g σ { σ with book := bk }
  | pop (p : T → List S) : Micro g σ { σ with pending := p }

/-- Sequences of steps through consistent states. -/
def Chain (g : DGraph N T K) : Server N T K S → Server N T K S → Prop :=
  Relation.ReflTransGen (fun a b => SCore g a ∧ Micro g a b ∧ SCore g b)

theorem Chain.one (h1 : SCore g σ) (h : Micro g σ σ') (h2 : SCore g σ') : Chain g σ σ' :=
  Relation.ReflTransGen.single ⟨h1, h, h2⟩

theorem Chain.induct {P : Server N T K S → Prop} (h : Chain g σ σ')
    (hstep : ∀ a b : Server N T K S, SCore g a → SCore g b → Micro g a b → P a → P b) (h0 : P σ) :
    P σ' := by
  induction h with
  | refl => exact h0
  | tail _ hb ih => exact hstep _ _ hb.1 hb.2.2 hb.2.1 ih

theorem handleAcquire_chain (hg : g.Loose) (h : SInv g σ) {chk : Nat → N → Check} {now : Int} {t : T} {s : S}
    (ht : t ∈ cfg.served) (he : σ.handleAcquire g cfg chk now t s = .ok σ') : Chain g σ σ' := by
  obtain ⟨σ1, skips, r, h1, h2, h3, h4⟩ := handleAcquire_spec (cfg := cfg) hg h chk now s ht
  rw [h1] at he
  cases he
  rcases r with _ | n
  · simp only at h4
    obtain ⟨hr, h4⟩ := h4
    split at h4
    · rename_i hp
      have e := h4.2
      have hm := Micro.shut (s := s) h3 hr hp
      rw [← e] at hm
      exact Chain.one h.toSCore hm h2.toSCore
    · rename_i hp
      have e := h4.2.2
      have hm := Micro.delay (upd σ.pending t (σ.pending t ++ [s])) h3 hr hp
      rw [← e] at hm
      exact Chain.one h.toSCore hm h2.toSCore
  · simp only at h4
    obtain ⟨_, _, _, hn, hnt, bk, e⟩ := h4
    have hm := Micro.send (s := s) bk h3 hn hnt
    rw [← e] at hm
    exact Chain.one h.toSCore hm h2.toSCore

theorem safeRelease_chain (hg : g.Loose) (h : SInv g σ) {n : N} (hn : n ∈ g.nodes) {s : S}
    {status : BlockStatus} (hs : status = .success ∨ status = .failed) {pick : Nat → Finset N → N}
    (hp : LegalPick pick) (he : σ.safeRelease g pick n status s = .ok σ') : Chain g σ σ' := by
  by_cases hv : holder σ.out n = some s
  · have hh : holder σ.out n ≠ none := by rw [hv]; exact Option.some_ne_none s
    obtain ⟨σ1, r1, r2, _, _, _, _, st', r3, r4⟩ := release_spec hg h.toSCore hh hs hp
    obtain ⟨σ2, s1, s2, _⟩ := safeRelease_spec hg h hn (s := s) hs hp
    rw [s1] at he
    cases he
    unfold Server.safeRelease at s1
    have hb := (h.book n hn).trans hv
    rw [if_pos (validReturn_iff.2 hb), r1] at s1
    simp only at s1
    split at s1
    · cases s1
    · cases s1
      have hm := Micro.rel hh hs r3
      rw [← r4] at hm
      refine (Chain.one h.toSCore hm r2).trans ?_
      exact Chain.one r2 (Micro.book _) s2.toSCore
  · rw [safeRelease_invalid (by rw [h.book n hn]; exact hv)] at he
    cases he
    exact Relation.ReflTransGen.refl

theorem handle_chain (hg : g.Loose) (h : SInv g σ) {m : Msg N T} (hm : GoodMsg g cfg m) {s : S}
    {chk : Nat → N → Check} {pick : Nat → Finset N → N} (hp : LegalPick pick) {now : Int}
    (he : σ.handle g cfg chk pick now m s = .ok σ') : Chain g σ σ' := by
  cases m with
  | acquire t =>
    obtain ⟨σ1, skips, r, h1, h2, _⟩ := handleAcquire_spec (cfg := cfg) hg h chk now s hm
    simp only [Server.handle, h1] at he
    cases he
    exact (handleAcquire_chain hg h hm h1).trans
      (Chain.one h2.toSCore Micro.check (h2.toSCore.frame (checkAll_frame σ1)))
  | release n status =>
    obtain ⟨σ1, h1, h2, _⟩ := safeRelease_spec hg h hm.1 (s := s) hm.2 hp
    simp only [Server.handle, h1] at he
    cases he
    exact (safeRelease_chain hg h hm.1 hm.2 hp h1).trans
      (Chain.one h2.toSCore Micro.check (h2.toSCore.frame (checkAll_frame σ1)))
  | blockFailed n w =>
    obtain ⟨σ1, h1, h2, _⟩ := safeRelease_spec hg h (n := n) hm (s := s) (status := .failed) (Or.inr rfl) hp
    simp only [Server.handle, h1] at he
    cases he
    have hf : Frame σ1 (σ1.emit [.blockFailure n w]) :=
      ⟨rfl, rfl, rfl, [.blockFailure n w], rfl, by simp [Silent]⟩
    have hc := h2.toSCore.frame hf
    exact ((safeRelease_chain hg h hm (Or.inr rfl) hp h1).trans (Chain.one h2.toSCore (Micro.fail n w) hc)).trans
      (Chain.one hc Micro.check (hc.frame (checkAll_frame _)))
  | clientException => exact absurd hm id
  | other => exact absurd hm id

theorem handleMessages_chain (hg : g.Loose) (h : SInv g σ) {r : Server.Recv N T S}
    (hr : ∀ m s, r = .msg m s → GoodMsg g cfg m)
    {chk : Nat → N → Check} {pick : Nat → Finset N → N} (hp : LegalPick pick) {now : Int}
    (he : σ.handleMessages g cfg chk pick now r = .ok σ') : Chain g σ σ' := by
  cases r with
  | msg m s => exact handle_chain hg h (hr m s rfl) hp he
  | closed => cases he; exact Relation.ReflTransGen.refl
  | nothing =>
    unfold Server.handleMessages at he
    simp only at he
    split at he
    · cases he; exact Relation.ReflTransGen.refl
    · rename_i t ht
      split at he
      · cases he; exact Relation.ReflTransGen.refl
      · have h1 := h.pending (upd σ.pending t ‹_›)
        exact (Chain.one h.toSCore (Micro.pop _) h1.toSCore).trans
          (handle_chain (cfg := cfg) hg h1 (m := .acquire t) (List.mem_of_find?_eq_some ht) hp he)

theorem releaseLost_chain (hg : g.Loose) {pick : N → Nat → Finset N → N} (hp : ∀ n, LegalPick (pick n)) :
    ∀ (L : List N) (σ σ' : Server N T K S), SCore g σ → L.Nodup → (∀ n ∈ L, holder σ.out n ≠ none) →
      Server.releaseLost g pick L σ = .ok σ' → Chain g σ σ'
  | [], σ, σ', _, _, _, he => by cases he; exact Relation.ReflTransGen.refl
  | n :: L, σ, σ', h, hnd, hl, he => by
    have hn := hl n List.mem_cons_self
    have hnd := List.nodup_cons.1 hnd
    obtain ⟨σ1, r1, r2, r3, r4, r5, _, st', r6, r7⟩ := release_spec hg h hn
      (status := .failed) (Or.inr rfl) (hp n)
    unfold Server.releaseLost at he
    rw [r1] at he
    have hm := Micro.rel hn (Or.inr rfl) r6
    rw [← r7] at hm
    refine (Chain.one h hm r2).trans (releaseLost_chain hg hp L σ1 σ' r2 hnd.2 ?_ he)
    intro x hx
    have hxn : x ≠ n := by rintro rfl; exact hnd.1 hx
    rw [r5, if_neg hxn]
    exact hl x (List.mem_cons_of_mem _ hx)

/-- The blocks reported lost by the bookkeeper are held blocks. -/
theorem lost_blocks (h : SInv g σ) (closed : S → Bool) :
    ((σ.book.filter (fun e => closed e.2.stream)).map (·.2.block)).Nodup ∧
    ∀ n ∈ (σ.book.filter (fun e => closed e.2.stream)).map (·.2.block), holder σ.out n ≠ none := by
  constructor
  · refine List.Nodup.map_on ?_ (List.Nodup.filter _ h.nodup.of_map)
    intro a ha b hb hab
    have ha' := List.mem_of_mem_filter ha
    have hb' := List.mem_of_mem_filter hb
    refine List.inj_on_of_nodup_map h.nodup ha' hb' ?_
    rw [(h.entry a ha').2, (h.entry b hb').2, hab]
  · intro n hn
    obtain ⟨e, he, rfl⟩ := List.mem_map.1 hn
    obtain ⟨h1, _⟩ := List.mem_filter.1 he
    obtain ⟨h3, h4⟩ := h.entry e h1
    have := h.book _ h3
    rw [← h4, Book.get_of_mem (k := e.1) (l := e.2) h.nodup h1] at this
    rw [← this]
    exact Option.some_ne_none _

theorem checkLost_chain (hg : g.Loose) (h : SInv g σ) {pick : N → Nat → Finset N → N}
    (hp : ∀ n, LegalPick (pick n)) {closed : S → Bool} {clock : Nat → Int}
    (he : σ.checkLost g pick closed clock = .ok σ') : Chain g σ σ' := by
  unfold Server.checkLost at he
  rw [Book.getLost_none closed clock h.nodup] at he
  simp only at he
  obtain ⟨hl1, hl2⟩ := lost_blocks h closed
  have hc : SCore g { σ with book := σ.book.filter (fun e => ! closed e.2.stream) } := ⟨h.run, h.held⟩
  exact (Chain.one h.toSCore (Micro.book _) hc).trans (releaseLost_chain hg hp _ _ _ hc hl1 hl2 he)

theorem iteration_chain (hg : g.Loose) (h : SInv g σ) {k : Server.Tick N T S} (hk : GoodTick g cfg k)
    (he : σ.iteration g cfg k = .ok σ') : Chain g σ σ' := by
  obtain ⟨σ1, h1, h2⟩ := handleMessages_ok hg h k.recv hk.1 k.chk hk.2.1 k.now
  obtain ⟨σ2, _, _, h3, h4, _⟩ := checkLost_ok hg h2 hk.2.2 k.closed k.clock
  unfold Server.iteration at he
  rw [h1] at he
  simp only at he
  rw [h3] at he
  cases he
  refine ((handleMessages_chain hg h hk.1 hk.2.1 h1).trans (checkLost_chain hg h2 hk.2.2 h3)).trans ?_
  split
  · exact Chain.one h4.toSCore Micro.check (h4.toSCore.frame (checkAll_frame σ2))
  · exact Relation.ReflTransGen.refl

/-- A property that holds initially and is preserved by every step holds in every execution. -/
theorem SRun.induct (hg : g.Loose) {P : Server N T K S → Prop} (h0 : P (Server.init g))
    (hstep : ∀ a b : Server N T K S, SCore g a → SCore g b → Micro g a b → P a → P b)
    {ks : List (Server.Tick N T S)} (h : SRun g cfg ks σ) : P σ := by
  induction h with
  | init => exact h0
  | step k hr _ hk he ih => exact (iteration_chain hg (hr.inv hg) hk he).induct hstep ih

/-! ### Announcements -/

/-- What `_recruit_workers` does. -/
theorem recruit_spec (σ : Server N T K S) :
    (σ.recruit g).finished = σ.finished ∧ (σ.recruit g).allDone = σ.allDone ∧
    (σ.recruit g).stop = σ.stop ∧
    (∀ t, t ∈ (σ.recruit g).started ↔ t ∈ σ.started ∨ t ∈ σ.sched.getReadyTasks g) ∧
    ∃ os, (σ.recruit g).out = σ.out ++ os ++ [.recruit (σ.sched.getReadyTasks g)] ∧
      (∀ o ∈ os, ∃ t, t ∈ σ.sched.getReadyTasks g ∧ (o = .taskStart t ∨ o = .callback t)) ∧
      ∀ t, os.count (.taskStart t) = (if t ∈ σ.sched.getReadyTasks g ∧ t ∉ σ.started then 1 else 0) ∧
        os.count (.callback t) = (if t ∈ σ.sched.getReadyTasks g ∧ t ∉ σ.started then 1 else 0) := by
  have key : ∀ (l : List T) (σ : Server N T K S), ∃ σ' : Server N T K S, l.foldl (fun σ t =>
      if t ∈ σ.started then σ
      else { (σ.emit [.taskStart t, .callback t]) with started := σ.started ++ [t] }) σ = σ' ∧
      σ'.finished = σ.finished ∧ σ'.allDone = σ.allDone ∧ σ'.stop = σ.stop ∧
      (∀ t, t ∈ σ'.started ↔ t ∈ σ.started ∨ t ∈ l) ∧
      ∃ os, σ'.out = σ.out ++ os ∧ (∀ o ∈ os, ∃ t, t ∈ l ∧ (o = .taskStart t ∨ o = .callback t)) ∧
        ∀ t, os.count (.taskStart t) = (if t ∈ l ∧ t ∉ σ.started then 1 else 0) ∧
          os.count (.callback t) = (if t ∈ l ∧ t ∉ σ.started then 1 else 0) := by
    intro l
    induction l with
    | nil => intro σ; exact ⟨σ, rfl, rfl, rfl, rfl, by simp, [], by simp, by simp, by simp⟩
    | cons x l ih =>
      intro σ
      rw [List.foldl_cons]
      by_cases hx : x ∈ σ.started
      · simp only [hx, if_true]
        obtain ⟨σ', e, a1, a2, a3, a4, os, a5, a6, a7⟩ := ih σ
        refine ⟨σ', e, a1, a2, a3, ?_, os, a5, ?_, ?_⟩
        · intro t
          rw [a4, List.mem_cons]
          constructor
          · tauto
          · rintro (h | rfl | h)
            · exact Or.inl h
            · exact Or.inl hx
            · exact Or.inr h
        · intro o ho
          obtain ⟨t, h1, h2⟩ := a6 o ho
          exact ⟨t, List.mem_cons_of_mem _ h1, h2⟩
        · intro t
          have hiff : (t ∈ x :: l ∧ t ∉ σ.started) ↔ (t ∈ l ∧ t ∉ σ.started) := by
            rw [List.mem_cons]
            constructor
            · rintro ⟨rfl | h, h'⟩
              · exact absurd hx h'
              · exact ⟨h, h'⟩
            · rintro ⟨h, h'⟩; exact ⟨Or.inr h, h'⟩
          rw [if_congr hiff rfl rfl]
          exact a7 t
      · simp only [hx, if_false]
        obtain ⟨σ', e, a1, a2, a3, a4, os, a5, a6, a7⟩ :=
          ih { (σ.emit [.taskStart x, .callback x]) with started := σ.started ++ [x] }
        refine ⟨σ', e, a1, a2, a3, ?_, [.taskStart x, .callback x] ++ os, ?_, ?_, ?_⟩
        · intro t
          rw [a4]
          simp only [List.mem_append, List.mem_cons, List.not_mem_nil, or_false]
          tauto
        · rw [a5]; simp [Server.emit]
        · intro o ho
          rcases List.mem_append.1 ho with ho | ho
          · simp only [List.mem_cons, List.not_mem_nil, or_false] at ho
            exact ⟨x, List.mem_cons_self, ho⟩
          · obtain ⟨t, h1, h2⟩ := a6 o ho
            exact ⟨t, List.mem_cons_of_mem _ h1, h2⟩
        · intro t
          obtain ⟨b1, b2⟩ := a7 t
          rw [List.count_append, List.count_append, b1, b2]
          by_cases htx : t = x
          · subst htx; simp [hx]
          · have htx' : ¬ x = t := fun e => htx e.symm
            simp [htx, htx']
  obtain ⟨σ', e, a1, a2, a3, a4, os, a5, a6, a7⟩ := key (σ.sched.getReadyTasks g) σ
  have hr : σ.recruit g = σ'.emit [.recruit (σ.sched.getReadyTasks g)] := by
    rw [← e]; rfl
  rw [hr]
  refine ⟨a1, a2, a3, a4, os, ?_, a6, a7⟩
  change σ'.out ++ _ = _
  rw [a5]

/-- What `_check_all_tasks_completed` does. -/
theorem checkAll_spec (σ : Server N T K S) :
    (σ.checkAll g).started = σ.started ∧
    ((σ.checkAll g).stop = true ↔ σ.stop = true ∨ ∀ t ∈ g.tasks, (σ.sched.states t).isDone = true) ∧
    (∀ t, t ∈ (σ.checkAll g).finished ↔
      t ∈ σ.finished ∨ (t ∈ g.tasks ∧ (σ.sched.states t).isDone = true)) ∧
    ∃ os, (σ.checkAll g).out = σ.out ++ os ∧
      (∀ o ∈ os, ∃ t, o = .taskDone t) ∧
      ∀ t, os.count (.taskDone t) =
        (if (t ∈ g.tasks ∧ (σ.sched.states t).isDone = true) ∧ t ∉ σ.finished then 1 else 0) := by
  have key : ∀ (l : List T) (σ : Server N T K S), ∃ σ' : Server N T K S, l.foldl (fun σ t =>
      if (σ.sched.states t).isDone then
        if t ∈ σ.finished then σ
        else { (σ.emit [.taskDone t]) with finished := σ.finished ++ [t] }
      else { σ with allDone := false }) σ = σ' ∧
      σ'.started = σ.started ∧ σ'.stop = σ.stop ∧
      (σ'.allDone = true ↔ σ.allDone = true ∧ ∀ t ∈ l, (σ.sched.states t).isDone = true) ∧
      (∀ t, t ∈ σ'.finished ↔ t ∈ σ.finished ∨ (t ∈ l ∧ (σ.sched.states t).isDone = true)) ∧
      ∃ os, σ'.out = σ.out ++ os ∧ (∀ o ∈ os, ∃ t, o = .taskDone t) ∧
        ∀ t, os.count (.taskDone t) =
          (if (t ∈ l ∧ (σ.sched.states t).isDone = true) ∧ t ∉ σ.finished then 1 else 0) := by
    intro l
    induction l with
    | nil => intro σ; exact ⟨σ, rfl, rfl, rfl, by simp, by simp, [], by simp, by simp, by simp⟩
    | cons x l ih =>
      intro σ
      rw [List.foldl_cons]
      cases hd : (σ.sched.states x).isDone with
      | false =>
        simp only [Bool.false_eq_true, if_false]
        obtain ⟨σ', e, a1, a2, a3, a4, os, a5, a6, a7⟩ := ih { σ with allDone := false }
        have hiff : ∀ t, (t ∈ x :: l ∧ (σ.sched.states t).isDone = true) ↔
            (t ∈ l ∧ (σ.sched.states t).isDone = true) := by
          intro t
          rw [List.mem_cons]
          constructor
          · rintro ⟨rfl | h, h'⟩
            · rw [hd] at h'; cases h'
            · exact ⟨h, h'⟩
          · rintro ⟨h, h'⟩; exact ⟨Or.inr h, h'⟩
        refine ⟨σ', e, a1, a2, ?_, ?_, os, a5, a6, ?_⟩
        · rw [a3]
          simp only [Bool.false_eq_true, false_and, false_iff, not_and]
          intro _ hc
          rw [hc x List.mem_cons_self] at hd
          cases hd
        · intro t; rw [a4, hiff]
        · intro t; rw [a7]; simp only [hiff]
      | true =>
        simp only [if_true]
        by_cases hx : x ∈ σ.finished
        · simp only [hx, if_true]
          obtain ⟨σ', e, a1, a2, a3, a4, os, a5, a6, a7⟩ := ih σ
          refine ⟨σ', e, a1, a2, ?_, ?_, os, a5, a6, ?_⟩
          · rw [a3]; simp [hd]
          · intro t
            rw [a4, List.mem_cons]
            constructor
            · tauto
            · rintro (h | ⟨rfl | h, h'⟩)
              · exact Or.inl h
              · exact Or.inl hx
              · exact Or.inr ⟨h, h'⟩
          · intro t
            have hiff : ((t ∈ x :: l ∧ (σ.sched.states t).isDone = true) ∧ t ∉ σ.finished) ↔
                ((t ∈ l ∧ (σ.sched.states t).isDone = true) ∧ t ∉ σ.finished) := by
              rw [List.mem_cons]
              constructor
              · rintro ⟨⟨rfl | h, h'⟩, h''⟩
                · exact absurd hx h''
                · exact ⟨⟨h, h'⟩, h''⟩
              · rintro ⟨⟨h, h'⟩, h''⟩; exact ⟨⟨Or.inr h, h'⟩, h''⟩
            rw [a7, if_congr hiff rfl rfl]
        · simp only [hx, if_false]
          obtain ⟨σ', e, a1, a2, a3, a4, os, a5, a6, a7⟩ :=
            ih { (σ.emit [.taskDone x]) with finished := σ.finished ++ [x] }
          have a4' : ∀ t, t ∈ σ'.finished ↔ t ∈ σ.finished ++ [x] ∨
            (t ∈ l ∧ (σ.sched.states t).isDone = true) := a4
          have a7' : ∀ t, os.count (.taskDone t) = (if (t ∈ l ∧ (σ.sched.states t).isDone = true) ∧
            t ∉ σ.finished ++ [x] then 1 else 0) := a7
          have a3' : σ'.allDone = true ↔ σ.allDone = true ∧
            ∀ t ∈ l, (σ.sched.states t).isDone = true := a3
          refine ⟨σ', e, a1, a2, ?_, ?_, [.taskDone x] ++ os, ?_, ?_, ?_⟩
          · rw [a3']; simp [hd]
          · intro t
            rw [a4']
            simp only [List.mem_append, List.mem_cons, List.not_mem_nil, or_false]
            constructor
            · rintro ((h | rfl) | h)
              · exact Or.inl h
              · exact Or.inr ⟨Or.inl rfl, hd⟩
              · exact Or.inr ⟨Or.inr h.1, h.2⟩
            · tauto
          · rw [a5]; simp [Server.emit]
          · intro o ho
            rcases List.mem_append.1 ho with ho | ho
            · exact ⟨x, List.mem_singleton.1 ho⟩
            · exact a6 o ho
          · intro t
            rw [List.count_append, a7']
            by_cases htx : t = x
            · subst htx; simp [hx, hd]
            · have htx' : ¬ x = t := fun e => htx e.symm
              simp [htx, htx']
  obtain ⟨σ', e, a1, a2, a3, a4, os, a5, a6, a7⟩ := key (Server.checked g) { σ with allDone := true }
  simp only [mem_checked] at a3 a4 a7
  have hr : σ.checkAll g = if σ'.allDone then { σ' with stop := true } else σ' := by
    rw [← e]; rfl
  have a3' : σ'.allDone = true ↔ ∀ t ∈ g.tasks, (σ.sched.states t).isDone = true := by
    rw [a3]; simp
  rw [hr]
  cases had : σ'.allDone with
  | true =>
    simp only [if_true]
    refine ⟨a1, ?_, a4, os, a5, a6, a7⟩
    simp only [true_iff]
    exact Or.inr (a3'.1 had)
  | false =>
    simp only [Bool.false_eq_true, if_false]
    refine ⟨a1, ?_, a4, os, a5, a6, a7⟩
    rw [a2]
    change σ.stop = true ↔ _
    constructor
    · exact Or.inl
    · rintro (h | h)
      · exact h
      · rw [a3'.2 h] at had; cases had

end Verif
