import Verif.Proofs.ServerLog

/-! # Announcements, stopping, and requests -/

set_option linter.unusedSectionVars false

namespace Verif

open Spec

variable {N T K S : Type} [DecidableEq N] [DecidableEq T] [DecidableEq K] [DecidableEq S]
  {g : DGraph N T K} {cfg : SConf T} {σ σ' : Server N T K S}

/-! ### Announcements -/

/-- Announcements of tasks are in agreement with the sets of started and finished tasks. -/
structure Announced (σ : Server N T K S) : Prop where
  start : ∀ t, σ.out.count (.taskStart t) = if t ∈ σ.started then 1 else 0
  callback : ∀ t, σ.out.count (.callback t) = if t ∈ σ.started then 1 else 0
  done : ∀ t, σ.out.count (.taskDone t) = if t ∈ σ.finished then 1 else 0

/-- Not an announcement. -/
def Plain : Out N T S → Prop
  | .taskStart _ => False
  | .callback _ => False
  | .taskDone _ => False
  | _ => True

theorem Announced.append (h : Announced σ) {os : List (Out N T S)} (ho : σ'.out = σ.out ++ os)
    (hp : ∀ o ∈ os, Plain o) (h1 : σ'.started = σ.started) (h2 : σ'.finished = σ.finished) :
    Announced σ' := by
  have hz : ∀ o : Out N T S, ¬ Plain o → os.count o = 0 := fun o hn =>
    List.count_eq_zero.2 (fun hm => hn (hp o hm))
  refine ⟨?_, ?_, ?_⟩ <;> intro t <;> rw [ho, List.count_append]
  · rw [hz (.taskStart t) (fun h => h), h1]; exact h.start t
  · rw [hz (.callback t) (fun h => h), h1]; exact h.callback t
  · rw [hz (.taskDone t) (fun h => h), h2]; exact h.done t

theorem Announced.recruit (h : Announced σ) : Announced (σ.recruit g) := by
  obtain ⟨a1, _, _, a4, os, a5, a6, a7⟩ := recruit_spec (g := g) σ
  have key : ∀ t, (if t ∈ σ.started then 1 else 0) +
      (if t ∈ σ.sched.getReadyTasks g ∧ t ∉ σ.started then 1 else 0) + 0 =
      if t ∈ (σ.recruit g).started then 1 else 0 := by
    intro t
    simp only [a4]
    by_cases h1 : t ∈ σ.started <;> by_cases h2 : t ∈ σ.sched.getReadyTasks g <;> simp [h1, h2]
  refine ⟨?_, ?_, ?_⟩ <;> intro t <;> rw [a5, List.count_append, List.count_append]
  · rw [h.start, (a7 t).1, ← key t]; simp
  · rw [h.callback, (a7 t).2, ← key t]; simp
  · have hz : os.count (.taskDone t) = 0 := by
      rw [List.count_eq_zero]
      intro hm
      obtain ⟨t', _, h | h⟩ := a6 _ hm <;> cases h
    rw [h.done, hz, a1]
    simp

theorem Announced.checkAll (h : Announced σ) : Announced (σ.checkAll g) := by
  obtain ⟨a1, _, a3, os, a4, a5, a6⟩ := checkAll_spec (g := g) σ
  refine ⟨?_, ?_, ?_⟩ <;> intro t <;> rw [a4, List.count_append]
  · have hz : os.count (.taskStart t) = 0 := by
      rw [List.count_eq_zero]
      intro hm
      obtain ⟨t', h⟩ := a5 _ hm
      cases h
    rw [h.start, hz, a1, Nat.add_zero]
  · have hz : os.count (.callback t) = 0 := by
      rw [List.count_eq_zero]
      intro hm
      obtain ⟨t', h⟩ := a5 _ hm
      cases h
    rw [h.callback, hz, a1, Nat.add_zero]
  · rw [h.done, a6]
    simp only [a3]
    by_cases h1 : t ∈ σ.finished <;>
      by_cases h2 : t ∈ g.tasks ∧ (σ.sched.states t).isDone = true <;> simp [h1, h2]

theorem SRun.announced (hg : g.Loose) {ks : List (Server.Tick N T S)} (h : SRun g cfg ks σ) :
    Announced σ := by
  refine h.induct hg (P := Announced) ?_ ?_
  · refine Announced.recruit ⟨?_, ?_, ?_⟩ <;> intro t <;> simp
  · intro a b _ _ hm ih
    have hsk : ∀ (l : List N) (o : Out N T S), o ∈ l.map .skip → Plain o := by
      intro l o ho
      obtain ⟨x, _, rfl⟩ := List.mem_map.1 ho
      trivial
    cases hm with
    | @send chk t s n skips st' bk h hn ht =>
      refine ih.append (os := skips.map .skip ++ [.send s n, .acquired t]) (by simp) ?_ rfl rfl
      intro o ho
      rcases List.mem_append.1 ho with ho | ho
      · exact hsk _ o ho
      · simp only [List.mem_cons, List.not_mem_nil, or_false] at ho
        rcases ho with rfl | rfl <;> trivial
    | @shut chk t s skips st' h h1 h2 =>
      refine Announced.recruit (ih.append (os := skips.map .skip ++ [.shutdown s t]) (by simp) ?_ rfl rfl)
      intro o ho
      rcases List.mem_append.1 ho with ho | ho
      · exact hsk _ o ho
      · rw [List.mem_singleton] at ho
        subst ho; trivial
    | @delay chk t skips st' p h h1 h2 => exact ih.append rfl (hsk _) rfl rfl
    | @rel pick n status st' hn hs h =>
      refine Announced.recruit (Announced.checkAll (ih.append rfl ?_ rfl rfl))
      intro o ho
      simp only [List.mem_cons, List.not_mem_nil, or_false] at ho
      rcases ho with rfl | rfl <;> trivial
    | check => exact ih.checkAll
    | fail n w =>
      refine ih.append (os := [.blockFailure n w]) rfl ?_ rfl rfl
      intro o ho
      rw [List.mem_singleton] at ho
      subst ho; trivial
    | book bk => exact ih.append (os := []) (by simp) (by simp) rfl rfl
    | pop p => exact ih.append (os := []) (by simp) (by simp) rfl rfl

/-! ### Recruitment -/


theorem started_recruit (h : ∀ t, t ∈ σ.started ↔ Recruited σ t) (t : T) :
    t ∈ (σ.recruit g).started ↔ Recruited (σ.recruit g) t := by
  obtain ⟨_, _, _, a4, os, a5, a6, _⟩ := recruit_spec (g := g) σ
  rw [a4, h]
  unfold Recruited
  rw [a5]
  simp only [List.mem_append, List.mem_singleton]
  constructor
  · rintro (⟨ts, h1, h2⟩ | h1)
    · exact ⟨ts, Or.inl (Or.inl h1), h2⟩
    · exact ⟨_, Or.inr rfl, h1⟩
  · rintro ⟨ts, (h1 | h1) | h1, h2⟩
    · exact Or.inl ⟨ts, h1, h2⟩
    · obtain ⟨t', _, h | h⟩ := a6 _ h1 <;> cases h
    · cases h1; exact Or.inr h2

theorem started_append (h : ∀ t, t ∈ σ.started ↔ Recruited σ t) {os : List (Out N T S)}
    (ho : σ'.out = σ.out ++ os) (hp : ∀ ts, .recruit ts ∉ os) (h1 : σ'.started = σ.started) (t : T) :
    t ∈ σ'.started ↔ Recruited σ' t := by
  rw [h1, h]
  unfold Recruited
  rw [ho]
  simp [hp]

theorem started_checkAll (h : ∀ t, t ∈ σ.started ↔ Recruited σ t) (t : T) :
    t ∈ (σ.checkAll g).started ↔ Recruited (σ.checkAll g) t := by
  obtain ⟨a1, _, a3, os, a4, a5, _⟩ := checkAll_spec (g := g) σ
  refine started_append h a4 ?_ a1 t
  intro ts hm
  obtain ⟨t', h⟩ := a5 _ hm
  cases h

theorem SRun.recruited (hg : g.Loose) {ks : List (Server.Tick N T S)} (h : SRun g cfg ks σ) :
    ∀ t, t ∈ σ.started ↔ Recruited σ t := by
  refine h.induct hg (P := fun σ => ∀ t, t ∈ σ.started ↔ Recruited σ t) ?_ ?_
  · exact started_recruit (by simp [Recruited])
  · intro a b _ _ hm ih
    cases hm with
    | @send chk t s n skips st' bk h hn ht =>
      exact started_append ih (os := skips.map .skip ++ [.send s n, .acquired t]) (by simp) (by simp) rfl
    | @shut chk t s skips st' h h1 h2 =>
      exact started_recruit (started_append ih (os := skips.map .skip ++ [.shutdown s t]) (by simp)
        (by simp) rfl)
    | @delay chk t skips st' p h h1 h2 => exact started_append ih rfl (by simp) rfl
    | @rel pick n status st' hn hs h =>
      exact started_recruit (started_checkAll (started_append ih rfl (by simp) rfl))
    | check => exact started_checkAll ih
    | fail n w => exact started_append ih (os := [.blockFailure n w]) rfl (by simp) rfl
    | book bk => exact started_append ih (os := []) (by simp) (by simp) rfl
    | pop p => exact started_append ih (os := []) (by simp) (by simp) rfl

/-! ### Stopping -/

theorem done_mono {tr es : List (Ev N)} {n : N} (h : Done tr n) : Done (tr ++ es) n :=
  h.imp (List.mem_append_left _) (List.mem_append_left _)

theorem dead_mono {tr es : List (Ev N)} {n : N} (h : Dead g tr n) : Dead g (tr ++ es) n := by
  refine ⟨List.mem_append_left _ h.1, lt_of_lt_of_le h.2 ?_⟩
  rw [List.count_append]
  push_cast
  omega

theorem orphan_mono {tr es : List (Ev N)} {n : N} (h : Orphan g tr n) : Orphan g (tr ++ es) n := by
  obtain ⟨f, h1, h2⟩ := h
  exact ⟨f, dead_mono h1, h2⟩

theorem finished_mono {tr es : List (Ev N)} {t : T} (h : TaskFinished g tr t) :
    TaskFinished g (tr ++ es) t := fun n hn ht =>
  (h n hn ht).imp done_mono (Or.imp dead_mono orphan_mono)

theorem exact_prefix {tr es : List (Ev N)} (h : OrphanExact g (tr ++ es)) : OrphanExact g tr :=
  fun n hn => (h n hn).imp (fun h f f' hf hf' => h f f' (dead_mono hf) (dead_mono hf'))
    fun h u hu p hp q hq h1 h2 h3 h4 h5 =>
      h u hu p hp q hq h1 h2 (done_mono h3) (h4.imp dead_mono orphan_mono) (h5.imp dead_mono orphan_mono)

/-- Tasks that were found to be done are finished, where orphans are counted correctly. -/
structure StopOK (g : DGraph N T K) (σ : Server N T K S) : Prop where
  stop : σ.stop = true → OrphanExact g (evs σ.out) → ∀ t ∈ g.tasks, TaskFinished g (evs σ.out) t
  finished : ∀ t ∈ σ.finished, OrphanExact g (evs σ.out) → TaskFinished g (evs σ.out) t

theorem StopOK.append (h : StopOK g σ) {es : List (Ev N)} (ho : evs σ'.out = evs σ.out ++ es)
    (h1 : σ'.stop = σ.stop) (h2 : σ'.finished = σ.finished) : StopOK g σ' := by
  refine ⟨?_, ?_⟩
  · intro hs hx t ht
    rw [ho] at hx ⊢
    exact finished_mono (h.stop (h1 ▸ hs) (exact_prefix hx) t ht)
  · intro t ht hx
    rw [ho] at hx ⊢
    exact finished_mono (h.finished t (h2 ▸ ht) (exact_prefix hx))

theorem StopOK.recruit (h : StopOK g σ) : StopOK g (σ.recruit g) := by
  obtain ⟨a1, _, a3, _⟩ := recruit_spec (g := g) σ
  exact h.append (es := []) (by rw [(recruit_frame σ).evs]; simp) a3 a1

theorem StopOK.checkAll (hg : g.Loose) (h : StopOK g σ) (hr : Run g (evs σ.out) σ.sched) :
    StopOK g (σ.checkAll g) := by
  obtain ⟨_, a2, a3, _⟩ := checkAll_spec (g := g) σ
  have he := (checkAll_frame (g := g) σ).evs
  refine ⟨?_, ?_⟩
  · intro hs hx t ht
    rw [he] at hx ⊢
    rcases a2.1 hs with h1 | h1
    · exact h.stop h1 hx t ht
    · exact (C22_loose_is_done_partial hg hr hx t).1 (h1 t ht)
  · intro t ht hx
    rw [he] at hx ⊢
    rcases (a3 t).1 ht with h1 | ⟨_, h1⟩
    · exact h.finished t h1 hx
    · exact (C22_loose_is_done_partial hg hr hx t).1 h1

theorem StopOK.micro (hg : g.Loose) {a b : Server N T K S} (hcb : SCore g b) (hm : Micro g a b) (ih : StopOK g a) :
    StopOK g b := by
  cases hm with
  | @send chk t s n skips st' bk h hn ht =>
    exact ih.append (es := evs (skips.map .skip ++ [.send s n, .acquired t]))
      (by simp only [List.append_assoc]; exact evs_append _ _) rfl rfl
  | @shut chk t s skips st' h h1 h2 =>
    exact StopOK.recruit (ih.append (es := evs (skips.map .skip ++ [.shutdown s t]))
      (by simp only [List.append_assoc]; exact evs_append _ _) rfl rfl)
  | @delay chk t skips st' p h h1 h2 => exact ih.append (evs_append _ _) rfl rfl
  | @rel pick n status st' hn hs h =>
    refine StopOK.recruit (StopOK.checkAll hg (ih.append (evs_append _ _) rfl rfl) ?_)
    obtain ⟨c, hc⟩ : ∃ c : Server N T K S, c =
      { a with sched := st', out := a.out ++ [.release n status, .released (g.task n)] } := ⟨_, rfl⟩
    have hf : Frame c ((c.checkAll g).recruit g) := (checkAll_frame c).trans (recruit_frame _)
    have := hcb.run
    rw [← hc] at this ⊢
    rw [hf.evs, hf.sched] at this
    exact this
  | check =>
    refine ih.checkAll hg ?_
    have := hcb.run
    rwa [(checkAll_frame a).evs, (checkAll_frame a).sched] at this
  | fail n w => exact ih.append (es := evs [.blockFailure n w]) (evs_append _ _) rfl rfl
  | book bk => exact ih.append (es := []) (by simp) rfl rfl
  | pop p => exact ih.append (es := []) (by simp) rfl rfl

theorem SRun.stopOK (hg : g.Loose) {ks : List (Server.Tick N T S)} (h : SRun g cfg ks σ) : StopOK g σ := by
  refine h.induct hg (P := StopOK g) ?_ (fun a b _ hcb hm ih => ih.micro hg hcb hm)
  refine StopOK.recruit ⟨?_, ?_⟩
  · intro h; cases h
  · intro t h; cases h

/-! ### Shutdown -/

theorem split_cases {α : Type} {l os pre post : List α} {x : α} (h : l ++ os = pre ++ x :: post) :
    (∃ post', l = pre ++ x :: post') ∨ ∃ pre', pre = l ++ pre' ∧ os = pre' ++ x :: post := by
  rcases List.append_eq_append_iff.1 h with ⟨as, h1, h2⟩ | ⟨bs, h1, h2⟩
  · exact Or.inr ⟨as, h1, h2⟩
  · cases bs with
    | nil => exact Or.inr ⟨[], by simpa using h1.symm, by simpa using h2.symm⟩
    | cons b bs =>
      simp only [List.cons_append, List.cons.injEq] at h2
      obtain ⟨rfl, _⟩ := h2
      exact Or.inl ⟨bs, h1⟩

/-- Whenever a client was told to shut down, its task had no ready block and its count of pending
blocks was zero. -/
def ShutOK (g : DGraph N T K) (out : List (Out N T S)) : Prop :=
  ∀ pre post s t, out = pre ++ .shutdown s t :: post → ∃ st, Run g (evs pre) st ∧
    (st.states t).ready = 0 ∧ (st.states t).pending = 0

theorem ShutOK.append {out os : List (Out N T S)} (h : ShutOK g out) (ho : ∀ s t, .shutdown s t ∉ os) :
    ShutOK g (out ++ os) := by
  intro pre post s t he
  rcases split_cases he with ⟨post', h1⟩ | ⟨pre', _, h2⟩
  · exact h pre post' s t h1
  · exact absurd (by rw [h2]; simp) (ho s t)

theorem ShutOK.frame (h : ShutOK g σ.out) (hf : Frame σ σ') : ShutOK g σ'.out := by
  obtain ⟨os, h1, h2⟩ := hf.out
  rw [h1]
  exact h.append (fun s t hm => h2 _ hm)

theorem SRun.shutOK (hg : g.Loose) {ks : List (Server.Tick N T S)} (h : SRun g cfg ks σ) :
    ShutOK g σ.out := by
  refine h.induct hg (P := fun σ => ShutOK g σ.out) ?_ ?_
  · refine ShutOK.frame (σ := ⟨Sched.init g, [], [], [], false, false, fun _ => [], []⟩) ?_ (recruit_frame _)
    intro pre post s t he
    simp at he
  · intro a b _ hcb hm ih
    cases hm with
    | @send chk t s n skips st' bk h hn ht =>
      change ShutOK g (a.out ++ skips.map .skip ++ [.send s n, .acquired t])
      rw [List.append_assoc]
      exact ih.append (by simp)
    | @shut chk t s skips st' h h1 h2 =>
      obtain ⟨c, hc⟩ : ∃ c : Server N T K S, c =
        { a with sched := st', out := a.out ++ skips.map .skip ++ [.shutdown s t] } := ⟨_, rfl⟩
      have hf : Frame c (c.recruit g) := recruit_frame c
      rw [← hc]
      refine ShutOK.frame ?_ hf
      have hrun : Run g (evs (a.out ++ skips.map .skip)) st' := by
        have := hcb.run
        rw [← hc, hf.evs, hf.sched, hc] at this
        change Run g (evs (a.out ++ skips.map .skip ++ [.shutdown s t])) st' at this
        rw [evs_append _ [_]] at this
        have e : evs [(.shutdown s t : Out N T S)] = [] := rfl
        rwa [e, List.append_nil] at this
      rw [hc]
      intro pre post s' t' he
      change a.out ++ skips.map .skip ++ [.shutdown s t] = _ at he
      rcases split_cases he with ⟨post', he'⟩ | ⟨pre', e1, e2⟩
      · exact ih.append (os := skips.map .skip) (by simp) pre post' s' t' he'
      · cases pre' with
        | nil =>
          simp only [List.nil_append, List.cons.injEq, Out.shutdown.injEq] at e2
          obtain ⟨⟨rfl, rfl⟩, _⟩ := e2
          refine ⟨st', ?_, h1, h2⟩
          rw [e1, List.append_nil]
          exact hrun
        | cons x xs =>
          simp at e2
    | @delay chk t skips st' p h h1 h2 => exact ih.append (by simp)
    | @rel pick n status st' hn hs h =>
      refine ShutOK.frame (σ := { a with
        sched := st', out := a.out ++ [.release n status, .released (g.task n)] }) ?_
        ((checkAll_frame _).trans (recruit_frame _))
      exact ih.append (by simp)
    | check => exact ih.frame (checkAll_frame a)
    | fail n w => exact ShutOK.append ih (os := [.blockFailure n w]) (by simp)
    | book bk => exact ih
    | pop p => exact ih

/-! ### Requests and answers -/

theorem upd_eq {α : Type} (f : T → α) (t : T) (v : α) : upd f t v t = v := by simp [upd]

theorem answers_append (t : T) (s : S) : ∀ a b : List (Out N T S),
    answers g t s (a ++ b) = answers g t s a + answers g t s b
  | [], b => by simp [answers]
  | o :: a, b => by
    simp only [List.cons_append, answers]
    rw [answers_append t s a b]
    omega

theorem answers_other (t : T) (s : S) : ∀ (os : List (Out N T S)),
    (∀ o ∈ os, (∀ s' n, o ≠ .send s' n) ∧ ∀ s' t', o ≠ .shutdown s' t') → answers g t s os = 0
  | [], _ => rfl
  | o :: os, h => by
    have ih := answers_other t s os (fun o' ho' => h o' (List.mem_cons_of_mem _ ho'))
    have h0 := h o List.mem_cons_self
    unfold answers
    rw [ih]
    cases o with
    | send s' n => exact absurd rfl (h0.1 s' n)
    | shutdown s' t' => exact absurd rfl (h0.2 s' t')
    | _ => rfl

theorem answers_silent {t : T} {s : S} {os : List (Out N T S)} (h : ∀ o ∈ os, Silent o) :
    answers g t s os = 0 := by
  apply answers_other
  intro o ho
  have := h o ho
  exact ⟨fun s' n e => by rw [e] at this; exact this, fun s' t' e => by rw [e] at this; exact this⟩

theorem answers_skips (t : T) (s : S) (l : List N) : answers g t s (l.map .skip) = 0 := by
  apply answers_other
  intro o ho
  obtain ⟨x, _, rfl⟩ := List.mem_map.1 ho
  exact ⟨fun _ _ h => (nomatch h), fun _ _ h => (nomatch h)⟩

theorem requests_append (t : T) (s : S) : ∀ a b : List (Server.Tick N T S),
    requests t s (a ++ b) = requests t s a + requests t s b
  | [], b => by simp [requests]
  | o :: a, b => by
    simp only [List.cons_append, requests]
    rw [requests_append t s a b]
    omega

/-- Answered and waiting requests of client `s` for task `t`. -/
def load (g : DGraph N T K) (σ : Server N T K S) (t : T) (s : S) : Nat :=
  answers g t s σ.out + (σ.pending t).count s

theorem Frame.load (h : Frame σ σ') (t : T) (s : S) : load g σ' t s = load g σ t s := by
  obtain ⟨os, h1, h2⟩ := h.out
  unfold Verif.load
  rw [h1, answers_append, answers_silent h2, h.pending, Nat.add_zero]

theorem handleAcquire_load (hg : g.Loose) (h : SInv g σ) {chk : Nat → N → Check} {now : Int} {t' : T}
    {s' : S} (ht : t' ∈ cfg.served) (he : σ.handleAcquire g cfg chk now t' s' = .ok σ') (t : T) (s : S) :
    load g σ' t s = load g σ t s + if t' = t ∧ s' = s then 1 else 0 := by
  obtain ⟨σ1, skips, r, h1, h2, h3, h4⟩ := handleAcquire_spec (cfg := cfg) hg h chk now s' ht
  rw [h1] at he
  cases he
  rcases r with _ | n
  · simp only at h4
    obtain ⟨_, h4⟩ := h4
    split at h4
    · rw [h4.2, (recruit_frame _).load]
      unfold load
      simp only
      rw [answers_append, answers_append, answers_skips]
      simp only [answers, Nat.add_zero]
      omega
    · rw [h4.2.2]
      unfold load
      simp only
      rw [answers_append, answers_skips, Nat.add_zero]
      by_cases htt : t' = t
      · subst htt
        rw [upd_eq, List.count_append, List.count_singleton]
        by_cases hss : s' = s <;> simp [hss]
        omega
      · have htt' : ¬ t = t' := fun e => htt e.symm
        simp [upd, htt, htt']
  · simp only at h4
    obtain ⟨h4, h5, _, _, htask, _⟩ := h4
    unfold load
    rw [h4, h5, answers_append, answers_append, answers_skips]
    simp only [answers, htask, Nat.add_zero]
    omega

theorem safeRelease_load (hg : g.Loose) (h : SInv g σ) {n : N} (hn : n ∈ g.nodes) {s' : S}
    {status : BlockStatus} (hst : status = .success ∨ status = .failed) {pick : Nat → Finset N → N}
    (hp : LegalPick pick) (he : σ.safeRelease g pick n status s' = .ok σ') (t : T) (s : S) :
    load g σ' t s = load g σ t s := by
  obtain ⟨σ1, h1, _, h3, h4⟩ := safeRelease_spec hg h hn (s := s') hst hp
  rw [h1] at he
  cases he
  split at h4
  · obtain ⟨os, h5, h6⟩ := h4
    unfold load
    rw [h5, h3, answers_append]
    have : answers g t s (.release n status :: os) = 0 := by
      simp only [answers]
      rw [answers_silent h6]
    rw [this, Nat.add_zero]
  · rw [h4]

/-- The requests for blocks of task `t` by client `s` in a message. -/
def reqOf (m : Msg N T) (s' : S) (t : T) (s : S) : Nat :=
  match m with
  | .acquire t' => if t' = t ∧ s' = s then 1 else 0
  | _ => 0

theorem handle_load (hg : g.Loose) (h : SInv g σ) {m : Msg N T} (hm : GoodMsg g cfg m) {s' : S}
    {chk : Nat → N → Check} {pick : Nat → Finset N → N} (hp : LegalPick pick) {now : Int}
    (he : σ.handle g cfg chk pick now m s' = .ok σ') (t : T) (s : S) :
    load g σ' t s = load g σ t s + reqOf m s' t s := by
  cases m with
  | acquire t' =>
    obtain ⟨σ1, _, _, h1, _⟩ := handleAcquire_spec (cfg := cfg) hg h chk now s' hm
    simp only [Server.handle, h1] at he
    cases he
    rw [(checkAll_frame _).load, handleAcquire_load hg h hm h1]
    rfl
  | release n status =>
    obtain ⟨σ1, h1, _⟩ := safeRelease_spec hg h hm.1 (s := s') hm.2 hp
    simp only [Server.handle, h1] at he
    cases he
    rw [(checkAll_frame _).load, safeRelease_load hg h hm.1 hm.2 hp h1]
    rfl
  | blockFailed n w =>
    obtain ⟨σ1, h1, _⟩ := safeRelease_spec hg h (n := n) hm (s := s') (status := .failed) (Or.inr rfl) hp
    simp only [Server.handle, h1] at he
    cases he
    have hf : Frame σ1 (σ1.emit [.blockFailure n w]) :=
      ⟨rfl, rfl, rfl, [.blockFailure n w], rfl, by simp [Silent]⟩
    rw [(checkAll_frame _).load, hf.load, safeRelease_load hg h (n := n) hm (Or.inr rfl) hp h1]
    rfl
  | clientException => exact absurd hm id
  | other => exact absurd hm id

theorem iteration_load (hg : g.Loose) (h : SInv g σ) {k : Server.Tick N T S} (hk : GoodTick g cfg k)
    (he : σ.iteration g cfg k = .ok σ') (t : T) (s : S) :
    load g σ' t s = load g σ t s + requests t s [k] := by
  obtain ⟨σ1, h1, h2⟩ := handleMessages_ok hg h k.recv hk.1 k.chk hk.2.1 k.now
  have hl1 : load g σ1 t s = load g σ t s + requests t s [k] := by
    simp only [requests]
    rcases hr : k.recv with ⟨m, s'⟩ | _ | _
    · rw [hr] at h1
      rw [handle_load hg h (hk.1 m s' hr) hk.2.1 h1]
      cases m <;> simp [reqOf]
    · rw [hr] at h1
      unfold Server.handleMessages at h1
      simp only at h1
      simp only [Nat.add_zero]
      split at h1
      · cases h1; rfl
      · rename_i t' ht'
        split at h1
        · cases h1; rfl
        · rename_i s' rest hpt
          rw [handle_load (cfg := cfg) hg (h.pending _) (m := .acquire t')
            (List.mem_of_find?_eq_some ht') hk.2.1 h1]
          unfold load reqOf
          simp only
          by_cases htt : t' = t
          · subst htt
            rw [upd_eq, hpt, List.count_cons]
            by_cases hss : s' = s <;> simp [hss]
            omega
          · have htt' : ¬ t = t' := fun e => htt e.symm
            simp [upd, htt, htt']
    · rw [hr] at h1
      cases h1
      rfl
  obtain ⟨σ2, os, L, h3, h4, _, h5, h6, h7, _⟩ := checkLost_ok hg h2 hk.2.2 k.closed k.clock
  have hl2 : load g σ2 t s = load g σ1 t s := by
    unfold load
    rw [h6, h5, answers_append]
    have : answers g t s os = 0 := by
      apply answers_other
      intro o ho
      rcases h7 o ho with hs | ⟨m, _, rfl⟩
      · exact ⟨fun s' n e => by rw [e] at hs; exact hs, fun s' t' e => by rw [e] at hs; exact hs⟩
      · exact ⟨fun _ _ h => (nomatch h), fun _ _ h => (nomatch h)⟩
    rw [this, Nat.add_zero]
  unfold Server.iteration at he
  rw [h1] at he
  simp only at he
  rw [h3] at he
  cases he
  rw [← hl1, ← hl2]
  split
  · exact (checkAll_frame σ2).load t s
  · rfl

end Verif
