import Verif.Proofs.ServerCount
import Verif.Proofs.PipelineOK

/-! # Recruitment of workers and delayed requests -/

set_option linter.unusedSectionVars false

namespace Verif

open Spec

variable {N T K S : Type} [DecidableEq N] [DecidableEq T] [DecidableEq K] [DecidableEq S]
  {g : DGraph N T K} {cfg : SConf T} {σ σ' : Server N T K S}

theorem TaskOrder.anc (hg : g.Loose) {trank : T → Nat} (ho : TaskOrder g trank) {a n : N} (hn : n ∈ g.nodes)
    (h : Anc g a n) : a ∈ g.nodes ∧ (g.task a = g.task n ∨ trank (g.task a) < trank (g.task n)) := by
  induction h using Relation.TransGen.head_induction_on with
  | single h => exact ⟨hg.up_mem _ hn _ h, ho _ hn _ h⟩
  | head h _ ih =>
    refine ⟨hg.up_mem _ ih.1 _ h, ?_⟩
    rcases ho _ ih.1 _ h with h1 | h1 <;> rcases ih.2 with h2 | h2
    · left; rw [h1, h2]
    · right; rw [h1]; exact h2
    · right; rw [← h2]; exact h1
    · right; omega

/-- A block that waits has a ready block among its ancestors if nothing is held. -/
theorem ready_ancestor (hg : g.Loose) {tr : List (Ev N)} (hh : ∀ n, ¬ Held tr n) {n : N} (hn : n ∈ g.nodes)
    (h1 : ¬ Done tr n) (h2 : ¬ Dead g tr n) (h3 : ¬ Orphan g tr n) (h4 : ¬ Ready g tr n) :
    ∃ a, Anc g a n ∧ Ready g tr a := by
  obtain ⟨rank, hrank⟩ := hg.acyclic
  have key : ∀ k n, rank n < k → n ∈ g.nodes → ¬ Done tr n → ¬ Dead g tr n → ¬ Orphan g tr n →
      ¬ Ready g tr n → ∃ a, Anc g a n ∧ Ready g tr a := by
    intro k
    induction k with
    | zero => intro n hn; omega
    | succ k ih =>
      intro n hk hn h1 h2 h3 h4
      have hup : ¬ ∀ u ∈ g.up n, Done tr u := fun hc => h4 ⟨hn, hc, h1, h2, hh n⟩
      push Not at hup
      obtain ⟨u, hu, hud⟩ := hup
      have hr := hrank n hn u hu
      have hum := hg.up_mem n hn u hu
      by_cases hur : Ready g tr u
      · exact ⟨u, Relation.TransGen.single hu, hur⟩
      · obtain ⟨a, ha, har⟩ := ih u (by omega) hum hud
          (fun hc => h3 ⟨u, hc, Relation.TransGen.single hu⟩)
          (fun ⟨f, hf, hfa⟩ => h3 ⟨f, hf, Relation.TransGen.tail hfa hu⟩) hur
        exact ⟨a, Relation.TransGen.tail ha hu, har⟩
  exact key (rank n + 1) n (Nat.lt_succ_self _) hn h1 h2 h3 h4

theorem done_skips {tr : List (Ev N)} {l : List N} {n : N} :
    Done (tr ++ l.map .skip) n ↔ Done tr n ∨ n ∈ l := by
  simp [Done]
  tauto

theorem dead_skips {tr : List (Ev N)} {l : List N} {n : N} :
    Dead g (tr ++ l.map .skip) n ↔ Dead g tr n := by
  have h1 : Ev.bad n ∉ l.map (.skip : N → Ev N) := by simp
  unfold Dead
  rw [List.count_append, List.count_eq_zero.2 h1, List.mem_append]
  tauto

/-- What is ready after blocks of task `t` were skipped. -/
theorem ready_skips {trank : T → Nat} (ho : TaskOrder g trank) {tr : List (Ev N)} {l : List N} {t : T}
    (hl : ∀ x ∈ l, g.task x = t) {n : N} :
    (Ready g (tr ++ l.map .skip) n → Ready g tr n ∨ g.task n = t ∨ trank t < trank (g.task n)) ∧
    (Ready g tr n → g.task n ≠ t → Ready g (tr ++ l.map .skip) n) := by
  constructor
  · rintro ⟨h1, h2, h3, h4, h5⟩
    by_cases hup : ∀ u ∈ g.up n, Done tr u
    · left
      refine ⟨h1, hup, fun hd => h3 (done_skips.2 (Or.inl hd)), fun hd => h4 (dead_skips.2 hd), ?_⟩
      exact fun hh => h5 ((held_skips l).2 hh)
    · right
      push Not at hup
      obtain ⟨u, hu, hud⟩ := hup
      have := (done_skips.1 (h2 u hu)).resolve_left hud
      have ht := hl u this
      rcases ho n h1 u hu with e | e
      · left; rw [← e, ht]
      · right; rw [ht] at e; exact e
  · rintro ⟨h1, h2, h3, h4, h5⟩ hne
    refine ⟨h1, fun u hu => done_skips.2 (Or.inl (h2 u hu)), ?_, fun hd => h4 (dead_skips.1 hd),
      fun hh => h5 ((held_skips l).1 hh)⟩
    intro hd
    rcases done_skips.1 hd with hd | hd
    · exact h3 hd
    · exact hne (hl n hd)

/-- The blocks skipped by `acquire_block(t)` are blocks of `t`. -/
theorem skips_task (hg : g.OK) {tr : List (Ev N)} {st st' : Sched N T K} (h : Run g tr st)
    {chk : Nat → N → Check} {t : T} {skips : List N} {r : Option N}
    (he : st.acquireBlock g chk t = .ok (skips, r, st')) :
    (∀ x ∈ skips, g.task x = t) ∧
    (r = none → ∀ n, g.task n = t → ¬ Ready g (tr ++ skips.map .skip) n) ∧
    ((∀ n, g.task n = t → ¬ Ready g tr n) → skips = [] ∧ r = none) := by
  obtain ⟨skips', r', st'', f1, _, f3, f4, f5⟩ := (h.inv hg).acquire hg chk t
  rw [f1] at he
  cases he
  refine ⟨?_, fun hr => (f5 hr).2, ?_⟩
  · intro x hx
    obtain ⟨i, hi⟩ := List.getElem?_of_mem hx
    exact (f3 i x hi).2.1
  · intro hno
    have hs : skips = [] := by
      rcases skips with _ | ⟨x, l⟩
      · rfl
      · have := f3 0 x rfl
        simp only [List.take_zero, List.map_nil, List.append_nil] at this
        exact absurd this.1 (hno x this.2.1)
    subst hs
    refine ⟨rfl, ?_⟩
    rcases r with _ | n
    · rfl
    · have := f4 n rfl
      simp only [List.map_nil, List.append_nil] at this
      exact absurd this.1 (hno n this.2.1)

/-- If only starved blocks of `t` are ready, `acquire_block(t)` finds nothing. -/
theorem starved_skips (hg : g.Loose) {tr : List (Ev N)} {st st' : Sched N T K} (h : Run g tr st)
    {chk : Nat → N → Check} {t : T} {skips : List N} {r : Option N}
    (he : st.acquireBlock g chk t = .ok (skips, r, st')) (hno : ∀ n, g.task n = t → Ready g tr n → Starved g n) :
    skips = [] ∧ r = none := by
  have h1 := (C26_loose_acquire_none hg h he).2
  have h2 : t ∉ st.getReadyTasks g := by
    rw [C26_loose_ready_tasks hg h]
    rintro ⟨n, hn, hr, hs⟩
    exact hs (hno n hn hr)
  rw [h1] at h2
  push Not at h2
  exact h2

theorem mem_readyTasks (hg : g.OK) {tr : List (Ev N)} {st : Sched N T K} (h : Run g tr st) {n : N}
    (hn : Ready g tr n) : g.task n ∈ st.getReadyTasks g :=
  (C26_ready_tasks hg h _).2 ⟨n, rfl, hn⟩

/-! ### Recruitment -/

/-- If nothing is held, every task with a ready block has workers or some task of lower rank has workers
and a ready block. -/
def Staffed (g : DGraph N T K) (trank : T → Nat) (σ : Server N T K S) : Prop :=
  OrphanExact g (evs σ.out) → (∀ n, holder σ.out n = none) → ∀ n, Ready g (evs σ.out) n →
    g.task n ∈ σ.started ∨ ∃ m, Ready g (evs σ.out) m ∧ g.task m ∈ σ.started ∧
      trank (g.task m) < trank (g.task n)

theorem Staffed.recruit (hg : g.OK) {trank : T → Nat} (hr : Run g (evs σ.out) σ.sched) :
    Staffed g trank (σ.recruit g) := by
  intro _ _ n hn
  left
  rw [(recruit_frame σ).evs] at hn
  rw [(recruit_spec σ).2.2.2.1]
  exact Or.inr (mem_readyTasks hg hr hn)

theorem Staffed.of_eq {trank : T → Nat} (h : Staffed g trank σ) (h1 : evs σ'.out = evs σ.out)
    (h2 : ∀ n, holder σ'.out n = holder σ.out n) (h3 : σ'.started = σ.started) :
    Staffed g trank σ' := by
  intro a b
  rw [h1, h3]
  rw [h1] at a
  exact h a (fun n => by rw [← h2]; exact b n)

theorem SRun.staffed (hg : g.OK) {trank : T → Nat} (ho : TaskOrder g trank)
    {ks : List (Server.Tick N T S)} (h : SRun g cfg ks σ) : Staffed g trank σ := by
  refine h.induct hg ?_ ?_
  · exact Staffed.recruit hg Run.init
  · intro a b ha hb hm ih
    cases hm with
    | @send chk t s n skips st' bk h hn ht =>
      intro _ hnone
      have := hnone n
      rw [holder_append, holder_skips] at this
      simp [holderStep] at this
    | @shut chk t s skips st' h h1 h2 =>
      refine Staffed.recruit hg ?_
      have := Run.acquire chk t ha.run h
      change Run g (evs (a.out ++ skips.map .skip ++ [.shutdown s t])) st'
      rw [evs_append, evs_append, evs_skips]
      have e : evs [(.shutdown s t : Out N T S)] = [] := rfl
      rw [e, List.append_nil]
      simpa [acquireEvents] using this
    | @delay chk t skips st' p h h1 h2 =>
      obtain ⟨s1, s2, _⟩ := skips_task hg ha.run h
      have s2 := s2 rfl
      have hev : evs (a.out ++ skips.map .skip) = evs a.out ++ skips.map .skip := by
        rw [evs_append, evs_skips]
      have hrun : Run g (evs a.out ++ skips.map .skip) st' := by
        have := Run.acquire chk t ha.run h
        simpa [acquireEvents] using this
      intro hx hnone n hn
      change Ready g (evs (a.out ++ skips.map .skip)) n at hn
      change g.task n ∈ a.started ∨ ∃ m, Ready g (evs (a.out ++ skips.map .skip)) m ∧
        g.task m ∈ a.started ∧ trank (g.task m) < trank (g.task n)
      change OrphanExact g (evs (a.out ++ skips.map .skip)) at hx
      have hnone' : ∀ n, holder a.out n = none := by
        intro n
        have := hnone n
        rw [← holder_skips skips n]
        exact this
      rw [hev] at hn hx ⊢
      have hheld : ∀ n, ¬ Held (evs a.out ++ skips.map .skip) n := by
        intro n hc
        exact (ha.held n).1 ((held_skips skips).1 hc) (hnone' n)
      have ih' := ih (exact_prefix hx) hnone'
      -- the task whose request is delayed has a waiting block
      rw [C22_pending_partial hg hrun hx t] at h2
      rw [Ne, cnt_eq_zero] at h2
      push Not at h2
      obtain ⟨w, hw, hwt, hwf, hwr, _⟩ := h2
      obtain ⟨r, hra, hrr⟩ := ready_ancestor hg hheld hw hwf.1 hwf.2.1 hwf.2.2 hwr
      have hrt : g.task r ≠ t := fun e => s2 r e hrr
      have hrk : trank (g.task r) < trank t := by
        rcases (TaskOrder.anc hg ho hw hra).2 with e | e
        · exact absurd (e.trans hwt) hrt
        · rw [← hwt]; exact e
      have hr0 : Ready g (evs a.out) r := by
        rcases (ready_skips ho s1).1 hrr with h | h | h
        · exact h
        · exact absurd h hrt
        · omega
      -- a task of lower rank with workers and a ready block
      obtain ⟨m, hm1, hm2, hm3⟩ : ∃ m, Ready g (evs a.out) m ∧ g.task m ∈ a.started ∧
          trank (g.task m) < trank t := by
        rcases ih' r hr0 with h | ⟨m, m1, m2, m3⟩
        · exact ⟨r, hr0, h, hrk⟩
        · exact ⟨m, m1, m2, by omega⟩
      have hmt : g.task m ≠ t := by rintro e; rw [e] at hm3; omega
      have hm1' := (ready_skips ho s1).2 hm1 hmt
      have hnt : g.task n ≠ t := fun e => s2 n e hn
      rcases (ready_skips ho s1).1 hn with hn0 | hn0 | hn0
      · rcases ih' n hn0 with h | ⟨m', m1, m2, m3⟩
        · exact Or.inl h
        · right
          by_cases hm't : g.task m' = t
          · rw [hm't] at m3
            exact ⟨m, hm1', hm2, by omega⟩
          · exact ⟨m', (ready_skips ho s1).2 m1 hm't, m2, m3⟩
      · exact absurd hn0 hnt
      · exact Or.inr ⟨m, hm1', hm2, by omega⟩
    | @rel pick n status st' hn hs h =>
      refine Staffed.recruit hg ?_
      have := hb.run
      rw [(recruit_frame _).evs, (recruit_frame _).sched] at this
      exact this
    | check =>
      exact ih.of_eq (checkAll_frame a).evs (checkAll_frame a).holder (checkAll_spec a).1
    | fail n w =>
      have hf : Frame a (a.emit [.blockFailure n w]) :=
        ⟨rfl, rfl, rfl, [.blockFailure n w], rfl, by simp [Silent]⟩
      exact ih.of_eq hf.evs hf.holder rfl
    | book bk => exact ih.of_eq rfl (fun _ => rfl) rfl
    | pop p => exact ih.of_eq rfl (fun _ => rfl) rfl

theorem SRun.staffed_no_skips (hg : g.Loose) {ks : List (Server.Tick N T S)} (h : SRun g cfg ks σ) :
    (∀ n, .skip n ∉ σ.out) → ∀ n, Ready g (evs σ.out) n → ¬ Starved g n → g.task n ∈ σ.started := by
  have hrec : ∀ c : Server N T K S, Run g (evs c.out) c.sched → ∀ n, Ready g (evs (c.recruit g).out) n →
      ¬ Starved g n → g.task n ∈ (c.recruit g).started := by
    intro c hr n hn hns
    rw [(recruit_frame c).evs] at hn
    rw [(recruit_spec c).2.2.2.1]
    exact Or.inr ((C26_loose_ready_tasks hg hr _).2 ⟨n, rfl, hn, hns⟩)
  have hnoskip : ∀ {os : List (Out N T S)} {skips : List N} {os'}, (∀ n, .skip n ∉ os ++ skips.map .skip ++ os') →
      (∀ n, .skip n ∉ os) ∧ skips = [] := by
    intro os skips os' hs
    refine ⟨fun n hc => hs n (by simp [hc]), ?_⟩
    rcases skips with _ | ⟨x, l⟩
    · rfl
    · exact absurd (by simp) (hs x)
  refine h.induct hg (P := fun σ => (∀ n, .skip n ∉ σ.out) → ∀ n, Ready g (evs σ.out) n →
    ¬ Starved g n → g.task n ∈ σ.started) ?_ ?_
  · intro _
    exact hrec _ Run.init
  · intro a b ha hb hm ih
    cases hm with
    | @send chk t s n skips st' bk h hn ht =>
      intro hs m hm
      obtain ⟨h1, rfl⟩ := hnoskip hs
      have h0 := C25_loose hg ha.run chk t
      refine ih h1 m ?_
      have e : evs (a.out ++ ([] : List N).map .skip ++ [.send s n, .acquired t]) = evs a.out ++ [Ev.hand n] := by
        rw [evs_append, evs_append]
        simp only [List.map_nil]
        have e1 : evs ([] : List (Out N T S)) = [] := rfl
        have e2 : evs [(.send s n : Out N T S), .acquired t] = [Ev.hand n] := rfl
        rw [e1, e2, List.append_nil]
      change Ready g (evs (a.out ++ ([] : List N).map .skip ++ [.send s n, .acquired t])) m at hm
      rw [e] at hm
      obtain ⟨m1, m2, m3, m4, m5⟩ := hm
      refine ⟨m1, fun u hu => ?_, fun hd => m3 (done_mono hd), fun hd => m4 (dead_mono hd), ?_⟩
      · have := m2 u hu
        simpa [Done] using this
      · intro hh
        apply m5
        unfold Held at hh ⊢
        simp only [List.count_append]
        have z1 : [Ev.hand n].count (Ev.good m) = 0 := List.count_eq_zero.2 (by simp)
        have z2 : [Ev.hand n].count (Ev.bad m) = 0 := List.count_eq_zero.2 (by simp)
        omega
    | @shut chk t s skips st' h h1 h2 =>
      intro _
      refine hrec _ ?_
      have := hb.run
      rw [(recruit_frame _).evs, (recruit_frame _).sched] at this
      exact this
    | @delay chk t skips st' p h h1 h2 =>
      intro hs m hm
      obtain ⟨h1, rfl⟩ := hnoskip (os' := []) (by simpa using hs)
      exact ih h1 m (by simpa using hm)
    | @rel pick n status st' hn hs h =>
      intro _
      refine hrec _ ?_
      have := hb.run
      rw [(recruit_frame _).evs, (recruit_frame _).sched] at this
      exact this
    | check =>
      intro hs
      rw [(checkAll_frame a).evs, (checkAll_spec a).1]
      refine ih (fun n hc => hs n ?_)
      obtain ⟨os, e, _⟩ := (checkAll_frame (g := g) a).out
      rw [e]
      exact List.mem_append_left _ hc
    | fail n w =>
      have hf : Frame a (a.emit [.blockFailure n w]) :=
        ⟨rfl, rfl, rfl, [.blockFailure n w], rfl, by simp [Silent]⟩
      intro hs
      rw [hf.evs]
      refine ih (fun m hc => hs m ?_)
      exact List.mem_append_left _ hc
    | book bk => exact ih
    | pop p => exact ih

/-! ### Delayed requests -/

/-- The first task with a delayed request. -/
def firstWaiting (cfg : SConf T) (σ : Server N T K S) : Option T :=
  cfg.served.find? (fun t => (σ.pending t).length ≠ 0)

/-- With nothing held there are no lost blocks. -/
theorem checkLost_idle (h : SInv g σ) (hn : ∀ n, holder σ.out n = none)
    {pick : N → Nat → Finset N → N} {closed : S → Bool} {clock : Nat → Int} :
    σ.checkLost g pick closed clock = .ok σ := by
  have hbook : σ.book = [] := by
    rcases hb : σ.book with _ | ⟨e, l⟩
    · rfl
    · exfalso
      have he : e ∈ σ.book := by rw [hb]; exact List.mem_cons_self
      obtain ⟨h3, h4⟩ := h.entry e he
      have := h.book _ h3
      rw [← h4, Book.get_of_mem (k := e.1) (l := e.2) h.nodup he, hn] at this
      cases this
  unfold Server.checkLost
  rw [Book.getLost_none closed clock h.nodup, hbook]
  simp only [List.filter_nil, List.map_nil, Server.releaseLost]
  rw [← hbook]

/-- An iteration in which no message arrives and nothing is held. -/
theorem idle_iteration (hg : g.Loose) (h : SInv g σ) (hn : ∀ n, holder σ.out n = none)
    {k : Server.Tick N T S} (hk : k.recv = .nothing) {t : T} (hf : firstWaiting cfg σ = some t)
    {s : S} {rest : List S} (hpt : σ.pending t = s :: rest)
    (hnr : ∀ n, g.task n = t → Ready g (evs σ.out) n → Starved g n) {n : N} (hn0 : n ∈ g.nodes) (hnt : g.task n = t)
    (hx : OrphanExact g (evs σ.out)) (h1 : ¬ Done (evs σ.out) n) (h2 : ¬ Dead g (evs σ.out) n)
    (h3 : ¬ Orphan g (evs σ.out) n) :
    ∃ σ', σ.iteration g cfg k = .ok σ' ∧ evs σ'.out = evs σ.out ∧
      σ'.pending = upd σ.pending t (rest ++ [s]) ∧ (σ.stop = false → σ'.stop = false) ∧
      ∀ t s, answers g t s σ'.out = answers g t s σ.out := by
  have hf' := hf
  unfold firstWaiting at hf'
  have hI := h.pending (upd σ.pending t rest)
  obtain ⟨σ1, skips, r, a1, a2, a3, a4⟩ := handleAcquire_spec (cfg := cfg) hg hI k.chk k.now s
    (List.mem_of_find?_eq_some hf')
  obtain ⟨rfl, rfl⟩ := starved_skips hg hI.run a3 hnr
  simp only [List.map_nil, List.append_nil] at a4
  obtain ⟨_, a4⟩ := a4
  have hrun : Run g (evs σ.out) σ1.sched := by
    have := Run.acquire k.chk t hI.run a3
    simpa [acquireEvents] using this
  have hpend : (σ1.sched.states t).pending ≠ 0 := by
    rw [C22_loose_pending_partial hg hrun hx t, Ne, cnt_eq_zero]
    intro hc
    refine hc n hn0 hnt ⟨by tauto, fun hr => hr.2 (hnr n hnt hr.1), ?_⟩
    intro hh
    exact (h.held n).1 hh (hn n)
  rw [if_neg hpend] at a4
  obtain ⟨b1, b2, b3⟩ := a4
  have b2 : σ1.out = σ.out := b2
  have b1 : σ1.pending = upd σ.pending t (rest ++ [s]) := by
    rw [b1]
    funext x
    by_cases hxt : x = t
    · subst hxt; simp [upd]
    · simp [upd, hxt]
  -- not all tasks are done
  have hnd : (σ1.sched.states t).isDone = false := by
    by_contra hc
    rw [Bool.not_eq_false] at hc
    have := (C22_loose_is_done_partial hg hrun hx t).1 hc n hn0 hnt
    tauto
  have htm : t ∈ g.tasks := by rw [← hnt]; exact hg.task_mem n hn0
  have hstop : ∀ c : Server N T K S, c.sched = σ1.sched → c.stop = false → (c.checkAll g).stop = false := by
    intro c hc hs
    by_contra hcon
    rw [Bool.not_eq_false] at hcon
    rcases (checkAll_spec c).2.1.1 hcon with h | h
    · rw [hs] at h; cases h
    · have := h t htm
      rw [hc, hnd] at this
      cases this
  have hfr := checkAll_frame (g := g) σ1
  have hI1 : SInv g (σ1.checkAll g) := a2.frame hfr
  have hnone : ∀ n, holder (σ1.checkAll g).out n = none := by
    intro n; rw [hfr.holder, b2]; exact hn n
  have hmsg : σ.handleMessages g cfg k.chk k.pick k.now k.recv = .ok (σ1.checkAll g) := by
    rw [hk]
    unfold Server.handleMessages
    simp only
    rw [hf']
    simp only
    rw [hpt]
    simp only [Server.handle, a1]
  have hs1 : σ.stop = false → σ1.stop = false := by
    intro hs
    rw [b3]
    exact hs
  unfold Server.iteration
  rw [hmsg]
  simp only
  rw [checkLost_idle hI1 hnone]
  refine ⟨_, rfl, ?_⟩
  split
  · have hfr2 := hfr.trans (checkAll_frame (g := g) (σ1.checkAll g))
    refine ⟨by rw [hfr2.evs, b2], by rw [hfr2.pending, b1], ?_, ?_⟩
    · intro hs
      exact hstop _ hfr.sched (hstop _ rfl (hs1 hs))
    · intro t s
      obtain ⟨os, e, hos⟩ := hfr2.out
      rw [e, answers_append, answers_silent hos, b2, Nat.add_zero]
  · refine ⟨by rw [hfr.evs, b2], by rw [hfr.pending, b1], fun hs => hstop _ rfl (hs1 hs), ?_⟩
    intro t s
    obtain ⟨os, e, hos⟩ := hfr.out
    rw [e, answers_append, answers_silent hos, b2, Nat.add_zero]

/-! ### Pipelines -/

/-- The tasks of a pipeline can be ranked. -/
theorem view_taskOrder {d : Nat} {p : Pipeline d} (hb : p.Built) (hw : p.Wf) (hl : p.Linked) :
    ∃ trank, TaskOrder p.view trank := by
  obtain ⟨r, hr⟩ := hb.acyc
  obtain ⟨ns, n1, _, n3⟩ := Pipeline.blocks_spec hb hw
  refine ⟨r, ?_⟩
  intro b hbm a ha
  have i0 : p.view.nodes = ns := Pipeline.okOr_ok n1
  rw [i0] at hbm
  obtain ⟨y, hy⟩ := (n3 b).1 hbm
  obtain ⟨us, h1, _, h3⟩ := Pipeline.upstream_linked hb hw hl hy
  have ha' : a ∈ us := by
    have : a ∈ Pipeline.okOr (p.upstream b) [] := ha
    rwa [Pipeline.okOr_ok h1] at this
  change a.taskId = b.taskId ∨ r a.taskId < r b.taskId
  rcases (h3 a).1 ha' with h | ⟨x, hx, hax, _⟩
  · left
    obtain ⟨gb, hgb, us', hus, hau⟩ := h
    have hby := hy
    rw [Pipeline.blockOf_taskId hb hw hy] at hgb
    obtain ⟨g2, bs, hg2, hbs, hmem⟩ := hy
    rw [hgb] at hg2; cases hg2
    obtain ⟨us'', ds', u1, _, _, _, u5, _⟩ :=
      Props.C08_closed gb (hw y gb hgb).1 (hw y gb hgb).2.1 hbs hmem
    rw [hus] at u1; cases u1
    rw [Pipeline.blockOf_taskId hb hw hby]
    exact Pipeline.blockOf_taskId hb hw ⟨gb, bs, hgb, hbs, u5 a hau⟩
  · right
    rw [Pipeline.blockOf_taskId hb hw hax, Pipeline.blockOf_taskId hb hw hy]
    exact hr _ _ hx

end Verif
