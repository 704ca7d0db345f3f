import Verif.Proofs.Legal
import Verif.Spec.Exec

/-! # Claims about the scheduler (C15, C17–C26, C28)

All statements are about every consistent dependency graph `g` (`g.OK`, see `Spec/Graph`) and every
execution `Run g tr st` (see `Spec/History`): `tr` is the history of events, `st` the state reached. -/

set_option linter.unusedSectionVars false

namespace Verif

open Spec

/-! ### Concrete graphs for the examples -/

namespace Ex

/-- Two roots `0`, `1` of task 0, a block `2` of task 1 that needs both, a block `3` of task 1 that
needs only `1`; one retry. -/
def vee : DGraph (Fin 4) (Fin 2) (Fin 4) :=
  finGraph 4 2 (fun n => match n with | 2 => [0, 1] | 3 => [1] | _ => [])
    (fun n => if n < 2 then 0 else 1) (fun _ => 1) [0]

theorem vee_ok : vee.OK := finGraph_ok (by decide) (by decide) (by decide) (by decide)

/-- An execution on `vee` with a retry, a skip and a failure. -/
def veeActs : List (Act (Fin 4) (Fin 2)) :=
  [.acq 0 [], .acq 0 [], .bad 0, .good 1, .acq 1 [3], .acq 0 [], .bad 0]

/-- Its history. -/
def veeTr : List (Ev (Fin 4)) :=
  [.hand 0, .hand 1, .bad 0, .good 1, .skip 3, .hand 0, .bad 0]

theorem vee_exec : (exec vee pickMin veeActs).map (·.1) = some veeTr := by decide +kernel

theorem vee_run : ∃ st, Run vee veeTr st := by
  obtain ⟨tr, st, h, rfl⟩ := exec_map pickMin_legal (·.1) vee_exec
  exact ⟨st, h⟩

end Ex

variable {N T K : Type} [DecidableEq N] [DecidableEq T] [DecidableEq K] {g : DGraph N T K}
  {tr : List (Ev N)} {st : Sched N T K}

/-! ### C15 -/

/-- When every upstream block of every completed block has completed, so have all ancestors of a
block whose upstream blocks have completed. -/
theorem legal_done_up {tr : List (Ev N)} (h : Legal g tr) :
    ∀ n, Done tr n ∨ Held tr n → ∀ u ∈ g.up n, Done tr u := by
  induction tr using List.reverseRecOn with
  | nil =>
    rintro n (h | h)
    · simp [Done] at h
    · simp [Held] at h
  | append_singleton l e ih =>
    have hl : Legal g l := legal_prefix h rfl
    have he : Allowed g l e := h l e [] rfl
    have mono : ∀ x, Done l x → Done (l ++ [e]) x := by
      rintro x (hx | hx)
      · exact Or.inl (List.mem_append_left _ hx)
      · exact Or.inr (List.mem_append_left _ hx)
    intro n hn u hu
    cases e with
    | skip m =>
      rw [done_skip, held_skip] at hn
      rcases hn with (hn | rfl) | hn
      · exact mono u (ih hl n (Or.inl hn) u hu)
      · exact mono u (he.2.1 u hu)
      · exact mono u (ih hl n (Or.inr hn) u hu)
    | hand m =>
      rw [done_hand] at hn
      rcases hn with hn | hn
      · exact mono u (ih hl n (Or.inl hn) u hu)
      · by_cases hm : n = m
        · subst hm; exact mono u (he.2.1 u hu)
        · refine mono u (ih hl n (Or.inr ?_) u hu)
          have hm' : ¬ m = n := fun e => hm e.symm
          simpa [Held, List.count_append, hm'] using hn
    | good m =>
      rw [done_good] at hn
      rcases hn with (hn | rfl) | hn
      · exact mono u (ih hl n (Or.inl hn) u hu)
      · exact mono u (ih hl n (Or.inr he) u hu)
      · refine mono u (ih hl n (Or.inr ?_) u hu)
        simp [Held, List.count_append] at hn ⊢
        omega
    | bad m =>
      rw [done_bad] at hn
      rcases hn with hn | hn
      · exact mono u (ih hl n (Or.inl hn) u hu)
      · refine mono u (ih hl n (Or.inr ?_) u hu)
        simp [Held, List.count_append] at hn ⊢
        omega

theorem legal_anc_done {tr : List (Ev N)} (hl : Legal g tr) {n a : N}
    (hn : ∀ u ∈ g.up n, Done tr u) (ha : Anc g a n) : Done tr a := by
  obtain ⟨u, h1, h2⟩ := Relation.TransGen.tail'_iff.1 ha
  have hu := hn u h2
  clear ha h2
  induction h1 using Relation.ReflTransGen.head_induction_on with
  | refl => exact hu
  | head he _ ih => exact legal_done_up hl _ (Or.inl ih) _ he

/-- C15. At every moment of every execution, if a block is handed out (event `hand n` after the
history `pre`), every block that is transitively upstream of it has completed before. -/
theorem C15_dependency_order (hg : g.OK) (h : Run g tr st) {pre post : List (Ev N)} {n a : N}
    (htr : tr = pre ++ .hand n :: post) (ha : Anc g a n) : Done pre a := by
  have hl := h.legal hg
  have hn : Ready g pre n := hl pre (.hand n) post htr
  have hp : Legal g pre := legal_prefix hl htr
  exact legal_anc_done hp hn.2.1 ha

/-- The same for skipped blocks: also a block that is skipped by its check function is examined only
after everything upstream of it has completed. -/
theorem C15_skipped (hg : g.OK) (h : Run g tr st) {pre post : List (Ev N)} {n a : N}
    (htr : tr = pre ++ .skip n :: post) (ha : Anc g a n) : Done pre a := by
  have hl := h.legal hg
  have hn : Ready g pre n := hl pre (.skip n) post htr
  have hp : Legal g pre := legal_prefix hl htr
  exact legal_anc_done hp hn.2.1 ha

/-- A held block has everything upstream completed, and `acquire_block` hands out blocks of the task
it was asked for. -/
theorem C15_held (hg : g.OK) (h : Run g tr st) {n a : N} (hn : Held tr n) (ha : Anc g a n) :
    Done tr a := by
  have hl := h.legal hg
  exact legal_anc_done hl (legal_done_up hl n (Or.inr hn)) ha

theorem C15_task (hg : g.OK) (h : Run g tr st) {chk : Nat → N → Check} {t : T} {skips : List N}
    {n : N} {st' : Sched N T K} (hacq : st.acquireBlock g chk t = .ok (skips, some n, st')) :
    n ∈ g.nodes ∧ g.task n = t ∧ Held (tr ++ acquireEvents skips (some n)) n := by
  obtain ⟨s', r', st2, f1, f2, _, f4, _⟩ := (h.inv hg).acquire hg chk t
  rw [f1] at hacq
  cases hacq
  obtain ⟨hr, ht, _⟩ := f4 n rfl
  refine ⟨hr.1, ht, ?_⟩
  rw [f2.held_iff]
  have hb := (h.inv hg).bal n
  have h5 := hr.2.2.2.2
  have e1 : ∀ l : List N, (l.map Ev.skip).count (.hand n) = 0 := by
    intro l; rw [List.count_eq_zero]; simp
  have e2 : ∀ l : List N, (l.map Ev.skip).count (.good n) = 0 := by
    intro l; rw [List.count_eq_zero]; simp
  have e3 : ∀ l : List N, (l.map Ev.skip).count (.bad n) = 0 := by
    intro l; rw [List.count_eq_zero]; simp
  unfold Held at h5
  simp [acquireEvents, List.count_append, e1, e2, e3] at h5 ⊢
  omega

/-- The hypotheses are met: block `2` of `vee` is handed out after `0` and `1`. -/
example : ∃ tr st, Run Ex.vee tr st ∧ Anc Ex.vee 0 2 ∧
    tr = [.hand 0, .hand 1, .good 1] ++ [.good 0] ++ .skip 3 :: [.hand 2] := by
  obtain ⟨tr, st, h, e⟩ := exec_map pickMin_legal (·.1) (v :=
    [.hand 0, .hand 1, .good 1] ++ [.good 0] ++ .skip 3 :: [.hand 2])
    (g := Ex.vee) (as := [.acq 0 [], .acq 0 [], .good 1, .good 0, .acq 1 [3]]) (by decide +kernel)
  exact ⟨tr, st, h, Relation.TransGen.single (by unfold Edge; decide), e⟩

/-! ### C17 -/

/-- C17. A block is never handed out while it is held, nor after it has completed (successfully
processed or skipped) or failed permanently; the same holds for skipping.  Partial: for consistent graphs
(`C17_false_asymmetric` has no consistent graph). -/
theorem C17_never_again_partial (hg : g.OK) (h : Run g tr st) {pre post : List (Ev N)} {n : N}
    (htr : tr = pre ++ .hand n :: post ∨ tr = pre ++ .skip n :: post) :
    ¬ Held pre n ∧ ¬ Done pre n ∧ ¬ Dead g pre n := by
  have hl := h.legal hg
  have hn : Ready g pre n := by
    rcases htr with htr | htr
    · exact hl pre (.hand n) post htr
    · exact hl pre (.skip n) post htr
  exact ⟨hn.2.2.2.2, hn.2.2.1, hn.2.2.2.1⟩

/-- In particular a block completes at most once, and at any moment it has been handed out at most
once more than it has been released.  Partial: for consistent graphs
(`C17_false_asymmetric` has no consistent graph). -/
theorem C17_once_partial (hg : g.OK) (h : Run g tr st) (n : N) :
    tr.count (.good n) + tr.count (.skip n) ≤ 1 ∧
    tr.count (.hand n) ≤ tr.count (.good n) + tr.count (.bad n) + 1 :=
  ⟨(h.inv hg).once n, ((h.inv hg).bal n).2⟩

/-- The history of `vee` hands out block `0` twice, with a failure in between. -/
example : ∃ st, Run Ex.vee Ex.veeTr st ∧ Ex.veeTr.count (.hand 0) = 2 := by
  obtain ⟨st, h⟩ := Ex.vee_run
  exact ⟨st, h, by decide⟩

/-! ### C18 -/

/-- C18, bound. A block is handed out at most `max_retries + 1` times (once if `max_retries` is
negative).  Partial: for consistent graphs
(`C18_false_asymmetric` has no consistent graph). -/
theorem C18_attempts_partial (hg : g.OK) (h : Run g tr st) (n : N) :
    tr.count (.hand n) ≤ (g.maxRetries (g.task n)).toNat + 1 := (h.inv hg).hands n

/-- C18, exactness. When a held block is released with FAILED: it is queued again (at the end of its
task's queue) iff it has now failed at most `max_retries` times; otherwise it is counted as failed, it
is permanently failed, and it is never handed out again in any continuation.  Partial: for consistent graphs
(`C18_false_asymmetric` has no consistent graph). -/
theorem C18_retry_iff_partial (hg : g.OK) (h : Run g tr st) {n : N} (hn : Held tr n)
    {pick : Nat → Finset N → N} (hp : LegalPick pick) :
    ∃ st', st.releaseBlock g pick n .failed = .ok st' ∧ Run g (tr ++ [.bad n]) st' ∧
      (n ∈ (st'.queues (g.task n)).readyQueue ↔
        ((tr ++ [Ev.bad n]).count (.bad n) : Int) ≤ g.maxRetries (g.task n)) ∧
      (Dead g (tr ++ [.bad n]) n ↔
        ¬ ((tr ++ [Ev.bad n]).count (.bad n) : Int) ≤ g.maxRetries (g.task n)) ∧
      (st'.states (g.task n)).failed = (st.states (g.task n)).failed +
        (if ((tr ++ [Ev.bad n]).count (.bad n) : Int) ≤ g.maxRetries (g.task n) then 0 else 1) := by
  have hri := h.inv hg
  obtain ⟨st', h1, h2⟩ := hri.release_bad hg hn hp
  have hrun : Run g (tr ++ [.bad n]) st' := Run.bad pick h hn hp h1
  obtain ⟨c, hi⟩ := hri.inv
  obtain ⟨c', hi'⟩ := h2.inv
  have hnn := hi.hNode n hn
  have hnf : ¬ Dead g tr n := hi.hF n hn
  have hdead : Dead g (tr ++ [.bad n]) n ↔
      ¬ ((tr ++ [Ev.bad n]).count (.bad n) : Int) ≤ g.maxRetries (g.task n) := by
    unfold Dead
    constructor
    · rintro ⟨_, h⟩; omega
    · intro h; exact ⟨by simp, by omega⟩
  refine ⟨st', h1, hrun, ?_, hdead, ?_⟩
  · constructor
    · intro hq
      have := (hi'.q_mem (g.task n) n).1 (List.mem_append_right _ hq)
      by_contra hc
      exact this.2.2.2.2.1 (hdead.2 hc)
    · intro hc
      have hnd : ¬ Dead g (tr ++ [.bad n]) n := fun hd => hdead.1 hd hc
      have hq := (hi'.q_mem (g.task n) n).2 ⟨hnn, rfl, fun u hu => (done_bad tr n u).2 (hi.hUp n hn u hu),
        fun hd => hi.hS n hn ((done_bad tr n n).1 hd), hnd, fun hh => ((hri.held_bad n).1 hh).2 rfl⟩
      rcases List.mem_append.1 hq with hq | hq
      · exfalso
        -- a block of the root generator has never been handed out
        have hmax : (tr.count (.bad n) : Int) < g.maxRetries (g.task n) := by
          simp [List.count_append] at hc; omega
        have hskn : ¬ Skipped tr n := fun hs => hi.hS n hn (Or.inr hs)
        have hret := hi.retries n hnn hnf
        unfold Sched.releaseBlock at h1
        rw [Sched.removeFromProcessing_spec hi hn] at h1
        simp only [Sched.modState_queues, Sched.modQueue_queues, if_true, hret] at h1
        rw [if_neg (by omega)] at h1
        cases h1
        have hmem := hi'.q_nodup (g.task n)
        simp [Sched.modQueue_queues, Sched.queueReadyBlock] at hmem hq
        have := (hi.q_mem (g.task n) n).1 (List.mem_append_left _ hq)
        exact this.2.2.2.2.2 hn
      · exact hq
  · rw [hi'.failed, hi.failed]
    by_cases hc : ((tr ++ [Ev.bad n]).count (.bad n) : Int) ≤ g.maxRetries (g.task n)
    · rw [if_pos hc, add_zero]
      apply cnt_congr
      intro x _ _
      rw [dead_bad]
      constructor
      · rintro (hx | ⟨rfl, hx⟩)
        · exact hx
        · simp [List.count_append] at hc; omega
      · exact Or.inl
    · rw [if_neg hc]
      have := cnt_insert hg (g.task n) (Dead g tr) hnn hnf
      rw [if_pos rfl] at this
      rw [← this]
      apply cnt_congr
      intro x _ _
      rw [dead_bad]
      have : g.maxRetries (g.task n) ≤ tr.count (.bad n) := by
        simp [List.count_append] at hc; omega
      simp [this]

/-- A permanently failed block is never handed out or examined again.  Partial: for consistent graphs
(`C18_false_asymmetric` has no consistent graph). -/
theorem C18_dead_is_final_partial (hg : g.OK) (h : Run g tr st) {pre post : List (Ev N)} {n : N}
    (htr : tr = pre ++ post) (hd : Dead g pre n) : .hand n ∉ post ∧ .skip n ∉ post := by
  have hdead : ∀ q, Dead g (pre ++ q) n := by
    intro q
    refine ⟨List.mem_append_left _ hd.1, ?_⟩
    have h1 := hd.2
    rw [List.count_append]
    push_cast
    omega
  constructor
  · intro hm
    obtain ⟨s, t, hst⟩ := List.append_of_mem hm
    exact (C17_never_again_partial hg h (pre := pre ++ s) (post := t) (n := n)
      (Or.inl (by rw [htr, hst]; simp))).2.2 (hdead s)
  · intro hm
    obtain ⟨s, t, hst⟩ := List.append_of_mem hm
    exact (C17_never_again_partial hg h (pre := pre ++ s) (post := t) (n := n)
      (Or.inr (by rw [htr, hst]; simp))).2.2 (hdead s)

/-- In the history of `vee` (one retry) block `0` failed twice and is permanently failed. -/
example : ∃ st, Run Ex.vee Ex.veeTr st ∧ Dead Ex.vee Ex.veeTr 0 ∧ Ex.veeTr.count (.hand 0) = 1 + 1 := by
  obtain ⟨st, h⟩ := Ex.vee_run
  exact ⟨st, h, by decide, by decide⟩

/-! ### C19 -/

/-- C19. At every moment the counters of every task agree with the history.  Partial: for consistent graphs
(`C19_false_asymmetric` has no consistent graph). -/
theorem C19_counters_partial (hg : g.OK) (h : Run g tr st) (t : T) :
    (st.states t).ready = cnt g t (Ready g tr) ∧
    (st.states t).processing = cnt g t (Held tr) ∧
    (st.states t).completed = cnt g t (Done tr) ∧
    (st.states t).skipped = cnt g t (fun n => .skip n ∈ tr) ∧
    (st.states t).failed = cnt g t (Dead g tr) ∧
    (st.states t).total = cnt g t (fun _ => True) := by
  have hri := h.inv hg
  obtain ⟨c, hi⟩ := hri.inv
  refine ⟨?_, hi.processing t, hi.completed t, hi.skipped t, hi.failed t, hi.total t⟩
  rw [hi.ready, cnt_eq_length hg t (Ready g tr) (hi.q_nodup t)]
  · simp
  · intro n
    rw [hri.queue_ready]
    constructor
    · rintro ⟨h1, h2⟩; exact ⟨h1.1, h2, h1⟩
    · rintro ⟨_, h2, h1⟩; exact ⟨h1, h2⟩

/-- The queue of a task holds exactly its ready blocks, each once.  Partial: for consistent graphs
(`C19_false_asymmetric` has no consistent graph). -/
theorem C19_queue_partial (hg : g.OK) (h : Run g tr st) (t : T) :
    ((st.queues t).rootGen ++ (st.queues t).readyQueue).Nodup ∧
    ∀ n, n ∈ (st.queues t).rootGen ++ (st.queues t).readyQueue ↔ Ready g tr n ∧ g.task n = t := by
  have hri := h.inv hg
  obtain ⟨c, hi⟩ := hri.inv
  exact ⟨hi.q_nodup t, fun n => hri.queue_ready t n⟩

/-- The five kinds of blocks are disjoint and, together with the orphans and the blocks that still
wait, make up all blocks: no counter counts a block of another counter.  Partial: for consistent graphs
(`C19_false_asymmetric` has no consistent graph). -/
theorem C19_disjoint_partial (hg : g.OK) (h : Run g tr st) (n : N) :
    (Ready g tr n → ¬ Held tr n ∧ ¬ Done tr n ∧ ¬ Dead g tr n ∧ ¬ Orphan g tr n) ∧
    (Held tr n → ¬ Done tr n ∧ ¬ Dead g tr n ∧ ¬ Orphan g tr n) ∧
    (Done tr n → ¬ Dead g tr n ∧ ¬ Orphan g tr n) ∧ (Dead g tr n → ¬ Orphan g tr n) := by
  have hri := h.inv hg
  obtain ⟨c, hi⟩ := hri.inv
  refine ⟨?_, ?_, ?_, ?_⟩
  · intro hr
    exact ⟨hr.2.2.2.2, hr.2.2.1, hr.2.2.2.1, hi.rs.up_s_not_below hr.2.1⟩
  · intro hh
    exact ⟨hi.hS n hh, hi.hF n hh, hi.rs.up_s_not_below (hi.hUp n hh)⟩
  · intro hd
    exact ⟨hi.rs.disj n hd, fun ho => hi.rs.below_not_s ho hd⟩
  · intro hd ho
    exact hi.rs.below_not_f ho hd

/-- The counters of task 0 of `vee` after the example history. -/
example : ∃ st, Run Ex.vee Ex.veeTr st ∧
    (st.states 0).completed = 1 ∧ (st.states 0).failed = 1 ∧ (st.states 1).skipped = 1 ∧
    (st.states 1).orphaned = 1 := by
  have hx : (exec Ex.vee pickMin Ex.veeActs).map (fun p => (p.1, (p.2.states 0).completed,
      (p.2.states 0).failed, (p.2.states 1).skipped, (p.2.states 1).orphaned)) =
      some (Ex.veeTr, 1, 1, 1, 1) := by decide +kernel
  obtain ⟨tr, st, h, e⟩ := exec_map pickMin_legal _ hx
  simp only [Prod.mk.injEq] at e
  obtain ⟨rfl, e⟩ := e
  exact ⟨st, h, e⟩

/-! ### C20 -/

/-- A task with ready count zero has no ready block. -/
theorem ready_zero_iff (hg : g.OK) (h : Run g tr st) (t : T) :
    (st.states t).ready = 0 ↔ ∀ n, g.task n = t → ¬ Ready g tr n := by
  rw [(C19_counters_partial hg h t).1, cnt_eq_zero]
  constructor
  · intro hz n ht hr
    exact hz n hr.1 ht hr
  · intro hz n _ ht
    exact hz n ht

theorem ready_nonneg (hg : g.OK) (h : Run g tr st) (t : T) : 0 ≤ (st.states t).ready := by
  rw [(C19_counters_partial hg h t).1]; exact cnt_nonneg t _

theorem mem_stateKeys (hg : g.OK) (t : T) : t ∈ Sched.stateKeys g ↔ t ∈ g.tasks := by
  unfold Sched.stateKeys
  rw [List.mem_append, List.mem_filter]
  have := hg.rootTasks_mem t
  by_cases h : t ∈ g.rootTasks
  · simp [h, this h]
  · simp [h]

/-- No task is listed by `get_ready_tasks` iff no block is ready. -/
theorem getReadyTasks_nil (hg : g.OK) (h : Run g tr st) :
    st.getReadyTasks g = [] ↔ ∀ n, ¬ Ready g tr n := by
  unfold Sched.getReadyTasks
  rw [List.filter_eq_nil_iff]
  constructor
  · intro hz n hr
    have h1 := hz (g.task n) ((mem_stateKeys hg _).2 (hg.task_mem n hr.1))
    have h2 := ready_nonneg hg h (g.task n)
    simp only [decide_eq_true_eq] at h1
    exact (ready_zero_iff hg h (g.task n)).1 (by omega) n rfl hr
  · intro hz t _
    have := (ready_zero_iff hg h t).2 (fun n _ => hz n)
    simp [this]

/-- Nothing is ready or held: all blocks are finished. -/
theorem finished_of_idle (hg : g.OK) (hr : ∀ n, ¬ Ready g tr n)
    (hh : ∀ n, ¬ Held tr n) : ∀ n ∈ g.nodes, Done tr n ∨ Dead g tr n ∨ Orphan g tr n := by
  obtain ⟨rank, hrank⟩ := hg.acyclic
  have key : ∀ k n, rank n < k → n ∈ g.nodes → Done tr n ∨ Dead g tr n ∨ Orphan g tr n := by
    intro k
    induction k with
    | zero => intro n hn; omega
    | succ k ih =>
      intro n hn hnn
      by_cases hup : ∀ u ∈ g.up n, Done tr u
      · by_contra hc
        rw [not_or, not_or] at hc
        exact hr n ⟨hnn, hup, hc.1, hc.2.1, hh n⟩
      · push Not at hup
        obtain ⟨u, hu, hud⟩ := hup
        have := hrank n hnn u hu
        right; right
        rcases ih u (by omega) (hg.up_mem n hnn u hu) with h1 | h1 | ⟨f, h1, h2⟩
        · exact absurd h1 hud
        · exact ⟨u, h1, Relation.TransGen.single hu⟩
        · exact ⟨f, h1, Relation.TransGen.tail h2 hu⟩
  exact fun n hn => key (rank n + 1) n (Nat.lt_succ_self _) hn

/-- C20. Whenever `get_ready_tasks` lists no task and no block is held, every block has completed,
has failed permanently, or is downstream of a permanently failed block.  Partial: for consistent graphs
(`C20_false_asymmetric` has no consistent graph). -/
theorem C20_no_block_forgotten_partial (hg : g.OK) (h : Run g tr st) (hr : st.getReadyTasks g = [])
    (hh : ∀ n, ¬ Held tr n) : ∀ n ∈ g.nodes, Done tr n ∨ Dead g tr n ∨ Orphan g tr n :=
  finished_of_idle hg ((getReadyTasks_nil hg h).1 hr) hh

/-- Progress: as long as some block has neither completed, nor failed, nor been orphaned, some block is
held, or some task is listed by `get_ready_tasks` and `acquire_block` on it makes progress: it skips
or hands out at least one block.  Partial: for consistent graphs
(`C20_false_asymmetric` has no consistent graph). -/
theorem C20_progress_partial (hg : g.OK) (h : Run g tr st) {n : N} (hn : n ∈ g.nodes) (h1 : ¬ Done tr n)
    (h2 : ¬ Dead g tr n) (h3 : ¬ Orphan g tr n) :
    (∃ m, Held tr m) ∨ ∃ t ∈ st.getReadyTasks g, ∀ chk, ∃ skips r st',
      st.acquireBlock g chk t = .ok (skips, r, st') ∧ (skips ≠ [] ∨ r ≠ none) := by
  by_cases hh : ∀ n, ¬ Held tr n
  · right
    have hne : st.getReadyTasks g ≠ [] := by
      intro hnil
      rcases C20_no_block_forgotten_partial hg h hnil hh n hn with h | h | h
      · exact h1 h
      · exact h2 h
      · exact h3 h
    obtain ⟨t, ht⟩ := List.exists_mem_of_ne_nil _ hne
    refine ⟨t, ht, fun chk => ?_⟩
    obtain ⟨skips, r, st', f1, _, _, _, f5⟩ := (h.inv hg).acquire hg chk t
    refine ⟨skips, r, st', f1, ?_⟩
    by_contra hc
    rw [not_or, not_not, not_not] at hc
    obtain ⟨rfl, rfl⟩ := hc
    have h6 := (f5 rfl).2
    simp only [List.map_nil, List.append_nil] at h6
    have h7 := (ready_zero_iff hg h t).2 h6
    unfold Sched.getReadyTasks at ht
    have h8 := (List.mem_filter.1 ht).2
    simp [h7] at h8
  · left
    push Not at hh
    exact hh

/-- After the example history nothing is ready or held, and block `2` is an orphan. -/
example : ∃ st, Run Ex.vee Ex.veeTr st ∧ st.getReadyTasks Ex.vee = [] ∧ (∀ n, ¬ Held Ex.veeTr n) ∧
    Orphan Ex.vee Ex.veeTr 2 := by
  obtain ⟨st, h⟩ := Ex.vee_run
  exact ⟨st, h, (getReadyTasks_nil Ex.vee_ok h).2 (by decide), by decide, 0, by decide,
    Relation.TransGen.single (by unfold Edge; decide)⟩

end Verif
