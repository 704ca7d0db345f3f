import Verif.Proofs.StarvedRun
import Verif.Props.Outcome

/-! # Blocks that depend on nothing although their task depends on others: C15–C24, C27

`DGraph.OK` asks that every block of a task that requires others has an upstream block.  The theorems here do without
(`DGraph.Loose`): a block without upstream blocks is never handed out (it is not a root, `scheduler.py` 52-59, and no
other block makes it ready), nor is what comes after it; everything else is as for the other graphs. -/

set_option linter.unusedSectionVars false

namespace Verif

open Spec

variable {N T K : Type} [DecidableEq N] [DecidableEq T] [DecidableEq K] {g : DGraph N T K}
variable {tr : List (Ev N)} {st : Sched N T K}

theorem cnt_fed (t : T) (P : Option N → Prop) : cnt g.fed (some t) P = cnt g t (fun n => P (some n)) := by
  unfold cnt
  rw [show g.fed.nodes = none :: g.nodes.map some from rfl, List.countP_cons, List.countP_map]
  have h1 : ¬ (g.fed.task none = some t ∧ P none) := by
    rintro ⟨h, _⟩
    cases h
  simp only [h1, decide_false, Bool.false_eq_true, if_false, Nat.add_zero]
  congr 1
  refine List.countP_congr (fun n _ => ?_)
  refine (@decide_eq_true_iff _ (Classical.propDecidable _)).trans (Iff.trans ?_
    (@decide_eq_true_iff _ (Classical.propDecidable _)).symm)
  simp [DGraph.fed]

theorem mem_lift {e : Ev N} : e.lift ∈ tr.map Ev.lift ↔ e ∈ tr := List.mem_map_of_injective Ev.lift_inj

theorem not_done_none : ¬ Done (tr.map Ev.lift) none := by
  rintro (h | h) <;> exact none_not _ h rfl

theorem not_dead_none : ¬ Dead g.fed (tr.map Ev.lift) none := fun h => none_not _ h.1 rfl

theorem not_held_none : ¬ Held (tr.map Ev.lift) none := by
  intro h
  have : Ev.hand none ∈ tr.map Ev.lift := List.count_pos_iff.1 (by unfold Held at h; omega)
  exact none_not _ this rfl

theorem ready_lift {n : N} : Ready g.fed (tr.map Ev.lift) (some n) ↔ Ready g tr n ∧ ¬ Starved g n := by
  unfold Ready
  rw [mem_fed, done_lift, dead_lift, held_lift]
  by_cases hs : Starved g n
  · rw [fed_up_starved hs]
    constructor
    · rintro ⟨_, h, _⟩
      exact absurd (h none List.mem_cons_self) not_done_none
    · rintro ⟨_, h⟩
      exact absurd hs h
  · rw [fed_up hs]
    simp only [List.forall_mem_map, done_lift]
    exact ⟨fun h => ⟨h, hs⟩, fun h => h.1⟩

theorem orphan_lift {n : N} : Orphan g.fed (tr.map Ev.lift) (some n) ↔ Orphan g tr n := by
  constructor
  · rintro ⟨f, h1, h2⟩
    rcases f with _ | f
    · exact absurd h1 not_dead_none
    · exact ⟨f, dead_lift.1 h1, anc_fed.1 h2⟩
  · rintro ⟨f, h1, h2⟩
    exact ⟨some f, dead_lift.2 h1, anc_fed.2 h2⟩

/-! ### Blocks that are never handed out -/

/-- Whatever happens, nothing ever happens to a starved block or one that comes after it: it is not handed out, not
examined by the check function, and does not complete or fail. -/
theorem C27_hungry_never (hg : g.Loose) (h : Run g tr st) {n : N} (hn : Hungry g n) : ∀ e ∈ tr, e.node ≠ n := by
  obtain ⟨h1, _, _⟩ := run_lift hg h
  have hok := fed_ok hg
  have ha : Anc g.fed none (some n) := anc_none.2 hn
  have first : ∀ e ∈ tr.map Ev.lift, e = .hand (some n) ∨ e = .skip (some n) → False := by
    intro e he hh
    obtain ⟨pre, post, hs⟩ := List.append_of_mem he
    have hd : Done pre none := by
      rcases hh with rfl | rfl
      · exact C15_dependency_order hok h1 hs ha
      · exact C15_skipped hok h1 hs ha
    have : Done (tr.map Ev.lift) none := by
      rw [hs]
      exact hd.imp (List.mem_append_left _) (List.mem_append_left _)
    exact not_done_none this
  intro e he hen
  have hl := h1.legal hok
  obtain ⟨pre, post, hs⟩ := List.append_of_mem (mem_lift.2 he)
  have hal := hl pre e.lift post hs
  have held : Held pre (some n) → False := by
    intro hh
    have : Ev.hand (some n) ∈ pre := List.count_pos_iff.1 (by unfold Held at hh; omega)
    exact first _ (by rw [hs]; exact List.mem_append_left _ this) (Or.inl rfl)
  rcases e with a | a | a | a <;> cases hen
  · exact first _ (mem_lift.2 he) (Or.inr rfl)
  · exact first _ (mem_lift.2 he) (Or.inl rfl)
  · exact held hal
  · exact held hal

/-- The initial state and everything after it: a starved block is never in a queue. -/
theorem C19_starved_not_queued (hg : g.Loose) (h : Run g tr st) {n : N} (hn : Hungry g n) (t : T) :
    n ∉ (st.queues t).rootGen ++ (st.queues t).readyQueue := by
  obtain ⟨h1, _, _⟩ := run_lift hg h
  intro hm
  have h2 := ((C19_queue_partial (fed_ok hg) h1 (some t)).2 (some n)).1 (by
    show some n ∈ (st.queues t).rootGen.map some ++ (st.queues t).readyQueue.map some
    rw [← List.map_append]
    exact List.mem_map_of_mem hm)
  have h3 := legal_anc_done (h1.legal (fed_ok hg)) h2.1.2.1 (anc_none.2 hn)
  exact not_done_none h3

/-! ### Everything else -/

theorem C15_loose (hg : g.Loose) (h : Run g tr st) {pre post : List (Ev N)} {n a : N}
    (htr : tr = pre ++ .hand n :: post ∨ tr = pre ++ .skip n :: post) (ha : Anc g a n) : Done pre a := by
  obtain ⟨h1, _, _⟩ := run_lift hg h
  rw [← done_lift]
  rcases htr with rfl | rfl
  · exact C15_dependency_order (fed_ok hg) h1 (by rw [List.map_append]; rfl) (anc_fed.2 ha)
  · exact C15_skipped (fed_ok hg) h1 (by rw [List.map_append]; rfl) (anc_fed.2 ha)

/-- C17, as `C17_never_again_partial`. -/
theorem C17_loose_partial (hg : g.Loose) (h : Run g tr st) {pre post : List (Ev N)} {n : N}
    (htr : tr = pre ++ .hand n :: post ∨ tr = pre ++ .skip n :: post) :
    ¬ Held pre n ∧ ¬ Done pre n ∧ ¬ Dead g pre n := by
  obtain ⟨h1, _, _⟩ := run_lift hg h
  rw [← done_lift, ← held_lift, ← dead_lift]
  refine C17_never_again_partial (fed_ok hg) h1 (pre := pre.map Ev.lift) (post := post.map Ev.lift) ?_
  rcases htr with rfl | rfl
  · exact Or.inl (by rw [List.map_append]; rfl)
  · exact Or.inr (by rw [List.map_append]; rfl)

theorem count_lift (e : Ev N) : (tr.map Ev.lift).count e.lift = tr.count e :=
  List.count_map_of_injective _ _ Ev.lift_inj _

/-- C17, as `C17_once_partial`. -/
theorem C17_loose_once_partial (hg : g.Loose) (h : Run g tr st) (n : N) :
    tr.count (.good n) + tr.count (.skip n) ≤ 1 ∧
    tr.count (.hand n) ≤ tr.count (.good n) + tr.count (.bad n) + 1 := by
  obtain ⟨h1, _, _⟩ := run_lift hg h
  have := C17_once_partial (fed_ok hg) h1 (some n)
  rw [← show Ev.lift (.good n) = Ev.good (some n) from rfl, ← show Ev.lift (.bad n) = Ev.bad (some n) from rfl,
    ← show Ev.lift (.hand n) = Ev.hand (some n) from rfl, ← show Ev.lift (.skip n) = Ev.skip (some n) from rfl,
    count_lift, count_lift, count_lift, count_lift] at this
  exact this

/-- C18, as `C18_attempts_partial`. -/
theorem C18_loose_partial (hg : g.Loose) (h : Run g tr st) (n : N) :
    tr.count (.hand n) ≤ (g.maxRetries (g.task n)).toNat + 1 := by
  obtain ⟨h1, _, _⟩ := run_lift hg h
  have := C18_attempts_partial (fed_ok hg) h1 (some n)
  rw [← show Ev.lift (.hand n) = Ev.hand (some n) from rfl, count_lift] at this
  exact this

/-- C19, as `C19_counters_partial`, except that a starved block is not ready. -/
theorem C19_loose_partial (hg : g.Loose) (h : Run g tr st) (t : T) :
    (st.states t).ready = cnt g t (fun n => Ready g tr n ∧ ¬ Starved g n) ∧
    (st.states t).processing = cnt g t (Held tr) ∧
    (st.states t).completed = cnt g t (Done tr) ∧
    (st.states t).skipped = cnt g t (fun n => .skip n ∈ tr) ∧
    (st.states t).failed = cnt g t (Dead g tr) ∧
    (st.states t).total = cnt g t (fun _ => True) := by
  obtain ⟨h1, _, _⟩ := run_lift hg h
  have := C19_counters_partial (fed_ok hg) h1 (some t)
  simp only [cnt_fed, ready_lift, held_lift, done_lift, dead_lift] at this
  have hs : ∀ n : N, Ev.skip (some n) ∈ tr.map Ev.lift ↔ Ev.skip n ∈ tr := fun n => mem_lift (e := .skip n)
  simp only [hs] at this
  exact this

/-- C19, as `C19_disjoint_partial`. -/
theorem C19_loose_disjoint_partial (hg : g.Loose) (h : Run g tr st) (n : N) :
    (Ready g tr n → ¬ Starved g n → ¬ Held tr n ∧ ¬ Done tr n ∧ ¬ Dead g tr n ∧ ¬ Orphan g tr n) ∧
    (Held tr n → ¬ Done tr n ∧ ¬ Dead g tr n ∧ ¬ Orphan g tr n) ∧
    (Done tr n → ¬ Dead g tr n ∧ ¬ Orphan g tr n) ∧ (Dead g tr n → ¬ Orphan g tr n) := by
  obtain ⟨h1, _, _⟩ := run_lift hg h
  have := C19_disjoint_partial (fed_ok hg) h1 (some n)
  simp only [ready_lift, held_lift, done_lift, dead_lift, orphan_lift] at this
  exact ⟨fun a b => this.1 ⟨a, b⟩, this.2⟩

theorem mem_keys (hg : g.Loose) (t : T) : t ∈ Sched.stateKeys g ↔ t ∈ g.tasks := by
  unfold Sched.stateKeys
  rw [List.mem_append, List.mem_filter]
  have := hg.rootTasks_mem t
  by_cases h : t ∈ g.rootTasks
  · simp [h, this h]
  · simp [h]

/-- No task is listed iff no block that is not starved is ready. -/
theorem loose_idle (hg : g.Loose) (h : Run g tr st) :
    st.getReadyTasks g = [] ↔ ∀ n, Ready g tr n → Starved g n := by
  have hc := fun t => (C19_loose_partial hg h t).1
  unfold Sched.getReadyTasks
  rw [List.filter_eq_nil_iff]
  constructor
  · intro hz n hr
    by_contra hs
    have h1 := hz (g.task n) ((mem_keys hg _).2 (hg.task_mem n hr.1))
    have h2 := cnt_nonneg (g := g) (g.task n) (fun n => Ready g tr n ∧ ¬ Starved g n)
    simp only [decide_eq_true_eq] at h1
    rw [← hc] at h2
    have h3 : (st.states (g.task n)).ready = 0 := by omega
    rw [hc, cnt_eq_zero] at h3
    exact h3 n hr.1 rfl ⟨hr, hs⟩
  · intro hz t _
    have : (st.states t).ready = 0 := by
      rw [hc, cnt_eq_zero]
      rintro n _ _ ⟨h1, h2⟩
      exact h2 (hz n h1)
    simp [this]

/-- C24, as `C24_never_raises_partial`. -/
theorem C24_loose_partial (hg : g.Loose) (h : Run g tr st) :
    (∀ (chk : Nat → N → Check) (t : T), ∃ res, st.acquireBlock g chk t = .ok res) ∧
    (∀ (pick : Nat → Finset N → N) (n : N), LegalPick pick → Held tr n →
      (∃ st', st.releaseBlock g pick n .success = .ok st') ∧
      (∃ st', st.releaseBlock g pick n .failed = .ok st')) := by
  obtain ⟨h1, h2, h3⟩ := run_lift hg h
  obtain ⟨c1, c2⟩ := C24_never_raises_partial (fed_ok hg) h1
  constructor
  · intro chk t
    obtain ⟨⟨sk, r, st'⟩, hr⟩ := c1 (Sched.liftChk chk) (some t)
    have hrun := Run.acquire (Sched.liftChk chk) (some t) h1 hr
    unfold Sched.acquireBlock at hr ⊢
    obtain ⟨l1, _⟩ := Sched.acquireLoop_lift hg t chk (g.nodes.length + 1) 0 st [] h2 (by intro n hn; cases hn)
    rw [List.map_nil] at l1
    rw [show g.fed.nodes.length + 1 = g.nodes.length + 1 + 1 by simp [DGraph.fed]] at hr
    rcases hx : Sched.acquireLoop g t (g.nodes.length + 1) chk 0 st [] with e | res
    · exfalso
      rw [hx] at l1
      rcases Sched.acquireLoop_more (g := g.fed) (some t) (Sched.liftChk chk) 1 (g.nodes.length + 1) 0 st.lift [] with h4 | ⟨_, h4⟩
      · rw [h4, l1] at hr
        cases hr
      · have h5 := h4 _ hr
        simp only [List.length_nil, Nat.zero_add] at h5
        have hone := fun n => (C17_once_partial (fed_ok hg) hrun n).1
        have hnd : sk.Nodup := by
          rw [List.nodup_iff_count_le_one]
          intro n
          have := hone n
          have h6 : sk.count n ≤ (tr.map Ev.lift ++ acquireEvents sk r).count (.skip n) := by
            unfold acquireEvents
            rw [List.count_append, List.count_append,
              ← List.count_map_of_injective sk Ev.skip (fun a b h => by injection h) n]
            omega
          omega
        obtain ⟨l3, l4⟩ := Sched.acquireLoop_lift hg t chk (g.nodes.length + 1 + 1) 0 st [] h2 (by intro n hn; cases hn)
        rw [List.map_nil, hr] at l3
        rcases hy : Sched.acquireLoop g t (g.nodes.length + 1 + 1) chk 0 st [] with e | ⟨sk0, r0, st0⟩
        · rw [hy] at l3; cases l3
        · rw [hy] at l3
          have hsk : sk = sk0.map some := congrArg (fun x => x.1) (Except.ok.inj l3)
          obtain ⟨_, l5, _⟩ := l4 sk0 r0 st0 hy
          rw [hsk, List.length_map] at h5
          rw [hsk] at hnd
          have h6 := (hnd.of_map some).length_le_of_subset (l₂ := g.nodes) (fun n hn => (l5 n hn).1)
          omega
    · exact ⟨res, rfl⟩
  · intro pick n hp hn
    have hf : Fine g n := by
      have : Ev.hand n ∈ tr := List.count_pos_iff.1 (by unfold Held at hn; omega)
      exact h3 _ this
    obtain ⟨⟨st1, h4⟩, ⟨st2, h5⟩⟩ := c2 (RS.liftPick pick) (some n) (RS.liftPick_legal hp) (held_lift.2 hn)
    rw [Sched.release_good_lift hg hf pick] at h4
    rw [Sched.release_bad_lift hg hf hp] at h5
    constructor
    · rcases hx : st.releaseBlock g pick n .success with e | x
      · rw [hx] at h4; cases h4
      · exact ⟨x, rfl⟩
    · rcases hx : st.releaseBlock g pick n .failed with e | x
      · rw [hx] at h5; cases h5
      · exact ⟨x, rfl⟩

/-! ### What the servers rely on -/

theorem acquire_lift (hg : g.Loose) (h : Run g tr st) {chk : Nat → N → Check} {t : T} {skips : List N} {r : Option N}
    {st' : Sched N T K} (hacq : st.acquireBlock g chk t = .ok (skips, r, st')) :
    st.lift.acquireBlock g.fed (Sched.liftChk chk) (some t) = .ok (skips.map some, r.map some, st'.lift) := by
  obtain ⟨h1, h2, _⟩ := run_lift hg h
  obtain ⟨l1, l2⟩ := Sched.acquireLoop_lift hg t chk (g.nodes.length + 1) 0 st [] h2 (by intro n hn; cases hn)
  unfold Sched.acquireBlock at hacq
  rw [hacq, List.map_nil] at l1
  unfold Sched.acquireBlock
  rw [show g.fed.nodes.length + 1 = g.nodes.length + 1 + 1 by simp [DGraph.fed]]
  rcases Sched.acquireLoop_more (g := g.fed) (some t) (Sched.liftChk chk) 1 (g.nodes.length + 1) 0 st.lift [] with h | ⟨h, _⟩
  · rw [h]; exact l1
  · rw [h] at l1; cases l1

theorem acquireEvents_lift (skips : List N) (r : Option N) :
    (acquireEvents skips r).map Ev.lift = acquireEvents (skips.map some) (r.map some) := by
  unfold acquireEvents
  rw [List.map_append, List.map_map, List.map_map]
  rcases r with _ | r <;> rfl

/-- Every event was allowed when it happened. -/
theorem loose_legal (hg : g.Loose) (h : Run g tr st) : Legal g tr := by
  obtain ⟨h1, _, _⟩ := run_lift hg h
  have hl := h1.legal (fed_ok hg)
  rintro pre e post rfl
  have := hl (pre.map Ev.lift) e.lift (post.map Ev.lift) (by rw [List.map_append]; rfl)
  rcases e with a | a | a | a
  · exact (ready_lift.1 this).1
  · exact (ready_lift.1 this).1
  · exact held_lift.1 this
  · exact held_lift.1 this

theorem loose_held_good (hg : g.Loose) (h : Run g tr st) {n : N} (x : N) :
    Held (tr ++ [.good n]) x ↔ Held tr x ∧ x ≠ n := by
  have := ((run_lift hg h).1.inv (fed_ok hg)).held_good (n := some n) (some x)
  rw [← held_lift, List.map_append, ← held_lift (tr := tr)]
  refine Iff.trans this ?_
  simp

theorem loose_held_bad (hg : g.Loose) (h : Run g tr st) {n : N} (x : N) :
    Held (tr ++ [.bad n]) x ↔ Held tr x ∧ x ≠ n := by
  have := ((run_lift hg h).1.inv (fed_ok hg)).held_bad (n := some n) (some x)
  rw [← held_lift, List.map_append, ← held_lift (tr := tr)]
  refine Iff.trans this ?_
  simp

/-- What the events of an execution have in common with those of the others. -/
structure RunFacts (g : DGraph N T K) (tr : List (Ev N)) : Prop where
  bal : ∀ n, tr.count (.good n) + tr.count (.bad n) ≤ tr.count (.hand n) ∧
    tr.count (.hand n) ≤ tr.count (.good n) + tr.count (.bad n) + 1
  hands : ∀ n, tr.count (.hand n) ≤ (g.maxRetries (g.task n)).toNat + 1
  once : ∀ n, tr.count (.good n) + tr.count (.skip n) ≤ 1
  node : ∀ e ∈ tr, e.node ∈ g.nodes
  held_iff : ∀ n, Held tr n ↔ tr.count (.hand n) = tr.count (.good n) + tr.count (.bad n) + 1
  held_good : ∀ {n} x, Held (tr ++ [.good n]) x ↔ Held tr x ∧ x ≠ n
  held_bad : ∀ {n} x, Held (tr ++ [.bad n]) x ↔ Held tr x ∧ x ≠ n

theorem Run.facts (hg : g.Loose) (h : Run g tr st) : RunFacts g tr := by
  have hi := (run_lift hg h).1.inv (fed_ok hg)
  have e1 : ∀ n, (tr.map Ev.lift).count (.good (some n)) = tr.count (.good n) := fun n => count_lift (.good n)
  have e2 : ∀ n, (tr.map Ev.lift).count (.bad (some n)) = tr.count (.bad n) := fun n => count_lift (.bad n)
  have e3 : ∀ n, (tr.map Ev.lift).count (.hand (some n)) = tr.count (.hand n) := fun n => count_lift (.hand n)
  have e4 : ∀ n, (tr.map Ev.lift).count (.skip (some n)) = tr.count (.skip n) := fun n => count_lift (.skip n)
  have hbal : ∀ n, tr.count (.good n) + tr.count (.bad n) ≤ tr.count (.hand n) ∧
      tr.count (.hand n) ≤ tr.count (.good n) + tr.count (.bad n) + 1 := by
    intro n
    have := hi.bal (some n)
    rwa [e1, e2, e3] at this
  refine ⟨hbal, ?_, ?_, ?_, ?_, fun x => loose_held_good hg h x, fun x => loose_held_bad hg h x⟩
  · intro n
    have := hi.hands (some n)
    rw [e3] at this
    exact this
  · intro n
    have := hi.once (some n)
    rwa [e1, e4] at this
  · intro e he
    have := hi.node e.lift (mem_lift.2 he)
    rcases e with a | a | a | a <;> exact mem_fed.1 this
  · intro n
    have := hbal n
    unfold Held
    omega

/-- C15, as `C15_task`. -/
theorem C15_loose_task (hg : g.Loose) (h : Run g tr st) {chk : Nat → N → Check} {t : T} {skips : List N}
    {n : N} {st' : Sched N T K} (hacq : st.acquireBlock g chk t = .ok (skips, some n, st')) :
    n ∈ g.nodes ∧ g.task n = t ∧ Held (tr ++ acquireEvents skips (some n)) n := by
  obtain ⟨h1, h2, h3⟩ := C15_task (fed_ok hg) (run_lift hg h).1 (acquire_lift hg h hacq)
  refine ⟨mem_fed.1 h1, Option.some.inj h2, ?_⟩
  rw [← held_lift, List.map_append, acquireEvents_lift]
  exact h3

/-- C26, as `C26_ready_tasks`. -/
theorem C26_loose_ready_tasks (hg : g.Loose) (h : Run g tr st) (t : T) :
    t ∈ st.getReadyTasks g ↔ ∃ n, g.task n = t ∧ Ready g tr n ∧ ¬ Starved g n := by
  have hc := (C19_loose_partial hg h t).1
  have h0 := cnt_nonneg (g := g) t (fun n => Ready g tr n ∧ ¬ Starved g n)
  unfold Sched.getReadyTasks
  rw [List.mem_filter, decide_eq_true_eq, mem_keys hg]
  constructor
  · rintro ⟨_, h2⟩
    by_contra hn
    have : (st.states t).ready = 0 := by
      rw [hc, cnt_eq_zero]
      exact fun n _ h3 h4 => hn ⟨n, h3, h4⟩
    omega
  · rintro ⟨n, rfl, h2⟩
    refine ⟨hg.task_mem n h2.1.1, ?_⟩
    by_contra hn
    have h3 : (st.states (g.task n)).ready = 0 := by omega
    rw [hc, cnt_eq_zero] at h3
    exact h3 n h2.1.1 rfl h2

/-- C26, as `C26_acquire_none`. -/
theorem C26_loose_acquire_none (hg : g.Loose) (h : Run g tr st) {chk : Nat → N → Check} {t : T}
    {skips : List N} {r : Option N} {st' : Sched N T K}
    (hacq : st.acquireBlock g chk t = .ok (skips, r, st')) :
    (r = none → (st'.states t).ready = 0 ∧
      ∀ n, g.task n = t → Ready g (tr ++ acquireEvents skips r) n → Starved g n) ∧
    (t ∈ st.getReadyTasks g ↔ skips ≠ [] ∨ r ≠ none) := by
  obtain ⟨h1, h2⟩ := C26_acquire_none (fed_ok hg) (run_lift hg h).1 (acquire_lift hg h hacq)
  constructor
  · rintro rfl
    obtain ⟨h3, h4⟩ := h1 rfl
    refine ⟨h3, fun n hn hr => ?_⟩
    by_contra hs
    refine h4 (some n) (congrArg some hn) ?_
    rw [← acquireEvents_lift, ← List.map_append, ready_lift]
    exact ⟨hr, hs⟩
  · rw [C26_loose_ready_tasks hg h]
    rw [C26_ready_tasks (fed_ok hg) (run_lift hg h).1] at h2
    constructor
    · rintro ⟨n, h3, h4⟩
      have := h2.1 ⟨some n, congrArg some h3, ready_lift.2 h4⟩
      simpa using this
    · intro h3
      obtain ⟨n, h4, h5⟩ := h2.2 (by simpa using h3)
      rcases n with _ | n
      · cases h4
      · exact ⟨n, Option.some.inj h4, ready_lift.1 h5⟩

/-- C25, as `C25_check_function`. -/
theorem C25_loose (hg : g.Loose) (h : Run g tr st) (chk : Nat → N → Check) (t : T) :
    ∃ skips r st', st.acquireBlock g chk t = .ok (skips, r, st') ∧
      Run g (tr ++ acquireEvents skips r) st' ∧
      (∀ i x, skips[i]? = some x → chk i x = .accept ∧ g.task x = t ∧
        Ready g (tr ++ (skips.take i).map .skip) x ∧ Done (tr ++ acquireEvents skips r) x ∧
        .hand x ∉ acquireEvents skips r) ∧
      (∀ n, r = some n → (chk skips.length n = .reject ∨ chk skips.length n = .raises) ∧
        Held (tr ++ acquireEvents skips r) n) := by
  obtain ⟨⟨skips, r, st'⟩, hacq⟩ := (C24_loose_partial hg h).1 chk t
  obtain ⟨sk, r', st2, f1, f2, f3, f4⟩ := C25_check_function (fed_ok hg) (run_lift hg h).1 (Sched.liftChk chk) (some t)
  rw [acquire_lift hg h hacq] at f1
  cases f1
  refine ⟨skips, r, st', hacq, Run.acquire chk t h hacq, ?_, ?_⟩
  · intro i x hx
    obtain ⟨a1, a2, a3, a4, a5⟩ := f3 i (some x) (by rw [List.getElem?_map, hx]; rfl)
    refine ⟨a1, Option.some.inj a2, ?_, ?_, ?_⟩
    · refine (ready_lift.1 (?_ : Ready g.fed ((tr ++ (skips.take i).map Ev.skip).map Ev.lift) (some x))).1
      rw [List.map_append]
      rw [← List.map_take, List.map_map] at a3
      rw [List.map_map]
      exact a3
    · rw [← done_lift, List.map_append, acquireEvents_lift]
      exact a4
    · intro hh
      refine a5 ?_
      rw [← acquireEvents_lift]
      exact mem_lift.2 hh
  · rintro n rfl
    obtain ⟨a1, a2⟩ := f4 (some n) rfl
    rw [List.length_map] at a1
    refine ⟨a1, ?_⟩
    rw [← held_lift, List.map_append, acquireEvents_lift]
    exact a2

/-- C15, as `C15_dependency_order`. -/
theorem loose_order (hg : g.Loose) (h : Run g tr st) {pre post : List (Ev N)} {n a : N}
    (htr : tr = pre ++ .hand n :: post) (ha : Anc g a n) : Done pre a :=
  C15_loose hg h (Or.inl htr) ha

/-- C15, as `C15_skipped`. -/
theorem loose_skipped (hg : g.Loose) (h : Run g tr st) {pre post : List (Ev N)} {n a : N}
    (htr : tr = pre ++ .skip n :: post) (ha : Anc g a n) : Done pre a :=
  C15_loose hg h (Or.inr htr) ha

theorem not_starved (hg : g.OK) (n : N) : ¬ Starved g n := fun h => hg.other_tasks n h.1 h.2.2 h.2.1

theorem fed_anc_none {x : Option N} : ¬ Anc g.fed x none := by
  intro h
  cases h with
  | single h => cases (show x ∈ ([] : List (Option N)) from h)
  | tail _ h => cases (show _ ∈ ([] : List (Option N)) from h)

theorem exact_lift (hx : OrphanExact g tr) : OrphanExact g.fed (tr.map Ev.lift) := by
  intro n hn
  rcases n with _ | n
  · exact Or.inl fun f f' _ _ ha => absurd ha fed_anc_none
  rcases hx n (mem_fed.1 hn) with hx | hx
  · left
    rintro f f' hf hf' ha ha'
    rcases f with _ | f
    · exact absurd hf not_dead_none
    rcases f' with _ | f'
    · exact absurd hf' not_dead_none
    rw [hx f f' (dead_lift.1 hf) (dead_lift.1 hf') (anc_fed.1 ha) (anc_fed.1 ha')]
  · right
    intro u hu p hp q hq h1 h2 h3 h4 h5
    by_cases hs : Starved g n
    · rw [fed_up_starved hs] at hu hp
      exact absurd ((List.mem_singleton.1 hu).trans (List.mem_singleton.1 hp).symm) h1
    · rw [fed_up hs] at hu hp hq
      obtain ⟨u, hu', rfl⟩ := List.mem_map.1 hu
      obtain ⟨p, hp', rfl⟩ := List.mem_map.1 hp
      obtain ⟨q, hq', rfl⟩ := List.mem_map.1 hq
      rw [hx u hu' p hp' q hq' (fun e => h1 (e ▸ rfl)) (fun e => h2 (e ▸ rfl)) (done_lift.1 h3)
        (h4.imp dead_lift.1 orphan_lift.1) (h5.imp dead_lift.1 orphan_lift.1)]

/-- C22, as `C22_is_done_partial`. -/
theorem C22_loose_is_done_partial (hg : g.Loose) (h : Run g tr st) (hx : OrphanExact g tr) (t : T) :
    (st.states t).isDone = true ↔
      ∀ n ∈ g.nodes, g.task n = t → Done tr n ∨ Dead g tr n ∨ Orphan g tr n := by
  have := C22_is_done_partial (fed_ok hg) (run_lift hg h).1 (exact_lift hx) (some t)
  refine Iff.trans this ?_
  constructor
  · intro h1 n hn ht
    have := h1 (some n) (mem_fed.2 hn) (congrArg some ht)
    rwa [done_lift, dead_lift, orphan_lift] at this
  · rintro h1 (_ | n) hn ht
    · cases ht
    · rw [done_lift, dead_lift, orphan_lift]
      exact h1 n (mem_fed.1 hn) (Option.some.inj ht)

/-- C22, as `C22_orphan_count_partial`. -/
theorem C22_loose_orphan_count_partial (hg : g.Loose) (h : Run g tr st) (hx : OrphanExact g tr) (t : T) :
    (st.states t).orphaned = cnt g t (Orphan g tr) := by
  have := C22_orphan_count_partial (fed_ok hg) (run_lift hg h).1 (exact_lift hx) (some t)
  simp only [cnt_fed, orphan_lift] at this
  exact this

/-- C22, as `C22_pending_partial`, except that a starved block is not ready. -/
theorem C22_loose_pending_partial (hg : g.Loose) (h : Run g tr st) (hx : OrphanExact g tr) (t : T) :
    (st.states t).pending = cnt g t (fun n => ¬ (Done tr n ∨ Dead g tr n ∨ Orphan g tr n) ∧
      ¬ (Ready g tr n ∧ ¬ Starved g n) ∧ ¬ Held tr n) := by
  have := C22_pending_partial (fed_ok hg) (run_lift hg h).1 (exact_lift hx) (some t)
  simp only [cnt_fed, orphan_lift, ready_lift, held_lift, done_lift, dead_lift] at this
  exact this

/-- What `acquire_block` does, in the words of the history. -/
theorem loose_acquire (hg : g.Loose) (h : Run g tr st) (chk : Nat → N → Check) (t : T) :
    ∃ skips r st', st.acquireBlock g chk t = .ok (skips, r, st') ∧ Run g (tr ++ acquireEvents skips r) st' ∧
      (∀ i x, skips[i]? = some x → Ready g (tr ++ (skips.take i).map .skip) x ∧ g.task x = t ∧ chk i x = .accept) ∧
      (∀ n, r = some n → Ready g (tr ++ skips.map .skip) n ∧ g.task n = t ∧ chk skips.length n ≠ .accept) ∧
      (r = none → (st'.states t).ready = 0 ∧ ∀ n, g.task n = t → Ready g (tr ++ skips.map .skip) n → Starved g n) := by
  obtain ⟨skips, r, st', f1, f2, f3, f4⟩ := C25_loose hg h chk t
  refine ⟨skips, r, st', f1, f2, fun i x hx => ⟨(f3 i x hx).2.2.1, (f3 i x hx).2.1, (f3 i x hx).1⟩, ?_, ?_⟩
  · rintro n rfl
    refine ⟨?_, (C15_loose_task hg h f1).2.1, ?_⟩
    · exact loose_legal hg f2 (tr ++ skips.map .skip) (.hand n) [] (by simp [acquireEvents])
    · rcases (f4 n rfl).1 with e | e <;> rw [e] <;> simp
  · rintro rfl
    obtain ⟨h1, h2⟩ := (C26_loose_acquire_none hg h f1).1 rfl
    refine ⟨h1, fun n hn hr => h2 n hn ?_⟩
    simpa [acquireEvents] using hr

/-- C22, as `C22_orphan_count_lower`. -/
theorem C22_loose_orphan_count_lower (hg : g.Loose) (h : Run g tr st) (t : T) :
    cnt g t (Orphan g tr) ≤ (st.states t).orphaned ∧
    ((st.states t).orphaned = 0 ↔ ∀ n ∈ g.nodes, g.task n = t → ¬ Orphan g tr n) := by
  obtain ⟨h1, h2⟩ := C22_orphan_count_lower (fed_ok hg) (run_lift hg h).1 (some t)
  simp only [cnt_fed, orphan_lift] at h1
  refine ⟨h1, Iff.trans h2 ⟨fun h3 n hn ht => ?_, ?_⟩⟩
  · have := h3 (some n) (mem_fed.2 hn) (congrArg some ht)
    rwa [orphan_lift] at this
  · rintro h3 (_ | n) hn ht
    · cases ht
    · rw [orphan_lift]
      exact h3 n (mem_fed.1 hn) (Option.some.inj ht)

/-- C22, as `C22_is_done_no_orphans`. -/
theorem C22_loose_is_done_no_orphans (hg : g.Loose) (h : Run g tr st) (t : T)
    (ho : ∀ n ∈ g.nodes, g.task n = t → ¬ Orphan g tr n) :
    (st.states t).isDone = true ↔ ∀ n ∈ g.nodes, g.task n = t → Done tr n ∨ Dead g tr n := by
  have := C22_is_done_no_orphans (fed_ok hg) (run_lift hg h).1 (some t) (by
    rintro (_ | m) hm ht
    · cases ht
    · rw [orphan_lift]
      exact ho m (mem_fed.1 hm) (Option.some.inj ht))
  refine Iff.trans this ?_
  constructor
  · intro h1 n hn ht
    have := h1 (some n) (mem_fed.2 hn) (congrArg some ht)
    rwa [done_lift, dead_lift] at this
  · rintro h1 (_ | n) hn ht
    · cases ht
    · rw [done_lift, dead_lift]
      exact h1 n (mem_fed.1 hn) (Option.some.inj ht)

theorem loose_ready_zero (hg : g.Loose) (h : Run g tr st) (t : T) :
    (st.states t).ready = 0 ↔ ∀ n, g.task n = t → Ready g tr n → Starved g n := by
  rw [(C19_loose_partial hg h t).1, cnt_eq_zero]
  constructor
  · intro h1 n ht hr
    by_contra hs
    exact h1 n hr.1 ht ⟨hr, hs⟩
  · rintro h1 n _ ht ⟨hr, hs⟩
    exact hs (h1 n ht hr)

theorem loose_proc (hg : g.Loose) (h : Run g tr st) (t : T) (k : K) :
    k ∈ (st.queues t).processing ↔ ∃ n, Held tr n ∧ g.task n = t ∧ g.key n = k := by
  obtain ⟨c, hi⟩ := ((run_lift hg h).1.inv (fed_ok hg)).inv
  have := hi.proc (some t) (some k)
  rw [show (st.lift.queues (some t)).processing = (st.queues t).processing.image some from rfl] at this
  simp only [Finset.mem_image, Option.some.injEq, exists_eq_right] at this
  rw [this]
  constructor
  · rintro ⟨_ | n, h1, h2, h3⟩
    · cases h2
    · exact ⟨n, held_lift.1 h1, Option.some.inj h2, Option.some.inj h3⟩
  · rintro ⟨n, h1, h2, h3⟩
    exact ⟨some n, held_lift.2 h1, congrArg some h2, congrArg some h3⟩

end Verif
