import Verif.Spec.Tally
import Verif.Proofs.Safety

/-! # The counters of the scheduler for any graph

Nothing is assumed about `up` and `down`: they need not agree. -/

namespace Verif

open Spec Sched

variable {N T K : Type} [DecidableEq N] [DecidableEq T] [DecidableEq K] {g : DGraph N T K}

/-- The queues and the counters of the scheduler: `P`, `C` and `S` are the numbers of blocks of each task that are
being processed, completed and skipped. -/
structure Counts (g : DGraph N T K) (st : Sched N T K) (P C S : T → Int) : Prop where
  gen : ∀ t, (st.queues t).readyRoots = (st.queues t).rootGen.length
  mem : ∀ t, ∀ n ∈ (st.queues t).rootGen ++ (st.queues t).readyQueue, g.task n = t
  ready : ∀ t, (st.states t).ready = ((st.queues t).rootGen ++ (st.queues t).readyQueue).length
  processing : ∀ t, (st.states t).processing = P t
  completed : ∀ t, (st.states t).completed = C t
  skipped : ∀ t, (st.states t).skipped = S t
  total : ∀ t ∈ g.tasks, (st.states t).total = g.total t

variable {st st' : Sched N T K} {P C S : T → Int}

/-- One for task `t`, zero for the others. -/
def one (t t' : T) : Int := if t' = t then 1 else 0

omit [DecidableEq K] in
theorem Counts.init (hr : GoodRoots g) : Counts g (Sched.init g) (fun _ => 0) (fun _ => 0) (fun _ => 0) := by
  unfold Sched.init
  set st0 : Sched N T K := ⟨RS.init, fun _ => TState.init, fun _ => PQueue.init 0 []⟩ with hst0
  have hq := fun t => init_queues (g := g) g.rootTasks st0 hr.nodup t
  have hs := fun t => init_states (g := g) g.rootTasks st0 hr.nodup t
  set st1 := g.rootTasks.foldl (fun st t =>
    (st.modState t (fun s => { s with ready := s.ready + g.numRoots t })).modQueue t
      (fun _ => PQueue.init (g.numRoots t) (g.rootGen t))) st0 with hst1
  obtain ⟨-, t2, t3⟩ := init_totals (g := g) g.tasks st1
  simp only at t2 t3 ⊢
  refine ⟨fun t => ?_, fun t n hn => ?_, fun t => ?_, fun t => ?_, fun t => ?_, fun t => ?_, fun t ht => ?_⟩
  · rw [t2, hq]
    by_cases h : t ∈ g.rootTasks
    · rw [if_pos h]
      exact hr.num t h
    · rw [if_neg h]
      rfl
  · rw [t2, hq] at hn
    by_cases h : t ∈ g.rootTasks
    · rw [if_pos h] at hn
      exact hr.task t h n (by simpa [PQueue.init] using hn)
    · rw [if_neg h] at hn
      simp [hst0, PQueue.init] at hn
  · rw [t2, hq, t3]
    have e : (st1.states t).ready = if t ∈ g.rootTasks then g.numRoots t else 0 := by
      rw [hs]
      by_cases h : t ∈ g.rootTasks
      · simp [h, hst0, TState.init]
      · simp [h, hst0, TState.init]
    have e' : (if t ∈ g.tasks then { st1.states t with total := g.total t } else st1.states t).ready =
        (st1.states t).ready := by
      split <;> rfl
    rw [e', e]
    by_cases h : t ∈ g.rootTasks
    · rw [if_pos h, if_pos h, hr.num t h]
      simp [PQueue.init]
    · rw [if_neg h, if_neg h]
      simp [hst0, PQueue.init]
  · rw [t3]
    have e : (st1.states t).processing = 0 := by
      rw [hs]
      by_cases h : t ∈ g.rootTasks <;> simp [h, hst0, TState.init]
    split <;> exact e
  · rw [t3]
    have e : (st1.states t).completed = 0 := by
      rw [hs]
      by_cases h : t ∈ g.rootTasks <;> simp [h, hst0, TState.init]
    split <;> exact e
  · rw [t3]
    have e : (st1.states t).skipped = 0 := by
      rw [hs]
      by_cases h : t ∈ g.rootTasks <;> simp [h, hst0, TState.init]
    split <;> exact e
  · rw [t3, if_pos ht]

omit [DecidableEq N] [DecidableEq T] [DecidableEq K] in
/-- Only these parts of the state matter. -/
theorem Counts.of_eq {P' C' S' : T → Int} (h : Counts g st P C S)
    (h1 : ∀ t, (st'.queues t).readyRoots = (st.queues t).readyRoots)
    (h2 : ∀ t, (st'.queues t).rootGen = (st.queues t).rootGen)
    (h3 : ∀ t, (st'.queues t).readyQueue = (st.queues t).readyQueue)
    (h4 : ∀ t, (st'.states t).ready = (st.states t).ready)
    (h5 : ∀ t, (st'.states t).processing = P' t)
    (h6 : ∀ t, (st'.states t).completed = C' t)
    (h7 : ∀ t, (st'.states t).skipped = S' t)
    (h8 : ∀ t, (st'.states t).total = (st.states t).total) : Counts g st' P' C' S' := by
  refine ⟨fun t => ?_, fun t n hn => ?_, fun t => ?_, h5, h6, h7, fun t ht => ?_⟩
  · rw [h1, h2]; exact h.gen t
  · rw [h2, h3] at hn; exact h.mem t n hn
  · rw [h4, h2, h3]; exact h.ready t
  · rw [h8]; exact h.total t ht

omit [DecidableEq K] in
/-- Blocks are queued. -/
theorem Counts.queue (h : Counts g st P C S) (ns : List N) : Counts g (st.updateReadyQueue g ns) P C S := by
  obtain ⟨-, h2, h3⟩ := updateReadyQueue_spec (g := g) ns st
  refine ⟨fun t => ?_, fun t n hn => ?_, fun t => ?_, fun t => ?_, fun t => ?_, fun t => ?_, fun t ht => ?_⟩
  · rw [h2]; exact h.gen t
  · rw [h2] at hn
    simp only [List.mem_append, List.mem_filter, decide_eq_true_eq] at hn
    rcases hn with hn | hn | hn
    · exact h.mem t n (List.mem_append_left _ hn)
    · exact h.mem t n (List.mem_append_right _ hn)
    · exact hn.2
  · rw [h3, h2]
    have := h.ready t
    simp only [List.length_append] at this ⊢
    push_cast at this ⊢
    omega
  · rw [h3]; exact h.processing t
  · rw [h3]; exact h.completed t
  · rw [h3]; exact h.skipped t
  · rw [h3]; exact h.total t ht

omit [DecidableEq K] in
/-- A block is taken from the queue of task `t`. -/
theorem Counts.next (h : Counts g st P C S) {t : T} {n : N} {q : PQueue N K}
    (hq : (st.queues t).getNext = .ok (some n, q)) :
    g.task n = t ∧ 0 < (st.states t).ready ∧
    Counts g ((st.modQueue t (fun _ => q)).modState t
      (fun s => { s with ready := s.ready - 1, processing := s.processing + 1 }))
      (fun t' => P t' + one t t') C S := by
  have hg0 := h.gen t
  have hr0 := h.ready t
  have hm0 := h.mem t
  have key : ∃ pre post, (st.queues t).rootGen ++ (st.queues t).readyQueue = n :: (q.rootGen ++ q.readyQueue) ∧
      q.readyRoots = q.rootGen.length ∧ pre ++ post = q.rootGen := by
    unfold PQueue.getNext at hq
    split at hq
    · split at hq
      · split at hq
        · cases hq
        · rename_i m gen e
          cases hq
          refine ⟨[], _, ?_, ?_, rfl⟩
          · rw [e]; rfl
          · rw [e] at hg0
            simp only [List.length_cons] at hg0 ⊢
            push_cast at hg0
            omega
      · split at hq
        · cases hq
        · rename_i hz m rest e
          cases hq
          have e0 : (st.queues t).rootGen = [] := by
            rw [← List.length_eq_zero_iff]
            omega
          refine ⟨[], _, ?_, hg0, rfl⟩
          simp only [e0, e]
          rfl
    · cases hq
  obtain ⟨-, -, k1, k2, -⟩ := key
  refine ⟨hm0 n (by rw [k1]; exact List.mem_cons_self), ?_, ?_⟩
  · rw [hr0, k1, List.length_cons]
    omega
  refine ⟨fun t' => ?_, fun t' m hm => ?_, fun t' => ?_, fun t' => ?_, fun t' => ?_, fun t' => ?_, fun t' ht => ?_⟩
  · rw [modState_queues, modQueue_queues]
    split
    · exact k2
    · exact h.gen t'
  · rw [modState_queues, modQueue_queues] at hm
    split at hm
    · rename_i e
      rw [e]
      exact hm0 m (by rw [k1]; exact List.mem_cons_of_mem _ hm)
    · exact h.mem t' m hm
  · rw [modState_queues, modQueue_queues, modState_states]
    split
    · rw [k1, List.length_cons] at hr0
      simp only [modQueue_states]
      push_cast at hr0
      omega
    · exact h.ready t'
  · rw [modState_states]
    unfold one
    split
    · rename_i e
      rw [e]
      simp only [modQueue_states, h.processing]
    · simp only [modQueue_states, h.processing, add_zero]
  · rw [modState_states]
    split
    · rename_i e; rw [e]; exact h.completed t
    · exact h.completed t'
  · rw [modState_states]
    split
    · rename_i e; rw [e]; exact h.skipped t
    · exact h.skipped t'
  · rw [modState_states]
    split
    · rename_i e; rw [e]; exact h.total t (e ▸ ht)
    · exact h.total t' ht

/-- `remove_from_processing`. -/
theorem Counts.remove (h : Counts g st P C S) {n : N} (hr : st.removeFromProcessing g n = .ok st') :
    Counts g st' (fun t => P t - one (g.task n) t) C S := by
  unfold removeFromProcessing at hr
  split at hr
  · cases hr
    refine h.of_eq (fun t => ?_) (fun t => ?_) (fun t => ?_) (fun t => ?_) (fun t => ?_) (fun t => ?_) (fun t => ?_)
      (fun t => ?_)
    · rw [modState_queues, modQueue_queues]; split <;> [rename_i e; skip]
      · rw [e]
      · rfl
    · rw [modState_queues, modQueue_queues]; split <;> [rename_i e; skip]
      · rw [e]
      · rfl
    · rw [modState_queues, modQueue_queues]; split <;> [rename_i e; skip]
      · rw [e]
      · rfl
    · rw [modState_states]; split <;> [rename_i e; skip]
      · rw [e]; rfl
      · rfl
    · rw [modState_states]
      unfold one
      split <;> [rename_i e; skip]
      · rw [e]; simp only [modQueue_states, h.processing]
      · simp only [modQueue_states, h.processing, sub_zero]
    · rw [modState_states]; split <;> [rename_i e; skip]
      · rw [e]; exact h.completed _
      · exact h.completed t
    · rw [modState_states]; split <;> [rename_i e; skip]
      · rw [e]; exact h.skipped _
      · exact h.skipped t
    · rw [modState_states]; split <;> [rename_i e; skip]
      · rw [e]; rfl
      · rfl
  · cases hr

theorem Counts.good (h : Counts g st P C S) {pick : Nat → Finset N → N} {n : N}
    (hr : st.releaseBlock g pick n .success = .ok st') :
    Counts g st' (fun t => P t - one (g.task n) t) (fun t => C t + one (g.task n) t) S := by
  unfold releaseBlock at hr
  split at hr
  · cases hr
  · rename_i st1 h1
    have hs := h.remove h1
    dsimp only at hr
    split at hr
    · cases hr
    · rename_i new rs' hm
      cases hr
      apply Counts.queue
      refine hs.of_eq (fun _ => rfl) (fun _ => rfl) (fun _ => rfl) (fun t => ?_) (fun t => ?_) (fun t => ?_)
        (fun t => ?_) (fun t => ?_)
      · rw [modState_states]; split <;> [rename_i e; skip]
        · rw [e]
        · rfl
      · rw [modState_states]; split <;> [rename_i e; skip]
        · rw [e]; exact hs.processing _
        · exact hs.processing t
      · rw [modState_states]
        unfold one
        split <;> [rename_i e; skip]
        · rw [e]; simp only [hs.completed]
        · simp only [hs.completed, add_zero]
      · rw [modState_states]; split <;> [rename_i e; skip]
        · rw [e]; exact hs.skipped _
        · exact hs.skipped t
      · rw [modState_states]; split <;> [rename_i e; skip]
        · rw [e]
        · rfl

theorem Counts.bad (h : Counts g st P C S) {pick : Nat → Finset N → N} {n : N}
    (hr : st.releaseBlock g pick n .failed = .ok st') : Counts g st' (fun t => P t - one (g.task n) t) C S := by
  unfold releaseBlock at hr
  split at hr
  · cases hr
  · rename_i st1 h1
    have hs := h.remove h1
    dsimp only at hr
    split at hr
    · split at hr
      · cases hr
      · rename_i o rs' hm
        cases hr
        refine hs.of_eq (fun _ => rfl) (fun _ => rfl) (fun _ => rfl) (fun t => ?_) (fun t => ?_) (fun t => ?_)
          (fun t => ?_) (fun t => ?_)
        all_goals
          simp only [countOrphans, modState_states]
          split <;> [rename_i e; skip]
        · rw [e]
        · rfl
        · rw [e]; exact hs.processing _
        · exact hs.processing t
        · rw [e]; exact hs.completed _
        · exact hs.completed t
        · rw [e]; exact hs.skipped _
        · exact hs.skipped t
        · rw [e]
        · rfl
    · cases hr
      have hq : Counts g (st1.queueReadyBlock g n) (fun t => P t - one (g.task n) t) C S := hs.queue [n]
      refine hq.of_eq (fun t => ?_) (fun t => ?_) (fun t => ?_) (fun t => rfl) hq.processing hq.completed hq.skipped
        (fun _ => rfl)
      all_goals
        rw [modQueue_queues]
        split <;> [rename_i e; skip]
      · rw [e]
      · rfl
      · rw [e]
      · rfl
      · rw [e]
      · rfl

omit [DecidableEq N] [DecidableEq K] in
theorem tally_snoc (t : T) (k : EvKind) (tr : List (Ev N)) (e : Ev N) :
    (tally g t k (tr ++ [e]) : Int) = tally g t k tr + if e.kind = k then one (g.task e.node) t else 0 := by
  unfold tally one
  rw [List.countP_append, List.countP_cons, List.countP_nil]
  by_cases h : e.kind = k
  · by_cases h' : t = g.task e.node
    · simp [h, h']
    · have h'' : ¬ g.task e.node = t := fun x => h' x.symm
      simp [h, h', h'']
  · simp [h]

/-- The counters say how many events of each kind there were. -/
def Tallied (g : DGraph N T K) (st : Sched N T K) (tr : List (Ev N)) : Prop :=
  Counts g st (fun t => (tally g t .hand tr : Int) - tally g t .good tr - tally g t .bad tr)
    (fun t => (tally g t .good tr : Int) + tally g t .skip tr) (fun t => (tally g t .skip tr : Int))

omit [DecidableEq N] [DecidableEq T] [DecidableEq K] in
theorem Counts.congr {P' C' S' : T → Int} (h : Counts g st P C S) (h1 : ∀ t, P t = P' t) (h2 : ∀ t, C t = C' t)
    (h3 : ∀ t, S t = S' t) : Counts g st P' C' S' := by
  rw [← funext h1, ← funext h2, ← funext h3]
  exact h

theorem acquireLoop_tallied (t : T) (chk : Nat → N → Check) :
    ∀ (fuel k : Nat) {st st' : Sched N T K} {tr : List (Ev N)} {skips skips' : List N} {r : Option N},
      Tallied g st tr → Sched.acquireLoop g t fuel chk k st skips = .ok (skips', r, st') →
      ∃ more, skips' = skips ++ more ∧ Tallied g st' (tr ++ acquireEvents more r) ∧
        (∀ n ∈ more, g.task n = t) ∧ (∀ n, r = some n → g.task n = t) ∧
        (r = none → (st'.states t).ready = 0) ∧ (0 < (st.states t).ready ↔ more ≠ [] ∨ r ≠ none)
  | 0, _, _, _, _, _, _, _, _, h => by cases h
  | fuel + 1, k, st, st', tr, skips, skips', r, hs, h => by
    unfold Sched.acquireLoop at h
    split at h
    · cases h
    · rename_i q hq
      cases h
      have hz : q = st.queues t ∧ (st.states t).ready = 0 := by
        unfold PQueue.getNext at hq
        split at hq
        · split at hq
          · split at hq <;> cases hq
          · split at hq <;> cases hq
        · rename_i hn
          cases hq
          refine ⟨rfl, ?_⟩
          unfold PQueue.numReady at hn
          rw [hs.gen t] at hn
          rw [hs.ready t, List.length_append]
          push_cast
          omega
      have hq' : ∀ t', ((st.modQueue t (fun _ => q)).queues t') = st.queues t' := by
        intro t'
        rw [modQueue_queues, hz.1]
        split
        · rename_i e; rw [e]
        · rfl
      refine ⟨[], by simp, ?_, by simp, by simp, fun _ => hz.2, ?_⟩
      · simp only [acquireEvents, List.map_nil, Option.map_none, Option.toList_none, List.append_nil]
        exact Counts.of_eq hs (fun t' => by rw [hq']) (fun t' => by rw [hq']) (fun t' => by rw [hq']) (fun _ => rfl)
          hs.processing hs.completed hs.skipped (fun _ => rfl)
      · rw [hz.2]
        simp
    · rename_i n q hq
      obtain ⟨hn, hpos, hs1⟩ := Counts.next hs hq
      dsimp only at h
      split at h
      · split at h
        · cases h
        · rename_i st3 hrel
          have hs2 : Counts g ((((st.modQueue t (fun _ => q)).modState t
              (fun s => { s with ready := s.ready - 1, processing := s.processing + 1 })).modState t
              (fun s => { s with skipped := s.skipped + 1 })).modQueue t
              (fun q => { q with processing := insert (g.key n) q.processing }))
              (fun t' => (tally g t' .hand tr : Int) - tally g t' .good tr - tally g t' .bad tr + one t t')
              (fun t' => (tally g t' .good tr : Int) + tally g t' .skip tr)
              (fun t' => (tally g t' .skip tr : Int) + one t t') := by
            refine hs1.of_eq (fun t' => ?_) (fun t' => ?_) (fun t' => ?_) (fun t' => ?_) (fun t' => ?_) (fun t' => ?_)
              (fun t' => ?_) (fun t' => ?_)
            · rw [modQueue_queues, modState_queues]; split <;> [rename_i e; skip]
              · rw [e]
              · rfl
            · rw [modQueue_queues, modState_queues]; split <;> [rename_i e; skip]
              · rw [e]
              · rfl
            · rw [modQueue_queues, modState_queues]; split <;> [rename_i e; skip]
              · rw [e]
              · rfl
            · rw [modQueue_states, modState_states]; split <;> [rename_i e; skip]
              · rw [e]
              · rfl
            · rw [modQueue_states, modState_states]; split <;> [rename_i e; skip]
              · rw [e]; exact hs1.processing t
              · exact hs1.processing t'
            · rw [modQueue_states, modState_states]; split <;> [rename_i e; skip]
              · rw [e]; exact hs1.completed t
              · exact hs1.completed t'
            · rw [modQueue_states, modState_states]
              unfold one
              split <;> [rename_i e; skip]
              · rw [e]
                simp only [hs1.skipped]
              · simp only [hs1.skipped, add_zero]
            · rw [modQueue_states, modState_states]; split <;> [rename_i e; skip]
              · rw [e]
              · rfl
          have hs3 : Tallied g st3 (tr ++ [.skip n]) := by
            refine (hs2.good hrel).congr (fun t' => ?_) (fun t' => ?_) (fun t' => ?_)
            · simp only [tally_snoc, Ev.kind, Ev.node, hn]
              simp
            · simp only [tally_snoc, Ev.kind, Ev.node, hn]
              simp only [if_true, reduceCtorEq, if_false]
              omega
            · simp only [tally_snoc, Ev.kind, Ev.node, hn, if_true]
          obtain ⟨more, e1, e2, e3, e4, e5, -⟩ := acquireLoop_tallied t chk fuel (k + 1) hs3 h
          refine ⟨n :: more, by rw [e1]; simp, ?_, ?_, e4, e5, ?_⟩
          · simpa [acquireEvents] using e2
          · intro x hx
            rcases List.mem_cons.1 hx with rfl | hx
            · exact hn
            · exact e3 x hx
          · simp [hpos]
      · cases h
        refine ⟨[], by simp, ?_, by simp, fun x hx => by cases hx; exact hn, by simp, by simp [hpos]⟩
        simp only [acquireEvents, List.map_nil, List.nil_append, Option.map_some, Option.toList_some]
        refine Counts.of_eq hs1 (fun t' => ?_) (fun t' => ?_) (fun t' => ?_) (fun t' => ?_) (fun t' => ?_) (fun t' => ?_)
          (fun t' => ?_) (fun t' => ?_)
        · rw [modQueue_queues, modState_queues]; split <;> [rename_i e; skip]
          · rw [e]
          · rfl
        · rw [modQueue_queues, modState_queues]; split <;> [rename_i e; skip]
          · rw [e]
          · rfl
        · rw [modQueue_queues, modState_queues]; split <;> [rename_i e; skip]
          · rw [e]
          · rfl
        · rw [modQueue_states, modState_states]; split <;> [rename_i e; skip]
          · rw [e]
          · rfl
        · have h1 : ∀ t', ((((st.modQueue t (fun _ => q)).modState t (fun s => { s with
              ready := s.ready - 1, processing := s.processing + 1 })).modState t
              (fun s => { s with started := true })).states t').processing =
              (tally g t' .hand tr : Int) - tally g t' .good tr - tally g t' .bad tr + one t t' := fun t' => by
            rw [modState_states]
            split <;> [rename_i e; skip]
            · rw [e]; exact hs1.processing t
            · exact hs1.processing t'
          rw [modQueue_states, h1]
          simp only [tally_snoc, Ev.kind, Ev.node, hn]
          simp only [if_true, reduceCtorEq, if_false]
          omega
        · rw [modQueue_states, modState_states]
          simp only [tally_snoc, Ev.kind, Ev.node, reduceCtorEq, if_false, add_zero]
          split <;> [rename_i e; skip]
          · rw [e]; exact hs1.completed t
          · exact hs1.completed t'
        · rw [modQueue_states, modState_states]
          simp only [tally_snoc, Ev.kind, Ev.node, reduceCtorEq, if_false, add_zero]
          split <;> [rename_i e; skip]
          · rw [e]; exact hs1.skipped t
          · exact hs1.skipped t'
        · rw [modQueue_states, modState_states]; split <;> [rename_i e; skip]
          · rw [e]
          · rfl

theorem Run.tallied (hr : GoodRoots g) {tr : List (Ev N)} {st : Sched N T K} (h : Run g tr st) : Tallied g st tr := by
  induction h with
  | init => exact (Counts.init hr).congr (fun t => by simp [tally]) (fun t => by simp [tally]) (fun t => by simp [tally])
  | acquire chk t h hacq ih =>
    obtain ⟨more, e1, e2, -⟩ := acquireLoop_tallied t chk _ _ ih hacq
    rw [List.nil_append] at e1
    subst e1
    exact e2
  | good pick h hh hp hr ih =>
    refine (Counts.good ih hr).congr (fun t' => ?_) (fun t' => ?_) (fun t' => ?_)
    all_goals
      simp only [tally_snoc, Ev.kind, Ev.node, if_true, reduceCtorEq, if_false]
    all_goals omega
  | bad pick h hh hp hr ih =>
    refine (Counts.bad ih hr).congr (fun t' => ?_) (fun t' => ?_) (fun t' => ?_)
    all_goals
      simp only [tally_snoc, Ev.kind, Ev.node, if_true, reduceCtorEq, if_false]
    all_goals omega

theorem acquireLoop_checks (t : T) (chk : Nat → N → Check) :
    ∀ (fuel k : Nat) {st st' : Sched N T K} {skips skips' : List N} {r : Option N},
      Sched.acquireLoop g t fuel chk k st skips = .ok (skips', r, st') →
      ∃ more, skips' = skips ++ more ∧ (∀ i x, more[i]? = some x → chk (k + i) x = .accept) ∧
        ∀ n, r = some n → chk (k + more.length) n ≠ .accept
  | 0, _, _, _, _, _, _, h => by cases h
  | fuel + 1, k, st, st', skips, skips', r, h => by
    unfold Sched.acquireLoop at h
    split at h
    · cases h
    · cases h
      exact ⟨[], by simp, by simp, by simp⟩
    · rename_i n q hq
      dsimp only at h
      split at h
      · rename_i hc
        split at h
        · cases h
        · obtain ⟨more, e1, e2, e3⟩ := acquireLoop_checks t chk fuel (k + 1) h
          refine ⟨n :: more, by rw [e1]; simp, ?_, ?_⟩
          · intro i x hx
            cases i with
            | zero =>
              cases hx
              revert hc
              rw [Nat.add_zero]
              cases chk k n <;> simp [Sched.precheck]
            | succ i =>
              have := e2 i x (by simpa using hx)
              rwa [Nat.add_assoc, Nat.add_comm 1 i] at this
          · intro m hm
            have := e3 m hm
            rwa [Nat.add_assoc, Nat.add_comm 1] at this
      · rename_i hc
        cases h
        refine ⟨[], by simp, by simp, ?_⟩
        intro m hm hx
        cases hm
        rw [List.length_nil, Nat.add_zero] at hx
        rw [hx] at hc
        exact hc rfl

end Verif
