import Verif.Proofs.Run
import Verif.Spec.Served

/-! # First come, first served: lemmas -/

namespace Verif

open Spec

variable {N T K : Type} [DecidableEq N] [DecidableEq T] [DecidableEq K] {g : DGraph N T K}

omit [DecidableEq N] [DecidableEq K] in
theorem served_append (t : T) (a b : List (Ev N)) : served g t (a ++ b) = served g t a ++ served g t b := by
  unfold served
  rw [List.filterMap_append]

/-- The blocks that wait in the queue of a task, in order. -/
def Sched.line (st : Sched N T K) (t : T) : List N := (st.queues t).rootGen ++ (st.queues t).readyQueue

theorem release_line {pick : Nat → Finset N → N} {st st' : Sched N T K} {n : N} {status : BlockStatus}
    (h : st.releaseBlock g pick n status = .ok st') (t : T) : ∃ arr, st'.line t = st.line t ++ arr := by
  unfold Sched.releaseBlock at h
  have h1 : ∀ st1, st.removeFromProcessing g n = .ok st1 → st1.line t = st.line t := by
    intro st1 hs
    unfold Sched.removeFromProcessing at hs
    split at hs
    · cases hs
      unfold Sched.line
      simp only [Sched.modState_queues, Sched.modQueue_queues]
      split <;> simp_all
    · cases hs
  split at h
  · cases h
  · rename_i st1 hs
    rw [← h1 st1 hs]
    split at h
    · split at h
      · cases h
      · rename_i nb rs' hm
        cases h
        refine ⟨nb.filter (fun x => g.task x = t), ?_⟩
        unfold Sched.line
        rw [(Sched.updateReadyQueue_spec nb _).2.1 t]
        simp
    · split at h
      · split at h
        · cases h
        · cases h
          exact ⟨[], by simp [Sched.line, Sched.countOrphans]⟩
      · cases h
        unfold Sched.line
        by_cases ht : t = g.task n
        · subst ht
          exact ⟨[n], by simp [Sched.queueReadyBlock, Sched.modQueue_queues]⟩
        · exact ⟨[], by simp [Sched.queueReadyBlock, Sched.modQueue_queues, ht]⟩
    · cases h

/-- Whatever waited at some time has been served since, or waits at the head of the queue, in the same order. -/
def Fifo (g : DGraph N T K) (tr : List (Ev N)) (st : Sched N T K) : Prop :=
  ∀ pre post, tr = pre ++ post → ∀ t, ∃ w : List N, w.Nodup ∧ (∀ n, n ∈ w ↔ Ready g pre n ∧ g.task n = t) ∧
    ∃ arr, w ++ arr = served g t post ++ st.line t

omit [DecidableEq K] in
theorem RunInv.line_nodup {tr : List (Ev N)} {st : Sched N T K} (h : RunInv g tr st) (t : T) : (st.line t).Nodup := by
  obtain ⟨c, hi⟩ := h.inv
  exact hi.q_nodup t

theorem Fifo.init (hg : g.OK) : Fifo g [] (Sched.init g) := by
  intro pre post he t
  obtain ⟨rfl, rfl⟩ := List.append_eq_nil_iff.1 he.symm
  have h := RunInv.init hg
  exact ⟨_, h.line_nodup t, h.queue_ready t, [], by simp [served]⟩

theorem Fifo.step {tr : List (Ev N)} {e : Ev N} {st st' : Sched N T K} (h : Fifo g tr st) (hr : RunInv g (tr ++ [e]) st')
    (hl : ∀ t, ∃ arr, st.line t ++ arr = served g t [e] ++ st'.line t) : Fifo g (tr ++ [e]) st' := by
  intro pre post he t
  rcases List.eq_nil_or_concat post with rfl | ⟨post', e', rfl⟩
  · rw [List.append_nil] at he
    subst he
    exact ⟨_, hr.line_nodup t, hr.queue_ready t, [], by simp [served, Sched.line]⟩
  · rw [List.concat_eq_append] at he ⊢
    rw [← List.append_assoc] at he
    obtain ⟨he1, he2⟩ := List.append_inj' he rfl
    cases he2
    obtain ⟨w, h1, h2, arr, h3⟩ := h pre post' he1 t
    obtain ⟨arr', h4⟩ := hl t
    refine ⟨w, h1, h2, arr ++ arr', ?_⟩
    rw [served_append, List.append_assoc, ← h4, ← List.append_assoc, h3, List.append_assoc]

theorem Fifo.acquireLoop (hg : g.OK) (t : T) (chk : Nat → N → Check) :
    ∀ (fuel k : Nat) (tr : List (Ev N)) (st : Sched N T K) (acc : List N), RunInv g tr st → Fifo g tr st →
      ∀ sk r st', Sched.acquireLoop g t fuel chk k st acc = .ok (sk, r, st') →
      ∃ skips, sk = acc ++ skips ∧ Fifo g (tr ++ acquireEvents skips r) st'
  | 0, _, _, _, _, _, _, _, _, _, h => by cases h
  | fuel + 1, k, tr, st, acc, h, hfi, sk, r, st', heq => by
    obtain ⟨c, hi⟩ := h.inv
    unfold Sched.acquireLoop at heq
    rcases Sched.getNext_spec hi t with ⟨h1, h2, h3, h4⟩ | ⟨n, q, h1, h2, _⟩
    · rw [h1] at heq
      simp only at heq
      cases heq
      refine ⟨[], by simp, ?_⟩
      have hq : ∀ t', (st.modQueue t (fun _ => st.queues t)).line t' = st.line t' := by
        intro t'
        unfold Sched.line
        rw [Sched.modQueue_queues]
        split
        · rename_i ht; rw [ht]
        · rfl
      intro pre post he t'
      obtain ⟨w, a1, a2, a3⟩ := hfi pre post (by simpa [acquireEvents] using he) t'
      exact ⟨w, a1, a2, by rw [hq]; exact a3⟩
    · rw [h1] at heq
      simp only at heq
      obtain ⟨hr, ht, hhand, hskip⟩ := h.pop_hand hg h1
      -- the line after popping
      have hline : ∀ (f1 f2 : TState → TState) (t' : T), ∃ arr, st.line t' ++ arr = (if g.task n = t' then [n] else []) ++
          Sched.line ((((st.modQueue t (fun _ => q)).modState t f1).modState t f2).modQueue t
            (fun q => { q with processing := insert (g.key n) q.processing })) t' := by
        intro f1 f2 t'
        refine ⟨[], ?_⟩
        rw [List.append_nil]
        unfold Sched.line
        by_cases ht' : t' = t
        · subst ht'
          rw [h2, if_pos ht]
          simp [Sched.modQueue_queues]
        · have : ¬ g.task n = t' := fun hc => ht' (hc ▸ ht)
          simp [Sched.modQueue_queues, ht', this]
      by_cases hc : chk k n = .accept
      · rw [hc] at heq
        simp only [Sched.precheck, if_true] at heq
        obtain ⟨st3, e1, e2⟩ := hskip _ rfl (fun _ _ => n)
        rw [e1] at heq
        simp only at heq
        have hfi' : Fifo g (tr ++ [.skip n]) st3 := by
          refine hfi.step e2 fun t' => ?_
          obtain ⟨arr, ha⟩ := hline (fun s => { s with ready := s.ready - 1, processing := s.processing + 1 })
            (fun s => { s with skipped := s.skipped + 1 }) t'
          obtain ⟨arr', ha'⟩ := release_line e1 t'
          refine ⟨arr ++ arr', ?_⟩
          rw [ha', ← List.append_assoc, ha, List.append_assoc]
          congr 1
          by_cases hx : g.task n = t' <;> simp [served, hx]
        obtain ⟨skips, g1, g2⟩ := Fifo.acquireLoop hg t chk fuel (k + 1) (tr ++ [.skip n]) st3 (acc ++ [n]) e2 hfi' sk r st' heq
        exact ⟨n :: skips, by rw [g1]; simp, by simpa [acquireEvents] using g2⟩
      · have hpc : Sched.precheck (chk k n) = false := by
          cases hq : chk k n
          · exact absurd hq hc
          · rfl
          · rfl
        rw [hpc] at heq
        simp only [Bool.false_eq_true, if_false] at heq
        cases heq
        refine ⟨[], by simp, ?_⟩
        have := hfi.step hhand fun t' => by
          obtain ⟨arr, ha⟩ := hline (fun s => { s with ready := s.ready - 1, processing := s.processing + 1 })
            (fun s => { s with started := true }) t'
          refine ⟨arr, ?_⟩
          rw [ha]
          congr 1
          by_cases hx : g.task n = t' <;> simp [served, hx]
        simpa [acquireEvents] using this

theorem Run.fifo (hg : g.OK) {tr : List (Ev N)} {st : Sched N T K} (h : Run g tr st) : Fifo g tr st := by
  induction h with
  | init => exact Fifo.init hg
  | @acquire tr st st' skips r chk t h0 ha ih =>
    obtain ⟨skips', h1, h2⟩ := Fifo.acquireLoop hg t chk _ 0 tr st [] (h0.inv hg) ih _ _ _ ha
    rw [List.nil_append] at h1
    rw [h1]
    exact h2
  | @good tr st st' n pick h0 hh hp hr ih =>
    refine ih.step ((Run.good pick h0 hh hp hr).inv hg) fun t => ?_
    obtain ⟨arr, ha⟩ := release_line hr t
    exact ⟨arr, by rw [ha]; simp [served]⟩
  | @bad tr st st' n pick h0 hh hp hr ih =>
    refine ih.step ((Run.bad pick h0 hh hp hr).inv hg) fun t => ?_
    obtain ⟨arr, ha⟩ := release_line hr t
    exact ⟨arr, by rw [ha]; simp [served]⟩

end Verif
