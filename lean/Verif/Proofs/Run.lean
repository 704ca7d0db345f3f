import Verif.Spec.History
import Verif.Proofs.Scheduler

/-! # Every execution satisfies the scheduler invariant -/

set_option linter.unusedSectionVars false

namespace Verif

open Spec

variable {N T K : Type} [DecidableEq N] [DecidableEq T] [DecidableEq K] {g : DGraph N T K}

/-- The block was skipped. -/
def Skipped (tr : List (Ev N)) (n : N) : Prop := Ev.skip n ∈ tr

/-- Invariant of executions. -/
structure RunInv (g : DGraph N T K) (tr : List (Ev N)) (st : Sched N T K) : Prop where
  inv : ∃ c, Sched.Inv g st (Done tr) (Dead g tr) (Held tr) (Skipped tr)
    (fun n => tr.count (.bad n)) c
  bal : ∀ n, tr.count (.good n) + tr.count (.bad n) ≤ tr.count (.hand n) ∧
    tr.count (.hand n) ≤ tr.count (.good n) + tr.count (.bad n) + 1
  hands : ∀ n, tr.count (.hand n) ≤ (g.maxRetries (g.task n)).toNat + 1
  once : ∀ n, tr.count (.good n) + tr.count (.skip n) ≤ 1
  node : ∀ e ∈ tr, e.node ∈ g.nodes

theorem Sched.Inv.congr {st : Sched N T K} {S F H Sk S' F' H' Sk' : N → Prop}
    {fails c fails' : N → Nat} (hi : Sched.Inv g st S F H Sk fails c) (hS : ∀ n, S' n ↔ S n)
    (hF : ∀ n, F' n ↔ F n) (hH : ∀ n, H' n ↔ H n) (hSk : ∀ n, Sk' n ↔ Sk n)
    (hf : ∀ n, fails' n = fails n) : Sched.Inv g st S' F' H' Sk' fails' c := by
  have e1 : S' = S := funext fun n => propext (hS n)
  have e2 : F' = F := funext fun n => propext (hF n)
  have e3 : H' = H := funext fun n => propext (hH n)
  have e4 : Sk' = Sk := funext fun n => propext (hSk n)
  have e5 : fails' = fails := funext hf
  rw [e1, e2, e3, e4, e5]
  exact hi

/-! ### How the notions change when an event is appended -/

section events
variable (tr : List (Ev N)) (n x : N)

theorem not_done_good (h : ¬ Done tr n) : tr.count (.good n) = 0 :=
  List.count_eq_zero.2 (fun hm => h (Or.inl hm))
theorem not_done_skip (h : ¬ Done tr n) : tr.count (.skip n) = 0 :=
  List.count_eq_zero.2 (fun hm => h (Or.inr hm))

theorem done_hand : Done (tr ++ [.hand n]) x ↔ Done tr x := by simp [Done]
theorem done_bad : Done (tr ++ [.bad n]) x ↔ Done tr x := by simp [Done]
theorem done_good : Done (tr ++ [.good n]) x ↔ Done tr x ∨ x = n := by
  simp [Done]; tauto
theorem done_skip : Done (tr ++ [.skip n]) x ↔ Done tr x ∨ x = n := by
  simp [Done]; tauto
theorem dead_hand : Dead g (tr ++ [.hand n]) x ↔ Dead g tr x := by
  simp [Dead, List.count_append]
theorem dead_good : Dead g (tr ++ [.good n]) x ↔ Dead g tr x := by
  simp [Dead, List.count_append]
theorem dead_skip : Dead g (tr ++ [.skip n]) x ↔ Dead g tr x := by
  simp [Dead, List.count_append]
theorem dead_bad : Dead g (tr ++ [.bad n]) x ↔
    Dead g tr x ∨ x = n ∧ g.maxRetries (g.task n) ≤ tr.count (.bad n) := by
  by_cases h : x = n
  · subst h
    simp only [Dead, List.count_append, List.mem_append, List.mem_singleton, or_true, true_and,
      List.count_singleton_self]
    push_cast
    omega
  · have h' : ¬ n = x := fun e => h e.symm
    simp [Dead, List.count_append, h, h']
theorem skipped_hand : Skipped (tr ++ [.hand n]) x ↔ Skipped tr x := by simp [Skipped]
theorem skipped_good : Skipped (tr ++ [.good n]) x ↔ Skipped tr x := by simp [Skipped]
theorem skipped_bad : Skipped (tr ++ [.bad n]) x ↔ Skipped tr x := by simp [Skipped]
theorem skipped_skip : Skipped (tr ++ [.skip n]) x ↔ Skipped tr x ∨ x = n := by simp [Skipped]
theorem held_skip : Held (tr ++ [.skip n]) x ↔ Held tr x := by
  simp [Held, List.count_append]
end events

theorem RunInv.held_iff {tr : List (Ev N)} {st : Sched N T K} (h : RunInv g tr st) (n : N) :
    Held tr n ↔ tr.count (.hand n) = tr.count (.good n) + tr.count (.bad n) + 1 := by
  have := h.bal n
  unfold Held
  omega

theorem RunInv.held_hand {tr : List (Ev N)} {st : Sched N T K} (h : RunInv g tr st) (n x : N) :
    Held (tr ++ [.hand n]) x ↔ Held tr x ∨ x = n := by
  have := h.bal x
  unfold Held
  by_cases hx : x = n
  · subst hx
    simp [List.count_append]; omega
  · have hx' : ¬ n = x := fun e => hx e.symm
    simp [List.count_append, hx, hx']

theorem RunInv.held_good {tr : List (Ev N)} {st : Sched N T K} (h : RunInv g tr st) {n : N}
    (x : N) : Held (tr ++ [.good n]) x ↔ Held tr x ∧ x ≠ n := by
  have := h.bal x
  unfold Held
  by_cases hx : x = n
  · subst hx
    simp [List.count_append]; omega
  · have hx' : ¬ n = x := fun e => hx e.symm
    simp [List.count_append, hx, hx']

theorem RunInv.held_bad {tr : List (Ev N)} {st : Sched N T K} (h : RunInv g tr st) {n : N}
    (x : N) : Held (tr ++ [.bad n]) x ↔ Held tr x ∧ x ≠ n := by
  have := h.bal x
  unfold Held
  by_cases hx : x = n
  · subst hx
    simp [List.count_append]; omega
  · have hx' : ¬ n = x := fun e => hx e.symm
    simp [List.count_append, hx, hx']

theorem RunInv.init (hg : g.OK) : RunInv g [] (Sched.init g) := by
  refine ⟨⟨_, (Sched.Inv.init hg).congr ?_ ?_ ?_ ?_ ?_⟩, ?_, ?_, ?_, ?_⟩ <;> intro n
  · simp [Done]
  · simp [Dead]
  · simp [Held]
  · simp [Skipped]
  · rfl
  · simp
  · simp
  · simp
  · simp

/-- `release_block(b)` with SUCCESS for a held block. -/
theorem RunInv.release_good {tr : List (Ev N)} {st : Sched N T K} (hg : g.OK) (h : RunInv g tr st)
    {n : N} (hn : Held tr n) (pick : Nat → Finset N → N) :
    ∃ st', st.releaseBlock g pick n .success = .ok st' ∧ RunInv g (tr ++ [.good n]) st' := by
  obtain ⟨c, hi⟩ := h.inv
  obtain ⟨st', h1, h2⟩ := Sched.release_good hg hi hn pick
  refine ⟨st', h1, ⟨c, h2.congr ?_ ?_ ?_ ?_ ?_⟩, ?_, ?_, ?_, ?_⟩
  · intro x; exact done_good tr n x
  · intro x; exact dead_good tr n x
  · intro x; exact h.held_good x
  · intro x; exact skipped_good tr n x
  · intro x; simp [List.count_append]
  · intro x
    have hb := h.bal x
    by_cases hx : x = n
    · subst hx
      have := (h.held_iff x).1 hn
      simp [List.count_append]; omega
    · have hx' : ¬ n = x := fun e => hx e.symm
      simp [List.count_append, hx']; omega
  · intro x; simpa [List.count_append] using h.hands x
  · intro x
    have hb := h.once x
    by_cases hx : x = n
    · subst hx
      have hd := hi.hS x hn
      have e1 := not_done_good tr x hd
      have e2 := not_done_skip tr x hd
      simp [List.count_append, e1, e2]
    · have hx' : ¬ n = x := fun e => hx e.symm
      simp [List.count_append, hx']; omega
  · intro e he
    rcases List.mem_append.1 he with he | he
    · exact h.node e he
    · rw [List.mem_singleton] at he
      subst he
      exact hi.hNode n hn

/-- `release_block(b)` with FAILED for a held block. -/
theorem RunInv.release_bad {tr : List (Ev N)} {st : Sched N T K} (hg : g.OK) (h : RunInv g tr st)
    {n : N} (hn : Held tr n) {pick : Nat → Finset N → N} (hp : LegalPick pick) :
    ∃ st', st.releaseBlock g pick n .failed = .ok st' ∧ RunInv g (tr ++ [.bad n]) st' := by
  obtain ⟨c, hi⟩ := h.inv
  have hskn : ¬ Skipped tr n := fun hs => hi.hS n hn (Or.inr hs)
  have hfails : ∀ x, (tr ++ [Ev.bad n]).count (.bad x) =
      upd (fun n => tr.count (.bad n)) n (tr.count (.bad n) + 1) x := by
    intro x
    by_cases hx : x = n
    · subst hx; simp [upd, List.count_append]
    · have hx' : ¬ n = x := fun e => hx e.symm
      simp [upd, List.count_append, hx, hx']
  have hrest : (∀ x, (tr ++ [Ev.bad n]).count (.good x) + (tr ++ [Ev.bad n]).count (.bad x) ≤
      (tr ++ [Ev.bad n]).count (.hand x) ∧ (tr ++ [Ev.bad n]).count (.hand x) ≤
      (tr ++ [Ev.bad n]).count (.good x) + (tr ++ [Ev.bad n]).count (.bad x) + 1) ∧
      (∀ x, (tr ++ [Ev.bad n]).count (.hand x) ≤ (g.maxRetries (g.task x)).toNat + 1) ∧
      (∀ x, (tr ++ [Ev.bad n]).count (.good x) + (tr ++ [Ev.bad n]).count (.skip x) ≤ 1) ∧
      ∀ e ∈ tr ++ [Ev.bad n], e.node ∈ g.nodes := by
    refine ⟨?_, ?_, ?_, ?_⟩
    · intro x
      have hb := h.bal x
      by_cases hx : x = n
      · subst hx
        have := (h.held_iff x).1 hn
        simp [List.count_append]; omega
      · have hx' : ¬ n = x := fun e => hx e.symm
        simp [List.count_append, hx']; omega
    · intro x; simpa [List.count_append] using h.hands x
    · intro x; simpa [List.count_append] using h.once x
    · intro e he
      rcases List.mem_append.1 he with he | he
      · exact h.node e he
      · rw [List.mem_singleton] at he
        subst he
        exact hi.hNode n hn
  by_cases hmax : g.maxRetries (g.task n) ≤ tr.count (.bad n)
  · obtain ⟨st', o, h1, _, _, h2⟩ := Sched.release_dead hg hi hn hskn hmax pick hp
    refine ⟨st', h1, ⟨_, h2.congr ?_ ?_ ?_ ?_ ?_⟩, hrest.1, hrest.2.1, hrest.2.2.1, hrest.2.2.2⟩
    · intro x; exact done_bad tr n x
    · intro x
      rw [dead_bad]
      simp only [hmax, and_true]
    · intro x; exact h.held_bad x
    · intro x; exact skipped_bad tr n x
    · exact hfails
  · obtain ⟨st', h1, h2⟩ := Sched.release_retry hg hi hn hskn (by omega) pick
    refine ⟨st', h1, ⟨_, h2.congr ?_ ?_ ?_ ?_ ?_⟩, hrest.1, hrest.2.1, hrest.2.2.1, hrest.2.2.2⟩
    · intro x; exact done_bad tr n x
    · intro x
      rw [dead_bad]
      simp only [hmax, and_false, or_false]
    · intro x; exact h.held_bad x
    · intro x; exact skipped_bad tr n x
    · exact hfails

/-- The queue of a task holds exactly its ready blocks. -/
theorem RunInv.queue_ready {tr : List (Ev N)} {st : Sched N T K} (h : RunInv g tr st) (t : T) (n : N) :
    n ∈ (st.queues t).rootGen ++ (st.queues t).readyQueue ↔ Ready g tr n ∧ g.task n = t := by
  obtain ⟨c, hi⟩ := h.inv
  rw [hi.q_mem]
  unfold Ready
  tauto

/-- Popping a ready block for processing. -/
theorem RunInv.pop_hand {tr : List (Ev N)} {st : Sched N T K} (hg : g.OK) (h : RunInv g tr st)
    {t : T} {n : N} {q : PQueue N K} (hget : (st.queues t).getNext = .ok (some n, q)) :
    Ready g tr n ∧ g.task n = t ∧
    RunInv g (tr ++ [.hand n]) ((((st.modQueue t (fun _ => q)).modState t
        (fun s => { s with ready := s.ready - 1, processing := s.processing + 1 })).modState t
        (fun s => { s with started := true })).modQueue t
          (fun q => { q with processing := insert (g.key n) q.processing })) ∧
    ∀ st2, st2 = ((((st.modQueue t (fun _ => q)).modState t
        (fun s => { s with ready := s.ready - 1, processing := s.processing + 1 })).modState t
        (fun s => { s with skipped := s.skipped + 1 })).modQueue t
          (fun q => { q with processing := insert (g.key n) q.processing })) →
      ∀ pick, ∃ st3, st2.releaseBlock g pick n .success = .ok st3 ∧
        RunInv g (tr ++ [.skip n]) st3 := by
  obtain ⟨c, hi⟩ := h.inv
  rcases Sched.getNext_spec hi t with ⟨hn, _⟩ | ⟨n', q', h1, h2, h3, h4, h5, h6⟩
  · rw [hn] at hget; cases hget
  rw [h1] at hget
  cases hget
  have hr := (h.queue_ready t n).1 (by rw [h2]; exact List.mem_cons_self)
  obtain ⟨⟨hr1, hr2, hr3, hr4, hr5⟩, hr6⟩ := hr
  refine ⟨⟨hr1, hr2, hr3, hr4, hr5⟩, hr6, ?_, ?_⟩
  · have hi2 := Sched.pop_spec hg hi h2 h3 h4 h5 h6
      (st' := ((((st.modQueue t (fun _ => q)).modState t
        (fun s => { s with ready := s.ready - 1, processing := s.processing + 1 })).modState t
        (fun s => { s with started := true })).modQueue t
          (fun q => { q with processing := insert (g.key n) q.processing })))
      rfl (by
        intro t'
        by_cases ht : t' = t
        · subst ht; simp [Sched.modQueue_queues]
        · simp [Sched.modQueue_queues, ht]) (Sk' := Skipped tr) (fun x hx => Or.inl hx) (by
        intro t'
        rw [← hi.skipped]
        by_cases ht : t' = t
        · subst ht; simp [Sched.modState_states]
        · simp [Sched.modState_states, ht])
    refine ⟨⟨c, hi2.congr ?_ ?_ ?_ ?_ ?_⟩, ?_, ?_, ?_, ?_⟩
    · intro x; exact done_hand tr n x
    · intro x; exact dead_hand tr n x
    · intro x; exact h.held_hand n x
    · intro x; exact skipped_hand tr n x
    · intro x; simp [List.count_append]
    · intro x
      have hb := h.bal x
      by_cases hx : x = n
      · subst hx
        have := mt (h.held_iff x).2 hr5
        simp [List.count_append]; omega
      · have hx' : ¬ n = x := fun e => hx e.symm
        simp [List.count_append, hx']; omega
    · intro x
      by_cases hx : x = n
      · subst hx
        have hb := h.bal x
        have h7 := mt (h.held_iff x).2 hr5
        have h8 := not_done_good tr x hr3
        have h9 := hi.fails_le x hr1 hr4
        simp [List.count_append]; omega
      · have hx' : ¬ n = x := fun e => hx e.symm
        have := h.hands x
        simp [List.count_append, hx']; omega
    · intro x; simpa [List.count_append] using h.once x
    · intro e he
      rcases List.mem_append.1 he with he | he
      · exact h.node e he
      · rw [List.mem_singleton] at he
        subst he
        exact hr1
  · rintro st2 rfl pick
    have hsk : ¬ Skipped tr n := fun hs => hr3 (Or.inr hs)
    have hi2 := Sched.pop_spec hg hi h2 h3 h4 h5 h6
      (st' := ((((st.modQueue t (fun _ => q)).modState t
        (fun s => { s with ready := s.ready - 1, processing := s.processing + 1 })).modState t
        (fun s => { s with skipped := s.skipped + 1 })).modQueue t
          (fun q => { q with processing := insert (g.key n) q.processing })))
      rfl (by
        intro t'
        by_cases ht : t' = t
        · subst ht; simp [Sched.modQueue_queues]
        · simp [Sched.modQueue_queues, ht]) (Sk' := fun x => Skipped tr x ∨ x = n) (fun x hx => hx) (by
        intro t'
        rw [cnt_insert hg t' _ hr1 hsk, ← hi.skipped, hr6]
        by_cases ht : t' = t
        · subst ht; simp [Sched.modState_states]
        · simp [Sched.modState_states, ht])
    obtain ⟨st3, e1, e2⟩ := Sched.release_good hg hi2 (Or.inr rfl) pick
    refine ⟨st3, e1, ⟨c, e2.congr ?_ ?_ ?_ ?_ ?_⟩, ?_, ?_, ?_, ?_⟩
    · intro x; exact done_skip tr n x
    · intro x; exact dead_skip tr n x
    · intro x
      rw [held_skip]
      constructor
      · intro hx
        exact ⟨Or.inl hx, fun e => hr5 (e ▸ hx)⟩
      · rintro ⟨hx | hx, h'⟩
        · exact hx
        · exact absurd hx h'
    · intro x; exact skipped_skip tr n x
    · intro x; simp [List.count_append]
    · intro x; simpa [List.count_append] using h.bal x
    · intro x; simpa [List.count_append] using h.hands x
    · intro x
      have hb := h.once x
      by_cases hx : x = n
      · subst hx
        have e1 := not_done_good tr x hr3
        have e2 := not_done_skip tr x hr3
        simp [List.count_append, e1, e2]
      · have hx' : ¬ n = x := fun e => hx e.symm
        simp [List.count_append, hx']; omega
    · intro e he
      rcases List.mem_append.1 he with he | he
      · exact h.node e he
      · rw [List.mem_singleton] at he
        subst he
        exact hr1

/-- Number of blocks that have not completed. -/
noncomputable def unfinished (g : DGraph N T K) (tr : List (Ev N)) : Nat :=
  g.nodes.countP (fun n => @decide (¬ Done tr n) (Classical.propDecidable _))

theorem unfinished_skip (hg : g.OK) {tr : List (Ev N)} {n : N} (hn : n ∈ g.nodes)
    (hd : ¬ Done tr n) : unfinished g tr = unfinished g (tr ++ [.skip n]) + 1 := by
  unfold unfinished
  refine countP_split _ _ n ?_ ?_ ?_ g.nodes hg.nodes_nodup hn
  · intro x hx
    have : Done (tr ++ [.skip n]) x ↔ Done tr x := by rw [done_skip]; simp [hx]
    exact decide_eq_decide.2 (not_congr this.symm)
  · simp [done_skip]
  · simpa using hd

theorem acquireLoop_spec (hg : g.OK) (t : T) (chk : Nat → N → Check) :
    ∀ (fuel k : Nat) (tr : List (Ev N)) (st : Sched N T K) (acc : List N), RunInv g tr st →
      unfinished g tr < fuel →
      ∃ skips r st', Sched.acquireLoop g t fuel chk k st acc = .ok (acc ++ skips, r, st') ∧
        RunInv g (tr ++ acquireEvents skips r) st' ∧
        (∀ i x, skips[i]? = some x → Ready g (tr ++ (skips.take i).map .skip) x ∧ g.task x = t ∧
          chk (k + i) x = .accept) ∧
        (∀ n, r = some n → Ready g (tr ++ skips.map .skip) n ∧ g.task n = t ∧
          chk (k + skips.length) n ≠ .accept) ∧
        (r = none → (st'.states t).ready = 0 ∧
          ∀ n, g.task n = t → ¬ Ready g (tr ++ skips.map .skip) n)
  | 0, _, _, _, _, _, hf => absurd hf (Nat.not_lt_zero _)
  | fuel + 1, k, tr, st, acc, h, hf => by
    obtain ⟨c, hi⟩ := h.inv
    unfold Sched.acquireLoop
    rcases Sched.getNext_spec hi t with ⟨h1, h2, h3, h4⟩ | ⟨n, q, h1, _⟩
    · rw [h1]
      have hsame : st.modQueue t (fun _ => st.queues t) = st := by
        have : (st.modQueue t (fun _ => st.queues t)).queues = st.queues := by
          funext t'
          rw [Sched.modQueue_queues]
          split
          · rename_i ht; rw [ht]
          · rfl
        cases st
        simp only [Sched.modQueue] at this ⊢
        rw [this]
      simp only [hsame]
      refine ⟨[], none, st, by simp, by simpa [acquireEvents] using h, by simp, by simp, ?_⟩
      intro _
      refine ⟨h2, fun n hn hr => ?_⟩
      have hm := (h.queue_ready t n).2 ⟨by simpa using hr, hn⟩
      rw [h3, h4] at hm
      cases hm
    · rw [h1]
      simp only
      obtain ⟨hr, ht, hhand, hskip⟩ := h.pop_hand hg h1
      by_cases hc : chk k n = .accept
      · rw [hc]
        simp only [Sched.precheck, if_true]
        obtain ⟨st3, e1, e2⟩ := hskip _ rfl (fun _ _ => n)
        rw [e1]
        simp only
        have hu := unfinished_skip hg hr.1 hr.2.2.1
        obtain ⟨skips, r, st', f1, f2, f3, f4, f5⟩ := acquireLoop_spec hg t chk fuel (k + 1)
          (tr ++ [.skip n]) st3 (acc ++ [n]) e2 (by omega)
        refine ⟨n :: skips, r, st', ?_, ?_, ?_, ?_, ?_⟩
        · rw [f1]; simp
        · simpa [acquireEvents] using f2
        · intro i x hx
          rcases i with _ | i
          · simp only [List.getElem?_cons_zero, Option.some.injEq] at hx
            subst hx
            simpa using ⟨hr, ht, hc⟩
          · simp only [List.getElem?_cons_succ] at hx
            obtain ⟨a1, a2, a3⟩ := f3 i x hx
            refine ⟨by simpa using a1, a2, ?_⟩
            rw [← a3]; congr 1; omega
        · intro m hm
          obtain ⟨a1, a2, a3⟩ := f4 m hm
          refine ⟨by simpa using a1, a2, ?_⟩
          rw [List.length_cons]
          rwa [show k + (skips.length + 1) = k + 1 + skips.length by omega]
        · intro hnone
          obtain ⟨a1, a2⟩ := f5 hnone
          exact ⟨a1, by simpa using a2⟩
      · have hpc : Sched.precheck (chk k n) = false := by
          cases hq : chk k n
          · exact absurd hq hc
          · rfl
          · rfl
        rw [hpc]
        simp only [Bool.false_eq_true, if_false]
        refine ⟨[], some n, _, by rw [List.append_nil], by simpa [acquireEvents] using hhand, by simp, ?_, by simp⟩
        intro m hm
        cases hm
        simpa using ⟨hr, ht, hc⟩

/-- `acquire_block` in a reachable state. -/
theorem RunInv.acquire (hg : g.OK) {tr : List (Ev N)} {st : Sched N T K} (h : RunInv g tr st)
    (chk : Nat → N → Check) (t : T) :
    ∃ skips r st', st.acquireBlock g chk t = .ok (skips, r, st') ∧
      RunInv g (tr ++ acquireEvents skips r) st' ∧
      (∀ i x, skips[i]? = some x → Ready g (tr ++ (skips.take i).map .skip) x ∧ g.task x = t ∧
        chk i x = .accept) ∧
      (∀ n, r = some n → Ready g (tr ++ skips.map .skip) n ∧ g.task n = t ∧
        chk skips.length n ≠ .accept) ∧
      (r = none → (st'.states t).ready = 0 ∧
        ∀ n, g.task n = t → ¬ Ready g (tr ++ skips.map .skip) n) := by
  have hfuel : unfinished g tr < g.nodes.length + 1 := by
    have : unfinished g tr ≤ g.nodes.length := List.countP_le_length
    omega
  obtain ⟨skips, r, st', f1, f2, f3, f4, f5⟩ := acquireLoop_spec hg t chk (g.nodes.length + 1) 0 tr st
    [] h hfuel
  refine ⟨skips, r, st', by simpa [Sched.acquireBlock] using f1, f2, ?_, ?_, f5⟩
  · intro i x hx
    have := f3 i x hx
    rwa [Nat.zero_add] at this
  · intro n hn
    have := f4 n hn
    rwa [Nat.zero_add] at this

/-- Every reachable state satisfies the invariant. -/
theorem Run.inv (hg : g.OK) {tr : List (Ev N)} {st : Sched N T K} (h : Run g tr st) :
    RunInv g tr st := by
  induction h with
  | init => exact RunInv.init hg
  | acquire chk t _ hacq ih =>
    obtain ⟨skips, r, st', f1, f2, _⟩ := ih.acquire hg chk t
    rw [f1] at hacq
    cases hacq
    exact f2
  | good pick _ hn _ hrel ih =>
    obtain ⟨st', f1, f2⟩ := ih.release_good hg hn pick
    rw [f1] at hrel
    cases hrel
    exact f2
  | bad pick _ hn hp hrel ih =>
    obtain ⟨st', f1, f2⟩ := ih.release_bad hg hn hp
    rw [f1] at hrel
    cases hrel
    exact f2

end Verif
