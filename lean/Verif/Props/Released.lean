import Verif.Props.Scheduler

/-! # What `release_block` returns (C88) -/

set_option linter.unusedSectionVars false

namespace Verif

open Spec

variable {N T K : Type} [DecidableEq N] [DecidableEq T] [DecidableEq K] {g : DGraph N T K}
  {tr : List (Ev N)} {st st' : Sched N T K}

theorem updatedKeys_aux (ns : List N) : ∀ ks : List T, ks.Nodup →
    (ns.foldl (fun ks n => if g.task n ∈ ks then ks else ks ++ [g.task n]) ks).Nodup ∧
    ∀ t, t ∈ ns.foldl (fun ks n => if g.task n ∈ ks then ks else ks ++ [g.task n]) ks ↔
      t ∈ ks ∨ ∃ n ∈ ns, g.task n = t := by
  induction ns with
  | nil => intro ks h; simp [h]
  | cons n ns ih =>
    intro ks h
    rw [List.foldl_cons]
    by_cases hm : g.task n ∈ ks
    · rw [if_pos hm]
      refine ⟨(ih ks h).1, fun t => ?_⟩
      rw [(ih ks h).2 t]
      constructor
      · rintro (h1 | ⟨x, h1, h2⟩)
        · exact Or.inl h1
        · exact Or.inr ⟨x, List.mem_cons_of_mem _ h1, h2⟩
      · rintro (h1 | ⟨x, h1, h2⟩)
        · exact Or.inl h1
        · rcases List.mem_cons.1 h1 with rfl | h1
          · exact Or.inl (h2 ▸ hm)
          · exact Or.inr ⟨x, h1, h2⟩
    · rw [if_neg hm]
      have hn : (ks ++ [g.task n]).Nodup := by
        rw [List.nodup_append]
        refine ⟨h, List.nodup_singleton _, ?_⟩
        intro a ha b hb hab
        rw [List.mem_singleton] at hb
        exact hm (hb ▸ hab ▸ ha)
      refine ⟨(ih _ hn).1, fun t => ?_⟩
      rw [(ih _ hn).2 t, List.mem_append, List.mem_singleton]
      constructor
      · rintro ((h1 | h1) | ⟨x, h1, h2⟩)
        · exact Or.inl h1
        · exact Or.inr ⟨n, List.mem_cons_self, h1.symm⟩
        · exact Or.inr ⟨x, List.mem_cons_of_mem _ h1, h2⟩
      · rintro (h1 | ⟨x, h1, h2⟩)
        · exact Or.inl (Or.inl h1)
        · rcases List.mem_cons.1 h1 with rfl | h1
          · exact Or.inl (Or.inr h2.symm)
          · exact Or.inr ⟨x, h1, h2⟩

theorem held_snoc_good (hg : g.OK) (h : Run g tr st) {n : N} (hn : Held tr n) (x : N) :
    Held (tr ++ [.good n]) x ↔ Held tr x ∧ x ≠ n := by
  have e := ((h.inv hg).held_iff n).1 hn
  by_cases hx : x = n
  · subst hx
    simp only [Held, List.count_append, List.count_singleton]
    simp
    omega
  · have hx' : ¬ n = x := fun h => hx h.symm
    simp [Held, List.count_append, hx, hx']

theorem held_snoc_bad (hg : g.OK) (h : Run g tr st) {n : N} (hn : Held tr n) (x : N) :
    Held (tr ++ [.bad n]) x ↔ Held tr x ∧ x ≠ n := by
  have e := ((h.inv hg).held_iff n).1 hn
  by_cases hx : x = n
  · subst hx
    simp only [Held, List.count_append, List.count_singleton]
    simp
    omega
  · have hx' : ¬ n = x := fun h => hx h.symm
    simp [Held, List.count_append, hx, hx']

/-- C88. What `release_block` returns after a success: no task twice, and exactly the tasks that have
a block which became ready through this release. -/
theorem C88_success (hg : g.OK) (h : Run g tr st) {n : N} (hn : Held tr n) :
    (st.updatedTasks g n .success).Nodup ∧
    ∀ t, t ∈ st.updatedTasks g n .success ↔
      ∃ m, g.task m = t ∧ Ready g (tr ++ [.good n]) m ∧ ¬ Ready g tr m := by
  obtain ⟨c, hi⟩ := (h.inv hg).inv
  have hnn := hi.hNode n hn
  have hns := hi.hS n hn
  obtain ⟨ready, rs', e1, _, _, _, e4⟩ := RS.markSuccess_spec hg hi.rs hi.lost hnn (hi.hUp n hn) hns
    (hi.hF n hn)
  have e : st.updatedTasks g n .success = Sched.updatedKeys g ready := by
    unfold Sched.updatedTasks
    rw [Sched.removeFromProcessing_spec hi hn]
    simp only [Sched.modState_rs, Sched.modQueue_rs, e1]
  obtain ⟨k1, k2⟩ := updatedKeys_aux (g := g) ready [] List.nodup_nil
  rw [e]
  refine ⟨k1, fun t => ?_⟩
  refine (k2 t).trans ?_
  constructor
  · rintro (h1 | ⟨m, h1, h2⟩)
    · cases h1
    · obtain ⟨a1, a2, a3⟩ := (e4 m).1 h1
      have hmn : m ≠ n := by rintro rfl; exact hg.not_up_self a1 a2
      refine ⟨m, h2, ⟨a1, fun u hu => (done_good tr n u).2 (a3 u hu), ?_, ?_, ?_⟩, ?_⟩
      · rw [done_good]
        rintro (hd | hd)
        · exact hns (hi.rs.sUp m hd n a2)
        · exact hmn hd
      · rw [dead_good]
        intro hd; exact hns (hi.rs.fUp m hd n a2)
      · rw [held_snoc_good hg h hn]
        rintro ⟨hh, _⟩; exact hns (hi.hUp m hh n a2)
      · intro hr; exact hns (hr.2.1 n a2)
  · rintro ⟨m, h1, ⟨a1, a2, a3, a4, a5⟩, a6⟩
    right
    rw [done_good, not_or] at a3
    rw [dead_good] at a4
    rw [held_snoc_good hg h hn] at a5
    refine ⟨m, (e4 m).2 ⟨a1, ?_, fun u hu => (done_good tr n u).1 (a2 u hu)⟩, h1⟩
    by_contra hc
    refine a6 ⟨a1, fun u hu => ?_, a3.1, a4, fun hh => a5 ⟨hh, a3.2⟩⟩
    rcases (done_good tr n u).1 (a2 u hu) with hd | rfl
    · exact hd
    · exact absurd hu hc

/-- C88. What `release_block` returns after a failure: the same description — the task of the block if
the block goes back to the queue, nothing if it failed for good. -/
theorem C88_failure (hg : g.OK) (h : Run g tr st) {n : N} (hn : Held tr n) :
    (st.updatedTasks g n .failed).Nodup ∧
    ∀ t, t ∈ st.updatedTasks g n .failed ↔
      ∃ m, g.task m = t ∧ Ready g (tr ++ [.bad n]) m ∧ ¬ Ready g tr m := by
  obtain ⟨c, hi⟩ := (h.inv hg).inv
  have hnn := hi.hNode n hn
  have hret := hi.retries n hnn (hi.hF n hn)
  have e : st.updatedTasks g n .failed =
      if g.maxRetries (g.task n) ≤ tr.count (.bad n) then [] else [g.task n] := by
    unfold Sched.updatedTasks
    rw [Sched.removeFromProcessing_spec hi hn]
    simp only [Sched.modState_queues, Sched.modQueue_queues, if_true, hret]
  have key : ∀ m, Ready g (tr ++ [.bad n]) m → ¬ Ready g tr m →
      m = n ∧ ¬ g.maxRetries (g.task n) ≤ tr.count (.bad n) := by
    rintro m ⟨a1, a2, a3, a4, a5⟩ a6
    rw [done_bad] at a3
    rw [dead_bad, not_or] at a4
    rw [held_snoc_bad hg h hn] at a5
    have hm : m = n := by
      by_contra hc
      exact a6 ⟨a1, fun u hu => (done_bad tr n u).1 (a2 u hu), a3, a4.1, fun hh => a5 ⟨hh, hc⟩⟩
    exact ⟨hm, fun hle => a4.2 ⟨hm, hle⟩⟩
  rw [e]
  by_cases hm : g.maxRetries (g.task n) ≤ tr.count (.bad n)
  · rw [if_pos hm]
    refine ⟨List.nodup_nil, fun t => ⟨fun h1 => absurd h1 List.not_mem_nil, ?_⟩⟩
    rintro ⟨m, _, h1, h2⟩
    exact absurd hm (key m h1 h2).2
  · rw [if_neg hm]
    refine ⟨List.nodup_singleton _, fun t => ?_⟩
    rw [List.mem_singleton]
    constructor
    · rintro rfl
      refine ⟨n, rfl, ⟨hnn, fun u hu => (done_bad tr n u).2 (hi.hUp n hn u hu), ?_, ?_, ?_⟩, ?_⟩
      · rw [done_bad]; exact hi.hS n hn
      · rw [dead_bad]
        rintro (hd | ⟨_, hd⟩)
        · exact hi.hF n hn hd
        · exact hm hd
      · rw [held_snoc_bad hg h hn]
        rintro ⟨_, hd⟩; exact hd rfl
      · intro hr; exact hr.2.2.2.2 hn
    · rintro ⟨m, h1, h2, h3⟩
      rw [← h1, (key m h2 h3).1]

/-- The tasks `release_block` returns are exactly those whose ready count it has raised. -/
theorem C88_ready_count (hg : g.OK) (h : Run g tr st) {n : N} (hn : Held tr n)
    {pick : Nat → Finset N → N} (hp : LegalPick pick) {status : BlockStatus}
    (hrel : st.releaseBlock g pick n status = .ok st') (t : T) :
    t ∈ st.updatedTasks g n status ↔ (st.states t).ready < (st'.states t).ready := by
  have hcnt : ∀ (e : Ev N), Run g (tr ++ [e]) st' →
      (∀ m, Ready g tr m → Ready g (tr ++ [e]) m) →
      ((st.states t).ready < (st'.states t).ready ↔
        ∃ m, g.task m = t ∧ Ready g (tr ++ [e]) m ∧ ¬ Ready g tr m) := by
    intro e h' hmono
    have hsum : cnt g t (Ready g (tr ++ [e])) = cnt g t (Ready g tr) +
        cnt g t (fun m => Ready g (tr ++ [e]) m ∧ ¬ Ready g tr m) := by
      rw [← cnt_or (fun m h1 h2 => h2.2 h1)]
      refine cnt_congr (fun m _ _ => ⟨fun h1 => ?_, ?_⟩)
      · by_cases h2 : Ready g tr m
        · exact Or.inl h2
        · exact Or.inr ⟨h1, h2⟩
      · rintro (h1 | h1)
        · exact hmono m h1
        · exact h1.1
    rw [(C19_counters_partial hg h t).1, (C19_counters_partial hg h' t).1, hsum]
    have h0 := cnt_nonneg (g := g) t (fun m => Ready g (tr ++ [e]) m ∧ ¬ Ready g tr m)
    have hz := cnt_eq_zero (g := g) (t := t) (P := fun m => Ready g (tr ++ [e]) m ∧ ¬ Ready g tr m)
    constructor
    · intro hlt
      by_contra hc
      push Not at hc
      have := hz.2 (fun m _ h1 h2 => h2.2 (hc m h1 h2.1))
      omega
    · rintro ⟨m, h1, h2⟩
      have : cnt g t (fun m => Ready g (tr ++ [e]) m ∧ ¬ Ready g tr m) ≠ 0 :=
        fun hc => hz.1 hc m h2.1.1 h1 h2
      omega
  cases status with
  | success =>
    rw [(C88_success hg h hn).2 t, hcnt (.good n) (Run.good pick h hn hp hrel)]
    rintro m ⟨a1, a2, a3, a4, a5⟩
    have hmn : m ≠ n := by rintro rfl; exact a5 hn
    refine ⟨a1, fun u hu => (done_good tr n u).2 (Or.inl (a2 u hu)), ?_, ?_, ?_⟩
    · rw [done_good]; rintro (hd | hd)
      · exact a3 hd
      · exact hmn hd
    · rw [dead_good]; exact a4
    · rw [held_snoc_good hg h hn]; exact fun hd => a5 hd.1
  | failed =>
    rw [(C88_failure hg h hn).2 t, hcnt (.bad n) (Run.bad pick h hn hp hrel)]
    rintro m ⟨a1, a2, a3, a4, a5⟩
    have hmn : m ≠ n := by rintro rfl; exact a5 hn
    refine ⟨a1, fun u hu => (done_bad tr n u).2 (a2 u hu), ?_, ?_, ?_⟩
    · rw [done_bad]; exact a3
    · rw [dead_bad]; rintro (hd | hd)
      · exact a4 hd
      · exact hmn hd.1
    · rw [held_snoc_bad hg h hn]; exact fun hd => a5 hd.1
  | _ =>
    exfalso
    unfold Sched.releaseBlock at hrel
    split at hrel <;> cases hrel

/-- Releasing block `1` of `vee` makes block `3` of task 1 ready, and `[1]` is returned; releasing
block `0` for the first time with a failure returns its own task; for the second time nothing. -/
example : (exec Ex.vee pickMin [.acq 0 [], .acq 0 [], .bad 0]).map
      (fun p => p.2.updatedTasks Ex.vee 1 .success) = some [1] ∧
    (exec Ex.vee pickMin [.acq 0 [], .acq 0 []]).map
      (fun p => p.2.updatedTasks Ex.vee 0 .failed) = some [0] ∧
    (exec Ex.vee pickMin [.acq 0 [], .acq 0 [], .bad 0, .good 1, .acq 1 [3], .acq 0 []]).map
      (fun p => p.2.updatedTasks Ex.vee 0 .failed) = some [] := by
  decide +kernel

/-- The docstring ("each task returned had its state changed") does not hold the other way round: a
release that orphans the blocks of another task changes the states of both tasks and returns nothing. -/
theorem C88_changed_not_returned :
    ∃ (tr : List (Ev (Fin 4))) (st st' : Sched (Fin 4) (Fin 2) (Fin 4)), Run Ex.vee tr st ∧ Held tr 0 ∧
      st.releaseBlock Ex.vee pickMin 0 .failed = .ok st' ∧ st.updatedTasks Ex.vee 0 .failed = [] ∧
      st'.states 0 ≠ st.states 0 ∧ st'.states 1 ≠ st.states 1 := by
  have hx : (exec Ex.vee pickMin
      [.acq 0 [], .acq 0 [], .bad 0, .good 1, .acq 1 [3], .acq 0 []]).map (fun p =>
        (decide (Held p.1 0), p.2.updatedTasks Ex.vee 0 .failed,
          (p.2.releaseBlock Ex.vee pickMin 0 .failed).toOption.map
            (fun s => (decide (s.states 0 ≠ p.2.states 0), decide (s.states 1 ≠ p.2.states 1))))) =
      some (true, [], some (true, true)) := by
    decide +kernel
  obtain ⟨tr, st, h, e⟩ := exec_map pickMin_legal _ hx
  simp only [Prod.mk.injEq] at e
  obtain ⟨e1, e2, e3⟩ := e
  cases hr : st.releaseBlock Ex.vee pickMin 0 .failed with
  | error x => rw [hr] at e3; cases e3
  | ok st' =>
    rw [hr] at e3
    simp only [Except.toOption, Option.map_some, Option.some.injEq, Prod.mk.injEq,
      decide_eq_true_eq] at e3
    exact ⟨tr, st, st', h, of_decide_eq_true e1, hr, e2, e3.1, e3.2⟩

end Verif
