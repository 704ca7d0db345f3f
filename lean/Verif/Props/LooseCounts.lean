import Verif.Props.LooseReport
import Verif.Props.ClusterOne
import Verif.Props.AllFail
import Verif.Props.Order

/-! # C22, C99 and C122 for graphs with blocks that depend on nothing although their task depends on others -/

set_option linter.unusedSectionVars false

namespace Verif.Props

open Verif Verif.Spec

variable {N T K : Type} [DecidableEq N] [DecidableEq T] [DecidableEq K] {g : DGraph N T K}
variable {tr : List (Ev N)} {st : Sched N T K}

private theorem sum_fed (t : T) (o : Option N → Nat) :
    ((g.fed.nodes.filter fun m => g.fed.task m = some t).map o).sum =
      ((g.nodes.filter fun m => g.task m = t).map (fun m => o (some m))).sum := by
  have h : ∀ l : List N, (((l.map some).filter fun m => g.fed.task m = some t).map o).sum =
      ((l.filter fun m => g.task m = t).map (fun m => o (some m))).sum := by
    intro l
    induction l with
    | nil => rfl
    | cons a l ih =>
      have hc : (g.fed.task (some a) = some t) ↔ g.task a = t :=
        ⟨fun h => Option.some.inj h, fun h => congrArg some h⟩
      by_cases ha : g.task a = t
      · rw [List.map_cons, List.filter_cons_of_pos (by simpa using hc.2 ha), List.filter_cons_of_pos (by simpa using ha)]
        simp only [List.map_cons, List.sum_cons, ih]
      · rw [List.map_cons, List.filter_cons_of_neg (by simpa using fun h => ha (hc.1 h)),
          List.filter_cons_of_neg (by simpa using ha), ih]
  rw [show g.fed.nodes = none :: g.nodes.map some from rfl, List.filter_cons_of_neg, h]
  simp [DGraph.fed]

private theorem starved_orphan {n : N} (hs : Starved g n) : ¬ Orphan g tr n := by
  rintro ⟨f, _, ha⟩
  cases ha with
  | single h => rw [Edge, hs.2.1] at h; cases h
  | tail _ h => rw [Edge, hs.2.1] at h; cases h

/-- C22, as `C22_orphan_count_degree`. -/
theorem C22_loose_orphan_count_degree (hg : g.Loose) (h : Run g tr st) (t : T) :
    ∃ o : N → Nat, (∀ m, o m ≤ (g.up m).length) ∧ (∀ m, 0 < o m → m ∈ g.nodes ∧ Orphan g tr m) ∧
      (st.states t).orphaned = (((g.nodes.filter fun m => g.task m = t).map o).sum : Nat) := by
  obtain ⟨o, h1, h2, h3⟩ := C22_orphan_count_degree (fed_ok hg) (run_lift hg h).1 (some t)
  have h2' : ∀ m, 0 < o (some m) → m ∈ g.nodes ∧ Orphan g tr m := by
    intro m hm
    have := h2 (some m) hm
    rwa [mem_fed, orphan_lift] at this
  refine ⟨fun m => o (some m), fun m => ?_, h2', ?_⟩
  · by_cases hs : Starved g m
    · have : ¬ 0 < o (some m) := fun hm => starved_orphan hs (h2' m hm).2
      show o (some m) ≤ _
      omega
    · have := h1 (some m)
      rwa [fed_up hs, List.length_map] at this
  · rw [sum_fed] at h3
    exact h3

/-- C22, as `C22_orphan_count_completed`. -/
theorem C22_loose_orphan_count_completed (hg : g.Loose) (h : Run g tr st) (t : T) :
    ∃ o : N → Nat, (∀ m, o m ≤ 1 + (g.up m).countP (fun u => decide (Done tr u))) ∧
      (∀ m, 0 < o m → m ∈ g.nodes ∧ Orphan g tr m) ∧
      (st.states t).orphaned = (((g.nodes.filter fun m => g.task m = t).map o).sum : Nat) := by
  obtain ⟨o, h1, h2, h3⟩ := C22_orphan_count_completed (fed_ok hg) (run_lift hg h).1 (some t)
  have h2' : ∀ m, 0 < o (some m) → m ∈ g.nodes ∧ Orphan g tr m := by
    intro m hm
    have := h2 (some m) hm
    rwa [mem_fed, orphan_lift] at this
  refine ⟨fun m => o (some m), fun m => ?_, h2', ?_⟩
  · by_cases hs : Starved g m
    · have : ¬ 0 < o (some m) := fun hm => starved_orphan hs (h2' m hm).2
      show o (some m) ≤ _
      omega
    · have := h1 (some m)
      rw [fed_up hs, List.countP_map] at this
      refine this.trans (Nat.add_le_add_left (le_of_eq (List.countP_congr fun u _ => ?_)) 1)
      simp [done_lift]
  · rw [sum_fed] at h3
    exact h3

/-- C22, as `C22_orphan_count_upper`. -/
theorem C22_loose_orphan_count_upper (hg : g.Loose) (h : Run g tr st) (t : T) :
    (st.states t).orphaned ≤ (((g.nodes.filter (fun n => g.task n = t)).map
      (fun n => cntAll g (fun f => Dead g tr f ∧ Anc g f n))).sum : Nat) := by
  have h3 := C22_orphan_count_upper (fed_ok hg) (run_lift hg h).1 (some t)
  rw [sum_fed] at h3
  have e : ∀ n : N, cntAll g.fed (fun f => Dead g.fed (tr.map Ev.lift) f ∧ Anc g.fed f (some n)) =
      cntAll g (fun f => Dead g tr f ∧ Anc g f n) := by
    intro n
    unfold cntAll
    rw [show g.fed.nodes = none :: g.nodes.map some from rfl, List.countP_cons, List.countP_map]
    have h1 : ¬ (Dead g.fed (tr.map Ev.lift) none ∧ Anc g.fed none (some n)) := fun h => not_dead_none h.1
    simp only [h1, decide_false, Bool.false_eq_true, if_false, Nat.add_zero]
    refine List.countP_congr (fun f _ => ?_)
    refine (@decide_eq_true_iff _ (Classical.propDecidable _)).trans (Iff.trans ?_
      (@decide_eq_true_iff _ (Classical.propDecidable _)).symm)
    rw [dead_lift, anc_fed]
  simp only [e] at h3
  exact h3

private theorem image_some {a b : Finset N} (h : a.image some = b.image some) : a = b :=
  Finset.image_injective (Option.some_injective N) h

private theorem sched_lift_inj {a b : Sched N T K} (h : a.lift = b.lift) : a = b := by
  have h1 : a.rs = b.rs := by
    have : a.rs.lift = b.rs.lift := congrArg Sched.rs h
    have e1 := image_some (congrArg RS.surface this)
    have e2 := image_some (congrArg RS.boundary this)
    cases ha : a.rs; cases hb : b.rs
    rw [ha, hb] at e1 e2
    simp only at e1 e2
    rw [e1, e2]
  have h2 : a.states = b.states := by
    funext t
    exact congrFun (congrArg Sched.states h) (some t)
  have h3 : a.queues = b.queues := by
    funext t
    have e : (a.queues t).lift = (b.queues t).lift := congrFun (congrArg Sched.queues h) (some t)
    cases ha : a.queues t; cases hb : b.queues t
    rw [ha, hb] at e
    simp only [PQueue.lift, PQueue.mk.injEq] at e ⊢
    refine ⟨List.map_injective_iff.2 (Option.some_injective N) e.1,
      Finset.image_injective (Option.some_injective K) e.2.1, ?_, e.2.2.2.1,
      List.map_injective_iff.2 (Option.some_injective N) e.2.2.2.2⟩
    funext k
    exact congrFun e.2.2.1 (some k)
  cases a; cases b
  simp only at h1 h2 h3
  rw [h1, h2, h3]

private theorem orphansOf_lift (hg : g.Loose) {n : N} (hn : Fine g n) {pick : Nat → Finset N → N} (hp : LegalPick pick) :
    st.lift.orphansOf g.fed (RS.liftPick pick) (some n) .failed = (st.orphansOf g pick n .failed).image some := by
  unfold Sched.orphansOf
  rw [Sched.removeFromProcessing_lift]
  rcases hr : st.removeFromProcessing g n with e | st1
  · rfl
  · simp only [Except.map]
    by_cases hm : g.maxRetries (g.task n) ≤ (st1.queues (g.task n)).retries (g.key n)
    · rw [if_pos hm, if_pos (show g.fed.maxRetries (g.fed.task (some n)) ≤
        (st1.lift.queues (g.fed.task (some n))).retries (g.fed.key (some n)) from hm)]
      rw [show st1.lift.rs = st1.rs.lift from rfl, RS.markFailure_lift hg hn.1 hn.2 hp]
      rcases hf : RS.markFailure g pick st1.rs n with e | ⟨o, rs⟩
      · rfl
      · rfl
    · rw [if_neg hm, if_neg (show ¬ g.fed.maxRetries (g.fed.task (some n)) ≤
        (st1.lift.queues (g.fed.task (some n))).retries (g.fed.key (some n)) from hm)]
      rfl

/-- C122, as `C122_pop`. -/
theorem C122_loose_pop (hg : g.Loose) (hr : Run g tr st) {n : N} (hn : Held tr n)
    {pick pick' : Nat → Finset N → N} (hp : LegalPick pick) (hp' : LegalPick pick') :
    st.releaseBlock g pick n .failed = st.releaseBlock g pick' n .failed ∧
      st.orphansOf g pick n .failed = st.orphansOf g pick' n .failed := by
  have hf : Fine g n := (run_lift hg hr).2.2 _ (List.count_pos_iff.1 (by unfold Held at hn; omega) : Ev.hand n ∈ tr)
  obtain ⟨c1, c2⟩ := C122_pop (fed_ok hg) (run_lift hg hr).1 (held_lift.2 hn) (RS.liftPick_legal hp)
    (RS.liftPick_legal hp')
  rw [Sched.release_bad_lift hg hf hp, Sched.release_bad_lift hg hf hp'] at c1
  rw [orphansOf_lift hg hf hp, orphansOf_lift hg hf hp'] at c2
  refine ⟨?_, image_some c2⟩
  cases h1 : st.releaseBlock g pick n .failed with
  | error e =>
    cases h2 : st.releaseBlock g pick' n .failed with
    | error e' => rw [h1, h2] at c1; cases c1; rfl
    | ok b => rw [h1, h2] at c1; cases c1
  | ok a =>
    cases h2 : st.releaseBlock g pick' n .failed with
    | error e' => rw [h1, h2] at c1; cases c1
    | ok b =>
      rw [h1, h2] at c1
      exact congrArg Except.ok (sched_lift_inj (Except.ok.inj c1))

/-- C99, as `C99_parallel`. -/
theorem C99_loose_parallel {S : Type} [DecidableEq S] {c : SysConf T} {es : List (ClEv N T S)} {x : Cluster N T K S}
    (hg : g.Loose) (h : ClRun g c es x) (t : T) {cs : List S}
    (hcs : ∀ s k, x.conn s = some k → k.task = t → s ∈ cs) :
    (x.sys.srv.sched.states t).processing ≤ (cs.length : Int) := by
  obtain ⟨ks, hsr⟩ := ClRun.srun hg h
  have hi := hsr.inv hg
  rw [(C19_loose_partial hg hi.run t).2.1]
  classical
  let l := (g.nodes.filter (fun n => decide (g.task n = t ∧ Held (evs x.sys.srv.out) n)))
  have hl : l.Nodup := (hg.nodes_nodup).filter _
  have hheld : ∀ n ∈ l, ∃ s, holder x.sys.srv.out n = some s ∧ s ∈ cs := by
    intro n hn
    obtain ⟨_, h2⟩ := List.mem_filter.1 hn
    obtain ⟨h3, h4⟩ := of_decide_eq_true h2
    obtain ⟨s, hs⟩ := Option.ne_none_iff_exists'.1 ((hi.held n).1 h4)
    refine ⟨s, hs, ?_⟩
    rcases hk : x.conn s with _ | k
    · exact absurd hs (((ClRun.inv hg h).fresh s hk).2.2 n)
    · exact hcs s k hk ((ClRun.heldTask hg h s k n hk hs).symm.trans h3)
  have hsub : l.map (fun n => holder x.sys.srv.out n) ⊆ cs.map some := by
    intro o ho
    obtain ⟨n, hn, rfl⟩ := List.mem_map.1 ho
    obtain ⟨s, h1, h2⟩ := hheld n hn
    exact List.mem_map.2 ⟨s, h2, h1.symm⟩
  have hnd : (l.map (fun n => holder x.sys.srv.out n)).Nodup := by
    refine (List.nodup_map_iff_inj_on hl).2 ?_
    intro a ha b _ e
    obtain ⟨s, h1, _⟩ := hheld a ha
    exact C99_one_block hg h h1 (e ▸ h1)
  have := (hnd.subperm hsub).length_le
  rw [List.length_map, List.length_map] at this
  have e : cnt g t (Held (evs x.sys.srv.out)) = l.length := by
    unfold cnt
    rw [List.countP_eq_length_filter]
    congr 2
    refine List.filter_congr (fun n _ => ?_)
    congr
  omega

/-- In `barren`, whose block 2 is starved, block 0 has failed for good: its one orphan in task 1 is block 1. -/
example : ∃ (tr : List (Ev (Fin 5))) (st : Sched (Fin 5) (Fin 3) (Fin 5)), Ex.barren.Loose ∧ Run Ex.barren tr st ∧
    Dead Ex.barren tr 0 ∧ (st.states 1).orphaned = 1 ∧ Starved Ex.barren 2 := by
  have hx : (sexec Ex.barren Ex.barrenConf (ticks [acq 0 (7 : Nat), bad 0 7, acq 0 7, bad 0 7])).map
      (fun σ => decide (Dead Ex.barren (evs σ.out) 0 ∧ (σ.sched.states 1).orphaned = 1)) = some true := by decide +kernel
  obtain ⟨σ, h, e⟩ := sexec_run (ticks_legal _) _ hx
  obtain ⟨e1, e2⟩ := of_decide_eq_true e
  exact ⟨_, _, Ex.barren_loose, (h.inv Ex.barren_loose).run, e1, e2, ⟨List.mem_finRange _, rfl, by decide⟩⟩

end Verif.Props
