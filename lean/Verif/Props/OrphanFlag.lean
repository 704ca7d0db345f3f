import Verif.Proofs.OrphanFlag
import Verif.Props.Queries
import Verif.Props.Starved
import Verif.Props.StarvedSched

/-! # C126: `count_all_orphans`

According to `scheduler.py` 27-35, with `count_all_orphans=True` all orphans are counted accurately; with
`count_all_orphans=False` they are counted as pending, and the work for enumerating them is saved.  According to
`ready_surface.py` 89-92, `mark_failure` returns a lower bound on the number of orphans also then. -/

namespace Verif.Props

open Verif Verif.Spec Verif.Counted

variable {N T K : Type} [DecidableEq N] [DecidableEq T] [DecidableEq K] {g : DGraph N T K} {tr : List (Ev N)}
  {st : Sched N T K}

/-- C126: the flag has no effect, neither on what is done nor on the work. -/
theorem C126_ignored (countAll : Bool) (pick : Nat → Finset N → N) (st : Sched N T K) (n : N) (s : BlockStatus) :
    (releaseBlockFlag g countAll pick st n s).val = st.releaseBlock g pick n s ∧
    (releaseBlockFlag g countAll pick st n s).asks = (Counted.releaseBlock g pick st n s).asks := by
  have h : releaseBlockFlag g countAll pick st n s = Counted.releaseBlock g pick st n s := rfl
  rw [h]
  exact ⟨Counted.releaseBlock_val pick st n s, rfl⟩

/-- C126: whatever the flag is, a block that fails for good costs at least two questions to the dependency graph for each
block that becomes an orphan. -/
theorem C126_cost (hg : g.Loose) (h : Run g tr st) {n : N} (hn : Held tr n) {pick : Nat → Finset N → N}
    (hp : LegalPick pick) (countAll : Bool) :
    2 * (st.orphansOf g pick n .failed).card ≤ (releaseBlockFlag g countAll pick st n .failed).asks := by
  rw [(C126_ignored countAll pick st n .failed).2]
  obtain ⟨st', h1⟩ := ((C24_loose_partial hg h).2 pick n hp hn).2
  by_cases hmax : g.maxRetries (g.task n) ≤ (st.queues (g.task n)).retries (g.key n)
  · obtain ⟨os, e1, e2, e3, -⟩ := release_dead_asks hmax h1
    rw [e2, e3]
    exact markFailure_asks_lower pick e1
  · rw [(release_retry_asks hmax).2.1, Finset.card_empty]
    exact Nat.zero_le _

theorem run_orph (h : Run g tr st) : ∃ rep, RunOrph g tr st rep := by
  induction h with
  | init => exact ⟨_, .init⟩
  | acquire chk t _ h1 ih => obtain ⟨rep, ih⟩ := ih; exact ⟨_, .acquire chk t ih h1⟩
  | good pick _ h1 h2 h3 ih => obtain ⟨rep, ih⟩ := ih; exact ⟨_, .good pick ih h1 h2 h3⟩
  | bad pick _ h1 h2 h3 ih => obtain ⟨rep, ih⟩ := ih; exact ⟨_, .bad pick ih h1 h2 h3⟩

/-- C126, what holds: the number of blocks that `mark_failure` returns is a lower bound on the number of orphans. -/
theorem C126_lower_bound_partial (hg : g.Loose) (h : Run g tr st) {n : N} (hn : Held tr n)
    {pick : Nat → Finset N → N} (hp : LegalPick pick) :
    (st.orphansOf g pick n .failed).card ≤ cntAll g (Orphan g (tr ++ [.bad n])) := by
  obtain ⟨rep, hr⟩ := run_orph h
  obtain ⟨st', h1⟩ := ((C24_loose_partial hg h).2 pick n hp hn).2
  have hx := C21_loose_partial hg (RunOrph.bad pick hr hn hp h1)
  unfold cntAll
  rw [List.countP_eq_length_filter]
  refine (Finset.card_le_card fun x hxs => ?_).trans (List.toFinset_card_le _)
  obtain ⟨h2, h3⟩ := (hx x).1 (Finset.mem_union_right _ hxs)
  exact List.mem_toFinset.2 (List.mem_filter.2 ⟨h2, dtrue h3⟩)

namespace Ex

/-- A task of `L + 1` blocks in a row, each of which depends on the one before; failed blocks are not retried. -/
def row (L : Nat) : DGraph (Fin (L + 1)) (Fin 1) (Fin (L + 1)) :=
  finGraph (L + 1) 1 (fun n => if n.1 = 0 then [] else [⟨n.1 - 1, by omega⟩]) (fun _ => 0) (fun _ => 0) [0]

theorem row_ok (L : Nat) : (row L).OK := by
  refine finGraph_ok ?_ ?_ (by decide) ?_
  · intro b a ha
    by_cases h : b.1 = 0
    · rw [if_pos h] at ha; cases ha
    · rw [if_neg h] at ha
      rw [List.mem_singleton.1 ha, Fin.lt_def]
      dsimp only
      omega
  · intro b
    by_cases h : b.1 = 0
    · rw [if_pos h]; exact List.nodup_nil
    · rw [if_neg h]; exact List.nodup_singleton _
  · intro n hn
    exact absurd (List.mem_singleton.2 (Subsingleton.elim _ _)) hn

theorem row_up {L : Nat} {n : Fin (L + 1)} (h : n.1 ≠ 0) : (row L).up n = [⟨n.1 - 1, by omega⟩] := if_neg h

theorem row_degrees (L : Nat) : Degrees (row L) 1 1 := by
  constructor
  · intro n _
    by_cases h : n.1 = 0
    · have : (row L).up n = [] := if_pos h
      rw [this]; exact Nat.zero_le _
    · rw [row_up h]; exact Nat.le_refl _
  · intro n _
    have hnd := (row_ok L).down_nodup n (List.mem_finRange n)
    have hsub : ∀ a ∈ (row L).down n, a.1 = n.1 + 1 := by
      intro a ha
      have h1 := ((row_ok L).dual n (List.mem_finRange _) a (List.mem_finRange _))
      have h2 : n ∈ (row L).up a := h1.1 ha
      by_cases h : a.1 = 0
      · have h3 : (row L).up a = [] := if_pos h
        rw [h3] at h2; cases h2
      · rw [row_up h] at h2
        have := congrArg Fin.val (List.mem_singleton.1 h2)
        dsimp only at this
        omega
    match hd : (row L).down n, hnd with
    | [], _ => exact Nat.zero_le _
    | [_], _ => exact Nat.le_refl _
    | a :: b :: l, hnd =>
      exfalso
      have h1 := hsub a (by rw [hd]; exact List.mem_cons_self)
      have h2 := hsub b (by rw [hd]; exact List.mem_cons_of_mem _ List.mem_cons_self)
      have h3 : a = b := Fin.ext (h1.trans h2.symm)
      rw [List.nodup_cons] at hnd
      exact hnd.1 (h3 ▸ List.mem_cons_self)

theorem row_anc {L : Nat} : ∀ (k : Nat) (hk : k + 1 < L + 1), Anc (row L) 0 ⟨k + 1, hk⟩
  | 0, hk => by
    refine Relation.TransGen.single ?_
    show (0 : Fin (L + 1)) ∈ (row L).up ⟨1, hk⟩
    rw [row_up (by simp)]
    exact List.mem_singleton.2 rfl
  | k + 1, hk => by
    refine Relation.TransGen.tail (row_anc k (by omega)) ?_
    show (⟨k + 1, _⟩ : Fin (L + 1)) ∈ (row L).up ⟨k + 2, hk⟩
    rw [row_up (by simp)]
    exact List.mem_singleton.2 rfl

/-- The first block of the row can be handed out. -/
theorem row_first (L : Nat) : ∃ st, Run (row L) [.hand 0] st := by
  have hg := row_ok L
  obtain ⟨skips, r, st', h1, h2, h3, h4⟩ := C25_check_function hg Run.init (fun _ _ => .reject) (0 : Fin 1)
  have hs : skips = [] := by
    cases skips with
    | nil => rfl
    | cons x l => exact absurd (h3 0 x rfl).1 (by simp)
  subst hs
  have hrd : (0 : Fin 1) ∈ (Sched.init (row L)).getReadyTasks (row L) := by
    refine (C26_ready_tasks hg Run.init _).2 ⟨0, rfl, ?_⟩
    refine ⟨List.mem_finRange _, ?_, ?_⟩ <;> simp [row, finGraph, Done, Held, Dead]
  rcases r with _ | n
  · rcases (C26_acquire_none hg Run.init h1).2.1 hrd with h | h <;> exact absurd rfl h
  · have hn : n = 0 := by
      by_contra hne
      have h0 : n.1 ≠ 0 := fun h => hne (Fin.ext h)
      have ha : Anc (row L) ⟨n.1 - 1, by omega⟩ n := by
        refine Relation.TransGen.single ?_
        show _ ∈ (row L).up n
        rw [row_up h0]
        exact List.mem_singleton.2 rfl
      have := C15_dependency_order hg h2 (pre := []) (post := []) rfl ha
      simp [Done] at this
    subst hn
    exact ⟨st', h2⟩

end Ex

/-- C126 is false: with `count_all_orphans=False` the work for a block that fails is not bounded, even if no block has
more than one direct neighbour on either side: all blocks after it are looked at, and counted as orphans, so that none of
them is pending. -/
theorem C126_false (L : Nat) : (Ex.row L).OK ∧ Degrees (Ex.row L) 1 1 ∧ ∃ st, Run (Ex.row L) [.hand 0] st ∧
    ∀ pick, LegalPick pick →
    2 * L ≤ (releaseBlockFlag (Ex.row L) false pick st 0 .failed).asks ∧
    ∃ st', (releaseBlockFlag (Ex.row L) false pick st 0 .failed).val = .ok st' ∧ (st'.states 0).orphaned = L ∧
      (st'.states 0).pending = 0 := by
  obtain ⟨st, h⟩ := Ex.row_first L
  refine ⟨Ex.row_ok L, Ex.row_degrees L, st, h, fun pick hp => ?_⟩
  have hg := Ex.row_ok L
  have hh : Held [Ev.hand (0 : Fin (L + 1))] 0 := by simp [Held]
  obtain ⟨st', h1⟩ := ((C24_loose_partial hg.loose h).2 pick 0 hp hh).2
  have hr := Run.bad pick h hh hp h1
  have hdead : Dead (Ex.row L) ([.hand 0] ++ [.bad 0]) 0 := by
    refine ⟨by simp, ?_⟩
    simp [Ex.row, finGraph]
  have horph : ∀ x : Fin L, Orphan (Ex.row L) ([.hand 0] ++ [.bad 0]) x.succ := fun x =>
    ⟨0, hdead, Ex.row_anc x.1 (by omega)⟩
  have hnot : ¬ Orphan (Ex.row L) ([.hand 0] ++ [.bad 0]) 0 := by
    intro ho
    exact C21_orphans_stay_partial hg hr (pre := [.hand 0] ++ [.bad 0]) (post := []) (List.append_nil _).symm ho
      (.hand 0) (by simp) rfl
  have hx : OrphanExact (Ex.row L) ([.hand 0] ++ [.bad 0]) :=
    exact_of_two fun n hn => ((Ex.row_degrees L).up n hn).trans (by omega)
  refine ⟨?_, st', ?_, ?_, ?_⟩
  · refine (Nat.mul_le_mul_left 2 ?_).trans (C126_cost hg.loose h hh hp false)
    obtain ⟨rep, hrep⟩ := run_orph h
    have h2 := C21_orphans_exact_partial hg (RunOrph.bad pick hrep hh hp h1)
    have h3 : (Finset.univ.image (Fin.succ : Fin L → Fin (L + 1))) ⊆ (st.orphansOf (Ex.row L) pick 0 .failed) := by
      intro y hy
      obtain ⟨x, -, rfl⟩ := Finset.mem_image.1 hy
      rcases Finset.mem_union.1 ((h2 x.succ).2 ⟨List.mem_finRange _, horph x⟩) with h4 | h4
      · obtain ⟨-, f, hf, -⟩ := (C21_orphans_exact_partial hg hrep x.succ).1 h4
        exact absurd hf.1 (by simp)
      · exact h4
    have h5 := Finset.card_le_card h3
    rwa [Finset.card_image_of_injective _ (Fin.succ_injective L), Finset.card_univ, Fintype.card_fin] at h5
  · rw [(C126_ignored false pick st 0 .failed).1, h1]
  · rw [C22_orphan_count_partial hg hr hx]
    have h2 : cnt (Ex.row L) 0 (Orphan (Ex.row L) ([.hand 0] ++ [.bad 0])) = ((List.finRange L).map Fin.succ).length := by
      refine cnt_eq_length hg 0 _ ((List.nodup_finRange L).map (Fin.succ_injective L)) ?_
      intro n
      constructor
      · intro hn
        obtain ⟨x, -, rfl⟩ := List.mem_map.1 hn
        exact ⟨List.mem_finRange _, rfl, horph x⟩
      · rintro ⟨-, -, ho⟩
        rcases Fin.eq_zero_or_eq_succ n with rfl | ⟨x, rfl⟩
        · exact absurd ho hnot
        · exact List.mem_map.2 ⟨x, List.mem_finRange _, rfl⟩
    rw [h2, List.length_map, List.length_finRange]
  · rw [C22_pending_partial hg hr hx]
    have h2 : cnt (Ex.row L) 0 (fun n => ¬ (Done ([.hand 0] ++ [.bad 0]) n ∨ Dead (Ex.row L) ([.hand 0] ++ [.bad 0]) n ∨
        Orphan (Ex.row L) ([.hand 0] ++ [.bad 0]) n) ∧ ¬ Ready (Ex.row L) ([.hand 0] ++ [.bad 0]) n ∧
        ¬ Held ([.hand 0] ++ [.bad 0]) n) = 0 := by
      refine cnt_eq_zero.2 fun n _ _ hn => ?_
      rcases Fin.eq_zero_or_eq_succ n with rfl | ⟨x, rfl⟩
      · exact hn.1 (Or.inr (Or.inl hdead))
      · exact hn.1 (Or.inr (Or.inr (horph x)))
    rw [h2]

/-- C126, not vacuous: a run in which a block is out whose failure makes three orphans. -/
example : ∃ tr st, (Ex.row 3).Loose ∧ Run (Ex.row 3) tr st ∧ Held tr 0 ∧ LegalPick (pickMin (k := 4)) ∧
    (st.orphansOf (Ex.row 3) pickMin 0 .failed).card = 3 := by
  have hx : (exec (Ex.row 3) pickMin [.acq 0 []]).map (fun p => decide (Held p.1 0 ∧
      (p.2.orphansOf (Ex.row 3) pickMin 0 .failed).card = 3)) = some true := by decide +kernel
  obtain ⟨tr, st, h, e⟩ := exec_map pickMin_legal _ hx
  obtain ⟨e1, e2⟩ := of_decide_eq_true e
  exact ⟨tr, st, (Ex.row_ok 3).loose, h, e1, pickMin_legal, e2⟩

end Verif.Props
