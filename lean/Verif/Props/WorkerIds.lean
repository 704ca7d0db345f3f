import Mathlib.Data.List.Nodup
import Verif.Proofs.WorkerPool
import Verif.Props.Observer

/-! # C79: ids of workers of all runs of a server -/

namespace Verif

open Spec

variable {T : Type} [DecidableEq T]

omit [DecidableEq T] in
/-- Worker `id` is in one of the pools. -/
def Spec.HasWorker (p : Pools T) (id : Nat) : Prop := ∃ e ∈ p.pools, ∃ w ∈ e.2.workers, w.id = id

omit [DecidableEq T] in
/-- All worker ids in the pools of all runs. -/
def Spec.allIds (a : AllPools T) : List Nat := a.runs.flatMap (fun p => p.pools.flatMap (fun e => e.2.workers.map (·.id)))

omit [DecidableEq T] in
theorem HasWorker.lt {p : Pools T} {n id : Nat} (h : Pools.OK p.pools n) (hi : HasWorker p id) : id < n := by
  obtain ⟨e, he, w, hw, rfl⟩ := hi
  exact (h.2.1 e he).2 w hw

omit [DecidableEq T] in
theorem pools_ok_mono {l : List (T × Pool)} {n n' : Nat} (h : Pools.OK l n) (hn : n ≤ n') : Pools.OK l n' :=
  ⟨h.1, fun e he => (h.2.1 e he).mono hn, h.2.2⟩

theorem thread_old {f : T → Pool → Nat → Pool × Nat} (hf : Pools.Good f) {p p' : Pools T} {n : Nat}
    (h : Pools.OK p.pools n) (he : (p'.pools, p'.next) = Pools.thread f p.pools n) :
    Pools.OK p'.pools p'.next ∧ n ≤ p'.next ∧ ∀ id, HasWorker p' id → id < n → HasWorker p id := by
  obtain ⟨e1, e2⟩ := Prod.mk.inj he
  refine ⟨?_, ?_, ?_⟩
  · rw [e1, e2]
    exact Pools.thread_ok hf p.pools n n (le_refl _) h
  · rw [e2]
    exact Pools.thread_le hf p.pools n h.2.1
  · rintro id ⟨⟨t, q'⟩, hq, w, hw, rfl⟩ hlt
    rw [e1] at hq
    obtain ⟨q, b, h1, h2, h3, rfl, _⟩ := Pools.thread_mem hf p.pools n h.2.1 t q' hq
    obtain ⟨v, hv, e⟩ := (hf t q b h3).2.2 w hw (lt_of_lt_of_le hlt h2)
    exact ⟨_, h1, v, hv, e⟩

theorem failureLoop_old {maxF : Nat} {t : T} {id : Nat} : ∀ {l r : List (Pools T)} {n n' : Nat},
    (∀ p ∈ l, Pools.OK p.pools n) → l.Pairwise (fun p q => ∀ i, ¬ (HasWorker p i ∧ HasWorker q i)) →
    AllPools.failureLoop maxF t id l n = .ok (r, n') →
    n ≤ n' ∧ (∀ p ∈ r, Pools.OK p.pools n') ∧ r.Pairwise (fun p q => ∀ i, ¬ (HasWorker p i ∧ HasWorker q i)) ∧
      ∀ p ∈ r, ∀ i, HasWorker p i → i < n → ∃ q ∈ l, HasWorker q i := by
  intro l
  induction l with
  | nil =>
    intro r n n' _ _ h
    cases h
    exact ⟨le_refl _, (by intro p hp; cases hp), .nil, (by intro p hp; cases hp)⟩
  | cons p l ih =>
    intro r n n' h1 h2 h
    simp only [AllPools.failureLoop] at h
    split at h
    · cases h
    · rename_i p' hp'
      split at h
      · cases h
      · rename_i r' n'' hr'
        cases h
        rw [List.pairwise_cons] at h2
        have hp := h1 p List.mem_cons_self
        have hs : poolStep (fun _ => 0) maxF ({ p with next := n } : Pools T) (.failure t id) = .ok p' := hp'
        have ht := Pools.step_thread (ps := { p with next := n }) hp.1 hs
        obtain ⟨a1, a2, a3⟩ := thread_old (p := { p with next := n }) (Pools.good_stepFun _ _ _ _) hp ht
        have a3 : ∀ id, HasWorker p' id → id < n → HasWorker p id := a3
        obtain ⟨b1, b2, b3, b4⟩ := ih (fun q hq => pools_ok_mono (h1 q (List.mem_cons_of_mem _ hq)) a2) h2.2 hr'
        refine ⟨le_trans a2 b1, ?_, ?_, ?_⟩
        · intro q hq
          rcases List.mem_cons.1 hq with rfl | hq
          · exact pools_ok_mono a1 b1
          · exact b2 q hq
        · rw [List.pairwise_cons]
          refine ⟨?_, b3⟩
          rintro q hq i ⟨i1, i2⟩
          obtain ⟨q', hq', i3⟩ := b4 q hq i i2 (HasWorker.lt a1 i1)
          exact h2.1 q' hq' i ⟨a3 i i1 (HasWorker.lt (h1 q' (List.mem_cons_of_mem _ hq')) i3), i3⟩
        · intro q hq i hi hlt
          rcases List.mem_cons.1 hq with rfl | hq
          · exact ⟨p, List.mem_cons_self, a3 i hi hlt⟩
          · obtain ⟨q', hq', h'⟩ := b4 q hq i hi (lt_of_lt_of_le hlt a2)
            exact ⟨q', List.mem_cons_of_mem _ hq', h'⟩

/-- C79: worker ids are never used twice, in whatever runs the server makes: no two workers in any of the pools it ever
made have the same id, and ids of workers that are started later are larger. -/
theorem C79_ids {maxF : Nat} {es : List (PoolsEv T)} {a : AllPools T} (h : AllRun maxF es a)
    (hnd : ∀ num tasks ready, .begin num tasks ready ∈ es → tasks.Nodup) :
    (allIds a).Nodup ∧ ∀ id ∈ allIds a, id < a.next := by
  have key : (∀ p ∈ a.runs, Pools.OK p.pools a.next) ∧
      a.runs.Pairwise (fun p q => ∀ i, ¬ (HasWorker p i ∧ HasWorker q i)) := by
    induction h with
    | nil => exact ⟨(by intro p hp; cases hp), .nil⟩
    | @begin es a num tasks ready h ih =>
      obtain ⟨i1, i2⟩ := ih (fun num tasks ready hm => hnd num tasks ready (List.mem_append_left _ hm))
      have h0 := hnd num tasks ready (by simp)
      have hok : Pools.OK ({ Pools.init tasks with next := a.next } : Pools T).pools a.next :=
        pools_ok_mono (Pools.init_ok h0) (Nat.zero_le _)
      have hr : poolStep num maxF ({ Pools.init tasks with next := a.next } : Pools T) (.recruit ready) =
          .ok (Pools.recruit num ready { Pools.init tasks with next := a.next }) := rfl
      have ht := Pools.step_thread hok.1 hr
      obtain ⟨a1, a2, a3⟩ := thread_old (Pools.good_stepFun _ _ _ _) hok ht
      constructor
      · intro p hp
        rcases List.mem_append.1 hp with hp | hp
        · exact pools_ok_mono (i1 p hp) a2
        · rw [List.mem_singleton.1 hp]
          exact a1
      · change (a.runs ++ [_]).Pairwise _
        rw [List.pairwise_append]
        refine ⟨i2, List.pairwise_singleton _ _, ?_⟩
        rintro p hp q hq i ⟨hi, hi'⟩
        rw [List.mem_singleton.1 hq] at hi'
        obtain ⟨e, he, w, hw, _⟩ := a3 i hi' (HasWorker.lt (i1 p hp) hi)
        obtain ⟨t, _, rfl⟩ := List.mem_map.1 he
        cases hw
    | @failure es a a' t id h hf ih =>
      obtain ⟨i1, i2⟩ := ih (fun num tasks ready hm => hnd num tasks ready (List.mem_append_left _ hm))
      unfold AllPools.failure at hf
      split at hf
      · cases hf
      · rename_i r n hl
        cases hf
        obtain ⟨_, b1, b2, _⟩ := failureLoop_old i1 i2 hl
        exact ⟨b1, b2⟩
    | @finish es a h ih =>
      obtain ⟨i1, i2⟩ := ih (fun num tasks ready hm => hnd num tasks ready (List.mem_append_left _ hm))
      unfold AllPools.finish
      split
      · exact ⟨i1, i2⟩
      · rename_i p hp
        have hsub : ∀ q ∈ a.runs.dropLast, q ∈ a.runs := fun q hq => List.dropLast_subset _ hq
        have hpm : p ∈ a.runs := List.mem_of_getLast? hp
        constructor
        · intro q hq
          rcases List.mem_append.1 hq with hq | hq
          · exact i1 q (hsub q hq)
          · rw [List.mem_singleton.1 hq]
            have hk : p.stopAll.pools.map (·.1) = p.pools.map (·.1) := by
              unfold Pools.stopAll
              rw [List.map_map]
              rfl
            refine ⟨by rw [hk]; exact (i1 p hpm).1, ?_, ?_⟩
            · intro e he
              have := stopAll_workers p e he
              refine ⟨by rw [this]; exact .nil, ?_⟩
              rw [this]
              intro w hw
              cases hw
            · refine List.Pairwise.imp_of_mem (R := fun _ _ => True) ?_ (List.pairwise_of_forall (fun _ _ => trivial))
              intro e f he _ _ v hv
              rw [stopAll_workers p e he] at hv
              cases hv
        · change (a.runs.dropLast ++ [p.stopAll]).Pairwise _
          rw [List.pairwise_append]
          refine ⟨i2.sublist (List.dropLast_sublist _), List.pairwise_singleton _ _, ?_⟩
          rintro _ _ q hq i ⟨_, hi⟩
          rw [List.mem_singleton.1 hq] at hi
          obtain ⟨e, he, w, hw, _⟩ := hi
          rw [stopAll_workers p e he] at hw
          cases hw
  constructor
  · unfold allIds
    rw [List.nodup_flatMap]
    constructor
    · intro p hp
      obtain ⟨_, k2, k3⟩ := key.1 p hp
      rw [List.nodup_flatMap]
      constructor
      · intro e he
        rw [List.Nodup, List.pairwise_map]
        exact (k2 e he).1.imp (fun h => Nat.ne_of_lt h)
      · refine k3.imp ?_
        intro e f hd i hi hi'
        obtain ⟨v, hv, rfl⟩ := List.mem_map.1 hi
        obtain ⟨w, hw, e'⟩ := List.mem_map.1 hi'
        exact hd v hv w hw e'.symm
    · refine key.2.imp ?_
      intro p q hd i hi hi'
      refine hd i ⟨?_, ?_⟩
      · obtain ⟨e, he, h⟩ := List.mem_flatMap.1 hi
        obtain ⟨w, hw, h⟩ := List.mem_map.1 h
        exact ⟨e, he, w, hw, h⟩
      · obtain ⟨e, he, h⟩ := List.mem_flatMap.1 hi'
        obtain ⟨w, hw, h⟩ := List.mem_map.1 h
        exact ⟨e, he, w, hw, h⟩
  · intro id hid
    obtain ⟨p, hp, h⟩ := List.mem_flatMap.1 hid
    obtain ⟨e, he, h⟩ := List.mem_flatMap.1 h
    obtain ⟨w, hw, rfl⟩ := List.mem_map.1 h
    exact (((key.1 p hp).2.1 e he).2 w hw)

/-- Two runs; in the second, worker 1 fails and is replaced; worker 2 is the one that this starts in the pool of the first run. -/
example : ∃ (es : List (PoolsEv Nat)) (a : AllPools Nat), AllRun 0 es a ∧
    (∀ num tasks ready, .begin num tasks ready ∈ es → tasks.Nodup) ∧ allIds a = [2, 3] := by
  have hx : (match AllPools.failure 0 (((AllPools.begin (fun _ => 1) [0] [0] ⟨[], 0⟩).finish).begin (fun _ => 1) [0] [0])
        0 1 with
      | .ok a => decide (allIds a = [2, 3])
      | .error _ => false) = true := by decide +kernel
  split at hx
  · rename_i a ha
    refine ⟨_, a, .failure 0 1 (.begin (fun _ => 1) [0] [0] (.finish (.begin (fun _ => 1) [0] [0] .nil))) ha, ?_,
      of_decide_eq_true hx⟩
    intro num tasks ready hm
    simp at hm
    rw [hm.2.1]
    decide
  · cases hx

end Verif
