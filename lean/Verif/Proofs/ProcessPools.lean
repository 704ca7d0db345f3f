import Verif.Proofs.Processes
import Verif.Proofs.WorkerPool

/-! # Worker processes and worker pools: lemmas -/

namespace Verif.PWorld

open Verif

variable {T : Type} [DecidableEq T] {fail : StartFails}

/-- A worker as `Model/WorkerPool` sees it, `is_alive()` and `exitcode` are read from the process table. -/
def seen (os : Nat → Option (Option Int)) (w : PWorker) : Worker :=
  ⟨w.id, if w.proc then
    match os w.id with
    | none => none
    | some none => some .running
    | some (some c) => some (.exited c)
  else none⟩

theorem seen_congr {os os' : Nat → Option (Option Int)} {w : PWorker} (h : os' w.id = os w.id) :
    seen os' w = seen os w := by
  unfold seen
  rw [h]

/-- `f` does to a pool with processes what `g` does to one without, and leaves the processes of other pools alone. -/
def Sim (f : One → PRes One) (g : Pool → Nat → Pool × Nat) : Prop :=
  ∀ (x : One) (p : Pool), p.OK x.next → p.workers = x.workers.map (seen x.os) →
    (f x).err = none ∧ (g p x.next).2 = (f x).val.next ∧
    (g p x.next).1.workers = (f x).val.workers.map (seen (f x).val.os) ∧
    ∀ i, i < x.next → (∀ v ∈ x.workers, v.id ≠ i) → (f x).val.os i = x.os i

theorem spawn_ok (hf : ∀ i, fail i = none) : ∀ (n next : Nat) (os : Nat → Option (Option Int)),
    ∃ ws os', spawn fail n next os = (.ok ws, next + n, os') ∧ ws.map (seen os') = Pool.newWorkers next n ∧
      ∀ i, i < next → os' i = os i
  | 0, next, os => ⟨[], os, rfl, rfl, fun _ _ => rfl⟩
  | n + 1, next, os => by
    obtain ⟨ws, os', h1, h2, h3⟩ := spawn_ok hf n (next + 1) (setOs os next none)
    refine ⟨⟨next, true⟩ :: ws, os', ?_, ?_, ?_⟩
    · rw [spawn, hf]
      simp only
      rw [h1]
      simp only
      congr 2
      omega
    · rw [List.map_cons, h2]
      have h4 : os' next = some none := by
        rw [h3 next (by omega)]
        simp [setOs]
      unfold seen Pool.newWorkers
      simp only [if_true]
      rw [h4, List.range_succ_eq_map, List.map_cons, List.map_map]
      simp only [Nat.add_zero, List.cons.injEq, true_and]
      apply List.map_congr_left
      intro i _
      simp only [Function.comp, Worker.mk.injEq, and_true]
      omega
    · intro i hi
      rw [h3 i (by omega)]
      simp only [setOs]
      rw [if_neg (by omega)]

theorem start_sim (hf : ∀ i, fail i = none) (n : Nat) :
    Sim (fun x => start fail x n) (fun p a => p.start a n) := by
  intro x p hp hx
  obtain ⟨ws, os', h1, h2, h3⟩ := spawn_ok hf n x.next x.os
  simp only
  unfold start
  rw [h1]
  simp only
  refine ⟨trivial, rfl, ?_, fun i hi _ => h3 i hi⟩
  rw [Pool.start_workers hp, List.map_append, h2, hx]
  congr 1
  apply List.map_congr_left
  intro w hw
  symm
  apply seen_congr
  apply h3
  have := hp.2 (seen x.os w) (by rw [hx]; exact List.mem_map_of_mem hw)
  exact this

theorem stopOne_frame (x : One) (id i : Nat) (h : i ≠ id) : (stopOne x id).os i = x.os i := by
  unfold stopOne
  split
  · rfl
  · simp only
    split_ifs
    · unfold terminate
      split_ifs
      · simp only [setOs]
        rw [if_neg h]
      · rfl
    · rfl

theorem stopOne_workers (x : One) (id : Nat) :
    (stopOne x id).workers = x.workers.filter (fun v => v.id ≠ id) ∧ (stopOne x id).next = x.next := by
  unfold stopOne
  cases hf : x.workers.find? (fun w => w.id = id) with
  | none =>
    simp only
    refine ⟨?_, trivial⟩
    symm
    rw [List.filter_eq_self]
    intro w hw
    simpa using (List.find?_eq_none.1 hf) w hw
  | some w => exact ⟨rfl, rfl⟩

theorem stop_foldl' (l : List Nat) : ∀ (x : One),
    (l.foldl stopOne x).next = x.next ∧
    (l.foldl stopOne x).workers = x.workers.filter (fun v => v.id ∉ l) ∧
    (∀ i, i ∉ l → (l.foldl stopOne x).os i = x.os i) := by
  induction l with
  | nil =>
    intro x
    exact ⟨rfl, by simp, fun i _ => rfl⟩
  | cons a l ih =>
    intro x
    obtain ⟨a3, a2⟩ := stopOne_workers x a
    obtain ⟨b2, b3, b4⟩ := ih (stopOne x a)
    rw [List.foldl_cons]
    refine ⟨b2.trans a2, ?_, ?_⟩
    · rw [b3, a3, List.filter_filter]
      apply List.filter_congr
      intro w _
      simp only [List.mem_cons, not_or, ne_eq, decide_not, Bool.decide_and]
      rw [Bool.and_comm]
    · intro i hi
      simp only [List.mem_cons, not_or] at hi
      rw [b4 i hi.2, stopOne_frame x a i hi.1]

/-- Stopping the workers `l`. -/
theorem stop_seen (l : List Nat) (x : One) : ((l.foldl stopOne x).workers.map (seen (l.foldl stopOne x).os)) =
    (x.workers.map (seen x.os)).filter (fun v => v.id ∉ l) := by
  obtain ⟨b2, b3, b4⟩ := stop_foldl' l x
  rw [b3, List.filter_map]
  rw [show (fun (v : PWorker) => decide (v.id ∉ l)) = (fun v : Worker => decide (v.id ∉ l)) ∘ seen x.os from rfl]
  apply List.map_congr_left
  intro w hw
  apply seen_congr
  apply b4
  have := (List.mem_filter.1 hw).2
  exact of_decide_eq_true this

theorem setNum_sim (hf : ∀ i, fail i = none) (n : Nat) :
    Sim (fun x => setNum fail x n) (fun p a => p.setNum a n) := by
  intro x p hp hx
  have hlen : p.workers.length = x.workers.length := by rw [hx, List.length_map]
  simp only
  unfold setNum Pool.setNum
  rw [hlen]
  split_ifs with h1 h2
  · exact start_sim hf _ x p hp hx
  · have hids : p.workers.map (·.id) = x.workers.map (·.id) := by
      rw [hx, List.map_map]
      rfl
    unfold stopLast
    obtain ⟨b2, b3, b4⟩ := stop_foldl' ((x.workers.map (·.id)).drop (x.workers.length - (x.workers.length - n))) x
    refine ⟨rfl, b2.symm, ?_, ?_⟩
    · rw [stop_seen, ← hx]
      unfold Pool.stopN Pool.lastN
      simp only
      rw [hids, if_neg (by omega), List.length_map]
    · intro i _ hi
      apply b4
      intro hc
      obtain ⟨v, hv, he⟩ := List.mem_map.1 (List.mem_of_mem_drop hc)
      exact hi v hv he
  · exact ⟨rfl, rfl, hx, fun _ _ _ => rfl⟩

theorem ended_failed (os : Nat → Option (Option Int)) (w : PWorker) :
    (match ended os w with | some c => decide (c ≠ 0) | none => false) = Pool.failed (seen os w) := by
  unfold ended seen Pool.failed
  by_cases hp : w.proc
  · simp only [hp, if_true]
    rcases os w.id with _ | _ | c <;> rfl
  · simp [hp]

theorem ended_forget (os : Nat → Option (Option Int)) (w : PWorker) :
    seen os (if (ended os w).isSome then { w with proc := false } else w) = Pool.forget (seen os w) := by
  unfold ended seen Pool.forget
  by_cases hp : w.proc
  · simp only [hp, if_true]
    rcases h : os w.id with _ | _ | c <;> simp [hp, h]
  · simp [hp]

theorem reap_seen (x : One) (p : Pool) (hx : p.workers = x.workers.map (seen x.os)) :
    p.reap.1.workers = (reap x).1.workers.map (seen (reap x).1.os) ∧ p.reap.2 = (reap x).2 := by
  have hdead : (p.workers.filter Pool.failed).map (·.id) =
      (x.workers.filter (fun w => match ended x.os w with | some c => decide (c ≠ 0) | none => false)).map (·.id) := by
    rw [hx, List.filter_map, List.map_map]
    congr 1
    apply List.filter_congr
    intro w _
    exact (ended_failed x.os w).symm
  unfold Pool.reap reap
  simp only
  rw [hdead]
  refine ⟨?_, rfl⟩
  rw [hx, List.map_map, List.filter_map, List.filter_map, List.map_map]
  have h1 : (Pool.forget ∘ seen x.os) = (seen x.os ∘ fun w : PWorker => if (ended x.os w).isSome then { w with proc := false } else w) := by
    funext w
    exact (ended_forget x.os w).symm
  rw [h1]
  congr 1

theorem replaceDead_sim (hf : ∀ i, fail i = none) : Sim (fun x => replaceDead fail x) Pools.healthPool := by
  intro x p hp hx
  obtain ⟨h1, h2⟩ := reap_seen x { p with errors := p.errors.tail } hx
  have hok : Pool.OK x.next ({ p with errors := p.errors.tail } : Pool).reap.1 :=
    Pool.reap_ok (p := { p with errors := p.errors.tail }) hp
  simp only
  unfold replaceDead Pools.healthPool
  simp only
  rw [h2]
  split_ifs with h0
  · obtain ⟨a1, a2, a3, a4⟩ := start_sim hf (reap x).2 (reap x).1 _ hok h1
    refine ⟨a1, a2, a3, fun i hi hn => a4 i hi ?_⟩
    intro v hv
    obtain ⟨u, hu, rfl⟩ := List.mem_map.1 (List.mem_of_mem_filter hv)
    have := hn u hu
    split_ifs <;> exact this
  · exact ⟨rfl, rfl, h1, fun _ _ _ => rfl⟩

theorem restart_sim (hf : ∀ i, fail i = none) (id : Nat) :
    Sim (fun x => start fail (stopOne x id) 1) (fun p a => (p.stop id).start a 1) := by
  intro x p hp hx
  obtain ⟨b3, b2⟩ := stopOne_workers x id
  have h1 : (p.stop id).workers = (stopOne x id).workers.map (seen (stopOne x id).os) := by
    have := stop_seen [id] x
    simp only [List.foldl_cons, List.foldl_nil, List.mem_singleton] at this
    rw [this, Pool.stop_workers, hx]
  have hok : Pool.OK (stopOne x id).next (p.stop id) := by
    rw [b2]
    exact Pool.stop_ok hp id
  obtain ⟨a1, a2, a3, a4⟩ := start_sim hf 1 (stopOne x id) _ hok h1
  simp only at a1 a2 a3 a4 ⊢
  rw [b2] at a2 a3 a4
  refine ⟨a1, a2, a3, fun i hi hn => ?_⟩
  rw [a4 i hi (fun v hv => hn v (by rw [b3] at hv; exact List.mem_of_mem_filter hv))]
  by_cases hi' : i = id
  · subst hi'
    unfold stopOne
    rw [List.find?_eq_none.2 (by intro v hv; simpa using hn v hv)]
  · exact stopOne_frame x id i hi'

theorem same_sim : Sim (fun x => ⟨none, x⟩) (fun p a => (p, a)) :=
  fun _ _ _ hx => ⟨rfl, rfl, hx, fun _ _ _ => rfl⟩

/-- The pools of both models hold the same workers. -/
def Same (q : List (T × Pool)) (l : List (T × List PWorker)) (os : Nat → Option (Option Int)) : Prop :=
  q.map (fun e => (e.1, e.2.workers)) = l.map (fun e => (e.1, e.2.map (seen os)))

omit [DecidableEq T] in
theorem Same.congr {q : List (T × Pool)} {l : List (T × List PWorker)} {os os' : Nat → Option (Option Int)}
    (h : Same q l os) (ho : ∀ e ∈ l, ∀ v ∈ e.2, os' v.id = os v.id) : Same q l os' := by
  unfold Same at h ⊢
  rw [h]
  apply List.map_congr_left
  intro e he
  congr 1
  apply List.map_congr_left
  intro v hv
  exact (seen_congr (ho e he v hv)).symm

omit [DecidableEq T] in
theorem each_sim {f : T → One → PRes One} {g : T → Pool → Nat → Pool × Nat} (hg : Pools.Good g)
    (hs : ∀ t, Sim (f t) (g t)) : ∀ (l : List (T × List PWorker)) (q : List (T × Pool)) (a next : Nat)
    (os : Nat → Option (Option Int)), a ≤ next → Pools.OK q a → Same q l os →
    (each f l next os).err = none ∧ (Pools.thread g q next).2 = (each f l next os).val.next ∧
    Same (Pools.thread g q next).1 (each f l next os).val.pools (each f l next os).val.os ∧
    ∀ i, i < next → (∀ e ∈ l, ∀ v ∈ e.2, v.id ≠ i) → (each f l next os).val.os i = os i
  | [], q, a, next, os, hle, hok, h => by
    cases q with
    | cons e q => simp [Same] at h
    | nil => exact ⟨rfl, rfl, rfl, fun _ _ _ => rfl⟩
  | (t, ws) :: r, [], a, next, os, hle, hok, h => by simp [Same] at h
  | (t, ws) :: r, (t', p) :: q, a, next, os, hle, hok, h => by
    have h' : ((t', p.workers) = (t, ws.map (seen os))) ∧ Same q r os := by
      unfold Same at h ⊢
      rw [List.map_cons, List.map_cons] at h
      exact List.cons.inj h
    obtain ⟨h0, hr⟩ := h'
    rw [Prod.mk.injEq] at h0
    obtain ⟨rfl, hw⟩ := h0
    have hp : p.OK next := (hok.2.1 _ List.mem_cons_self).mono hle
    have hpw := List.pairwise_cons.1 hok.2.2
    have hokr : Pools.OK q a := ⟨by have := hok.1; rw [List.map_cons, List.nodup_cons] at this; exact this.2,
      fun e he => hok.2.1 e (List.mem_cons_of_mem _ he), hpw.2⟩
    obtain ⟨a1, a2, a3, a4⟩ := hs t' ⟨ws, next, os⟩ p hp hw
    obtain ⟨g1, g2, g3⟩ := hg t' p next hp
    rcases hy : f t' ⟨ws, next, os⟩ with ⟨err, y⟩
    rw [hy] at a1 a2 a3 a4
    simp only at a1 a2 a3 a4
    subst a1
    rw [a2] at g1 g2
    -- the ids in the rest
    have hids : ∀ e ∈ r, ∀ v ∈ e.2, ∃ e' ∈ q, ∃ v' ∈ e'.2.workers, v'.id = v.id := by
      intro e he v hv
      have : (e.1, e.2.map (seen os)) ∈ q.map (fun e => (e.1, e.2.workers)) := by
        rw [hr]
        exact List.mem_map.2 ⟨e, he, rfl⟩
      obtain ⟨e', he', hee⟩ := List.mem_map.1 this
      rw [Prod.mk.injEq] at hee
      exact ⟨e', he', seen os v, by rw [hee.2]; exact List.mem_map_of_mem hv, rfl⟩
    have hwid : ∀ v ∈ ws, seen os v ∈ p.workers := fun v hv => by rw [hw]; exact List.mem_map_of_mem hv
    have hr1 : Same q r y.os := by
      refine hr.congr fun e he v hv => a4 _ ?_ ?_
      · obtain ⟨e', he', v', hv', hid⟩ := hids e he v hv
        rw [← hid]
        exact lt_of_lt_of_le ((hokr.2.1 _ he').2 v' hv') hle
      · intro u hu hc
        obtain ⟨e', he', v', hv', hid⟩ := hids e he v hv
        exact hpw.1 e' he' _ (hwid u hu) v' hv' (by rw [hid, ← hc]; rfl)
    obtain ⟨b1, b2, b3, b4⟩ := each_sim hg hs r q a y.next y.os (le_trans hle g1) hokr hr1
    rw [each, hy]
    simp only
    unfold Pools.thread
    rw [a2]
    rcases hz : each f r y.next y.os with ⟨err, w⟩
    rw [hz] at b1 b2 b3 b4
    simp only at b1 b2 b3 b4 ⊢
    refine ⟨b1, b2, ?_, ?_⟩
    · unfold Same at b3 ⊢
      rw [List.map_cons, List.map_cons, b3]
      congr 2
      simp only
      rw [a3]
      apply List.map_congr_left
      intro v hv
      symm
      apply seen_congr
      have hv' : seen y.os v ∈ (g t' p next).1.workers := by rw [a3]; exact List.mem_map_of_mem hv
      apply b4
      · exact g2.2 _ hv'
      · intro e he u hu hc
        obtain ⟨e', he', u', hu', hid⟩ := hids e he u hu
        have hlt : u'.id < next := lt_of_lt_of_le ((hokr.2.1 _ he').2 u' hu') hle
        obtain ⟨v0, hv0, hid0⟩ := g3 _ hv' (by
          show v.id < next
          rw [← hc, ← hid]
          exact hlt)
        exact hpw.1 e' he' v0 hv0 u' hu' (by rw [hid, hc, hid0]; rfl)
    · intro i hi hn
      rw [b4 i (lt_of_lt_of_le hi g1) (fun e he => hn e (List.mem_cons_of_mem _ he)),
        a4 i hi (hn _ List.mem_cons_self)]

end Verif.PWorld
