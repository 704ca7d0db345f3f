import Verif.Model.Processes
import Mathlib.Tactic.SplitIfs

/-! # Worker processes: lemmas -/

namespace Verif.PWorld

open Verif

variable {T : Type} [DecidableEq T] {fail : StartFails}

/-- Why something went wrong: the process of worker `next - 1` could not be started. -/
def Failed (fail : StartFails) (next : Nat) (e : PyErr) : Prop := ∃ j, next = j + 1 ∧ fail j = some e

/-- The workers of a pool fit to the processes. -/
structure Fit1 (x : One) : Prop where
  lt : ∀ w ∈ x.workers, w.id < x.next
  fresh : ∀ i, x.next ≤ i → x.os i = none
  idle : ∀ w ∈ x.workers, w.proc = false → x.os w.id ≠ some none

/-- How a function changes one pool and the processes. -/
structure Step1 (fail : StartFails) (x : One) (r : PRes One) : Prop where
  le : x.next ≤ r.val.next
  fit : Fit1 r.val
  /-- processes that run did so before and are not lost, or are new and in the pool (or lost because of the exception) -/
  alive : ∀ i, r.val.os i = some none →
    (x.os i = some none ∧ (⟨i, true⟩ ∈ x.workers → ⟨i, true⟩ ∈ r.val.workers)) ∨
    (x.next ≤ i ∧ (⟨i, true⟩ ∈ r.val.workers ∨ ∃ e, r.err = some e ∧ Failed fail r.val.next e ∧ i + 1 < r.val.next))

theorem spawn_spec (n : Nat) : ∀ (next : Nat) (os : Nat → Option (Option Int)), (∀ i, next ≤ i → os i = none) →
    next ≤ (spawn fail n next os).2.1 ∧
    (∀ i, (spawn fail n next os).2.1 ≤ i → (spawn fail n next os).2.2 i = none) ∧
    (∀ i, i < next → (spawn fail n next os).2.2 i = os i) ∧
    (∀ ws, (spawn fail n next os).1 = .ok ws → (∀ w ∈ ws, w.proc = true ∧ next ≤ w.id ∧ w.id < (spawn fail n next os).2.1) ∧
      ∀ i, next ≤ i → i < (spawn fail n next os).2.1 → ⟨i, true⟩ ∈ ws) ∧
    (∀ e, (spawn fail n next os).1 = .error e → Failed fail (spawn fail n next os).2.1 e ∧
      (spawn fail n next os).2.2 ((spawn fail n next os).2.1 - 1) = none) := by
  induction n with
  | zero =>
    intro next os h
    refine ⟨le_refl _, h, fun _ _ => rfl, ?_, ?_⟩
    · intro ws hw
      cases hw
      exact ⟨by simp, fun i h1 h2 => absurd h2 (by simp only [spawn]; omega)⟩
    · intro e he
      cases he
  | succ n ih =>
    intro next os h
    rw [spawn]
    cases hf : fail next with
    | some e =>
      simp only
      refine ⟨by omega, fun i hi => h i (by omega), fun _ _ => trivial, ?_, ?_⟩
      · intro ws hw; cases hw
      · intro e' he
        cases he
        exact ⟨⟨next, rfl, hf⟩, h _ (by omega)⟩
    | none =>
      simp only
      obtain ⟨h1, h2, h3, h4, h5⟩ := ih (next + 1) (setOs os next none) (by
        intro i hi
        simp only [setOs]
        rw [if_neg (by omega)]
        exact h i (by omega))
      rcases hr : spawn fail n (next + 1) (setOs os next none) with ⟨r, next', os'⟩
      rw [hr] at h1 h2 h3 h4 h5
      cases r with
      | error e =>
        simp only at h1 h2 h3 h5 ⊢
        refine ⟨by omega, h2, ?_, ?_, ?_⟩
        · intro i hi
          rw [h3 i (by omega)]
          simp only [setOs]
          rw [if_neg (by omega)]
        · intro ws hw; cases hw
        · intro e' he
          cases he
          exact h5 _ rfl
      | ok ws =>
        simp only at h1 h2 h3 h4 ⊢
        obtain ⟨h6, h7⟩ := h4 ws rfl
        refine ⟨by omega, h2, ?_, ?_, ?_⟩
        · intro i hi
          rw [h3 i (by omega)]
          simp only [setOs]
          rw [if_neg (by omega)]
        · intro ws' hw
          cases hw
          constructor
          · intro w hw
            rcases List.mem_cons.1 hw with rfl | hw
            · exact ⟨rfl, le_refl _, by simp only; omega⟩
            · obtain ⟨a, b, c⟩ := h6 w hw
              exact ⟨a, by omega, c⟩
          · intro i hi hi'
            rcases Nat.eq_or_lt_of_le hi with rfl | hi
            · exact List.mem_cons_self
            · exact List.mem_cons_of_mem _ (h7 i hi hi')
        · intro e he; cases he

theorem start_step {x : One} (h : Fit1 x) (n : Nat) : Step1 fail x (start fail x n) := by
  obtain ⟨h1, h2, h3, h4, h5⟩ := spawn_spec (fail := fail) n x.next x.os h.fresh
  unfold start
  rcases hr : spawn fail n x.next x.os with ⟨r, next', os'⟩
  rw [hr] at h1 h2 h3 h4 h5
  simp only at h1 h2 h3 h4 h5
  cases r with
  | error e =>
    simp only
    obtain ⟨h6, h7⟩ := h5 e rfl
    refine ⟨h1, ⟨fun w hw => lt_of_lt_of_le (h.lt w hw) h1, h2, ?_⟩, ?_⟩
    · intro w hw hp
      simp only
      rw [h3 _ (h.lt w hw)]
      exact h.idle w hw hp
    · intro i hi
      simp only at hi
      by_cases hlt : i < x.next
      · rw [h3 i hlt] at hi
        exact Or.inl ⟨hi, id⟩
      · refine Or.inr ⟨by omega, Or.inr ⟨e, rfl, h6, ?_⟩⟩
        simp only
        obtain ⟨j, hj, _⟩ := h6
        by_contra hc
        by_cases hij : i = j
        · rw [hj, Nat.add_sub_cancel, ← hij, hi] at h7
          cases h7
        · rw [h2 i (by omega)] at hi
          cases hi
  | ok ws =>
    simp only
    obtain ⟨h6, h7⟩ := h4 ws rfl
    refine ⟨h1, ⟨?_, h2, ?_⟩, ?_⟩
    · intro w hw
      rcases List.mem_append.1 hw with hw | hw
      · exact lt_of_lt_of_le (h.lt w hw) h1
      · exact (h6 w hw).2.2
    · intro w hw hp
      rcases List.mem_append.1 hw with hw | hw
      · simp only
        rw [h3 _ (h.lt w hw)]
        exact h.idle w hw hp
      · rw [(h6 w hw).1] at hp
        cases hp
    · intro i hi
      simp only at hi ⊢
      by_cases hlt : i < x.next
      · rw [h3 i hlt] at hi
        exact Or.inl ⟨hi, List.mem_append_left _⟩
      · refine Or.inr ⟨by omega, Or.inl ?_⟩
        by_cases hi' : i < next'
        · exact List.mem_append_right _ (h7 i (by omega) hi')
        · rw [h2 i (by omega)] at hi
          cases hi

theorem terminate_alive {os : Nat → Option (Option Int)} {id i : Nat} (h : terminate os id i = some none) :
    os i = some none ∧ i ≠ id := by
  unfold terminate at h
  split_ifs at h with h1
  · simp only [setOs] at h
    split_ifs at h with h2
    · cases h
    · exact ⟨h, h2⟩
  · refine ⟨h, ?_⟩
    rintro rfl
    exact h1 h

theorem terminate_none {os : Nat → Option (Option Int)} {id i : Nat} (h : os i = none) : terminate os id i = none := by
  unfold terminate
  split_ifs with h1
  · simp only [setOs]
    split_ifs with h2
    · subst h2
      rw [h] at h1
      cases h1
    · exact h
  · exact h

/-- After `stopOne` the worker is gone and its process does not run. -/
theorem stopOne_spec {x : One} (h : Fit1 x) (id : Nat) :
    Fit1 (stopOne x id) ∧ (stopOne x id).next = x.next ∧
    (stopOne x id).workers = x.workers.filter (fun v => v.id ≠ id) ∧
    (∀ i, (stopOne x id).os i = some none → x.os i = some none ∧ (⟨i, true⟩ ∈ x.workers → i ≠ id)) := by
  unfold stopOne
  cases hf : x.workers.find? (fun w => w.id = id) with
  | none =>
    simp only
    have hno : ∀ w ∈ x.workers, w.id ≠ id := by
      intro w hw
      simpa using (List.find?_eq_none.1 hf) w hw
    refine ⟨h, trivial, ?_, fun i hi => ⟨hi, ?_⟩⟩
    · symm
      rw [List.filter_eq_self]
      intro w hw
      simpa using hno w hw
    · intro hm
      exact hno _ hm
  | some w =>
    simp only
    have hw : w ∈ x.workers := List.mem_of_find?_eq_some hf
    have hid : w.id = id := by simpa using List.find?_some hf
    have key : ∀ i, (if w.proc = true then terminate x.os id else x.os) i = some none → x.os i = some none ∧ i ≠ id := by
      intro i hi
      split_ifs at hi with hp
      · exact terminate_alive hi
      · refine ⟨hi, ?_⟩
        rintro rfl
        exact h.idle w hw (by simpa using hp) (by rw [hid]; exact hi)
    refine ⟨⟨?_, ?_, ?_⟩, trivial, trivial, fun i hi => ⟨(key i hi).1, fun _ => (key i hi).2⟩⟩
    · intro v hv
      exact h.lt v (List.mem_of_mem_filter hv)
    · intro i hi
      have := h.fresh i hi
      simp only
      split_ifs
      · exact terminate_none this
      · exact this
    · intro v hv hp hi
      exact h.idle v (List.mem_of_mem_filter hv) hp (key _ hi).1

theorem stop_foldl (l : List Nat) : ∀ {x : One}, Fit1 x →
    Fit1 (l.foldl stopOne x) ∧ (l.foldl stopOne x).next = x.next ∧
    (l.foldl stopOne x).workers = x.workers.filter (fun v => v.id ∉ l) ∧
    (∀ i, (l.foldl stopOne x).os i = some none → x.os i = some none ∧ (⟨i, true⟩ ∈ x.workers → i ∉ l)) := by
  induction l with
  | nil =>
    intro x h
    exact ⟨h, rfl, by simp, fun i hi => ⟨hi, fun _ => by simp⟩⟩
  | cons a l ih =>
    intro x h
    obtain ⟨a1, a2, a3, a4⟩ := stopOne_spec h a
    obtain ⟨b1, b2, b3, b4⟩ := ih a1
    rw [List.foldl_cons]
    refine ⟨b1, b2.trans a2, ?_, ?_⟩
    · rw [b3, a3, List.filter_filter]
      apply List.filter_congr
      intro w _
      simp only [List.mem_cons, not_or, ne_eq, decide_not, Bool.decide_and]
      rw [Bool.and_comm]
    · intro i hi
      obtain ⟨c1, c2⟩ := b4 i hi
      obtain ⟨d1, d2⟩ := a4 i c1
      refine ⟨d1, fun hm => ?_⟩
      have hne := d2 hm
      have : (⟨i, true⟩ : PWorker) ∈ (stopOne x a).workers := by
        rw [a3, List.mem_filter]
        exact ⟨hm, by simpa using hne⟩
      simp only [List.mem_cons, not_or]
      exact ⟨hne, c2 this⟩

theorem stopLast_step {x : One} (h : Fit1 x) (n : Nat) : Step1 fail x ⟨none, stopLast x n⟩ := by
  obtain ⟨b1, b2, b3, b4⟩ := stop_foldl ((x.workers.map (·.id)).drop (x.workers.length - n)) h
  refine ⟨le_of_eq b2.symm, b1, ?_⟩
  intro i hi
  obtain ⟨c1, c2⟩ := b4 i hi
  refine Or.inl ⟨c1, fun hm => ?_⟩
  show _ ∈ (((x.workers.map (·.id)).drop (x.workers.length - n)).foldl stopOne x).workers
  rw [b3, List.mem_filter]
  exact ⟨hm, by simpa using c2 hm⟩

theorem same_step {x : One} (h : Fit1 x) : Step1 fail x ⟨none, x⟩ :=
  ⟨le_refl _, h, fun _ hi => Or.inl ⟨hi, id⟩⟩

theorem setNum_step {x : One} (h : Fit1 x) (n : Nat) : Step1 fail x (setNum fail x n) := by
  unfold setNum
  split_ifs
  · exact start_step h _
  · exact stopLast_step h _
  · exact same_step h

/-- After `set_num_workers(0)` the pool is empty, and none of its processes runs. -/
theorem setNum_zero {x : One} (h : Fit1 x) : (setNum fail x 0).err = none ∧ (setNum fail x 0).val.workers = [] ∧
    ∀ i, (setNum fail x 0).val.os i = some none → x.os i = some none ∧ ⟨i, true⟩ ∉ x.workers := by
  unfold setNum
  rw [if_neg (by omega)]
  split_ifs with h0
  · simp only [Nat.sub_zero]
    obtain ⟨b1, b2, b3, b4⟩ := stop_foldl ((x.workers.map (·.id)).drop (x.workers.length - x.workers.length)) h
    rw [Nat.sub_self, List.drop_zero] at b3 b4
    refine ⟨trivial, ?_, ?_⟩
    · show (((x.workers.map (·.id)).drop (x.workers.length - x.workers.length)).foldl stopOne x).workers = []
      rw [Nat.sub_self, List.drop_zero, b3, List.filter_eq_nil_iff]
      intro w hw
      simp only [decide_eq_true_eq, not_not]
      exact List.mem_map_of_mem hw
    · intro i hi
      have hi' : (List.foldl stopOne x (List.map (·.id) x.workers)).os i = some none := by
        have : stopLast x x.workers.length = List.foldl stopOne x (List.map (·.id) x.workers) := by
          unfold stopLast
          rw [Nat.sub_self, List.drop_zero]
        rw [← this]
        exact hi
      obtain ⟨c1, c2⟩ := b4 i hi'
      exact ⟨c1, fun hm => c2 hm (List.mem_map.2 ⟨_, hm, rfl⟩)⟩
  · have : x.workers = [] := List.length_eq_zero_iff.1 (by omega)
    exact ⟨rfl, this, fun i hi => ⟨hi, by rw [this]; simp⟩⟩

theorem ended_alive {os : Nat → Option (Option Int)} {w : PWorker} (h : (ended os w).isSome) : os w.id ≠ some none := by
  intro hc
  unfold ended at h
  rw [hc] at h
  split_ifs at h <;> simp at h

theorem reap_step {x : One} (h : Fit1 x) : Step1 fail x ⟨none, (reap x).1⟩ := by
  refine ⟨le_refl _, ⟨?_, h.fresh, ?_⟩, ?_⟩
  · intro w hw
    obtain ⟨v, hv, rfl⟩ := List.mem_map.1 (List.mem_of_mem_filter hw)
    have := h.lt v hv
    split_ifs <;> exact this
  · intro w hw hp
    obtain ⟨v, hv, rfl⟩ := List.mem_map.1 (List.mem_of_mem_filter hw)
    by_cases he : (ended x.os v).isSome
    · rw [if_pos he]
      exact ended_alive (w := v) he
    · rw [if_neg he] at hp ⊢
      exact h.idle v hv hp
  · intro i hi
    refine Or.inl ⟨hi, fun hm => ?_⟩
    have hne : ¬ (ended x.os ⟨i, true⟩).isSome := fun hc => ended_alive hc hi
    refine List.mem_filter.2 ⟨List.mem_map.2 ⟨_, hm, if_neg hne⟩, ?_⟩
    simp only [decide_eq_true_eq, List.mem_map, List.mem_filter, not_exists, not_and, and_imp]
    intro v hv hd hid
    have : (ended x.os v).isSome := by
      cases he : ended x.os v with
      | some c => rfl
      | none => rw [he] at hd; cases hd
    exact ended_alive this (by rw [hid]; exact hi)

theorem Step1.trans {x y : One} {r : PRes One} (h1 : Step1 fail x ⟨none, y⟩) (h2 : Step1 fail y r) :
    Step1 fail x r := by
  refine ⟨le_trans h1.le h2.le, h2.fit, ?_⟩
  intro i hi
  rcases h2.alive i hi with ⟨a, b⟩ | ⟨a, b⟩
  · rcases h1.alive i a with ⟨c, d⟩ | ⟨c, d | ⟨e, he, _⟩⟩
    · exact Or.inl ⟨c, fun hm => b (d hm)⟩
    · exact Or.inr ⟨c, Or.inl (b d)⟩
    · cases he
  · exact Or.inr ⟨le_trans h1.le a, b⟩

theorem stopOne_step {x : One} (h : Fit1 x) (id : Nat) : Step1 fail x ⟨none, stopOne x id⟩ := by
  obtain ⟨a1, a2, a3, a4⟩ := stopOne_spec h id
  refine ⟨le_of_eq a2.symm, a1, fun i hi => ?_⟩
  obtain ⟨d1, d2⟩ := a4 i hi
  refine Or.inl ⟨d1, fun hm => ?_⟩
  show _ ∈ (stopOne x id).workers
  rw [a3, List.mem_filter]
  exact ⟨hm, by simpa using d2 hm⟩

theorem restart_step {x : One} (h : Fit1 x) (id : Nat) : Step1 fail x (start fail (stopOne x id) 1) :=
  have h1 := stopOne_step (fail := fail) h id
  h1.trans (start_step (fail := fail) h1.fit 1)

theorem replaceDead_step {x : One} (h : Fit1 x) : Step1 fail x (replaceDead fail x) := by
  unfold replaceDead
  have h1 := reap_step (fail := fail) h
  split_ifs
  · exact h1.trans (start_step (fail := fail) h1.fit (reap x).2)
  · exact h1

theorem healthOne_step {x : One} (h : Fit1 x) (reported : Option PyErr) :
    Step1 fail x (healthOne fail reported x) := by
  unfold healthOne
  cases reported with
  | some e =>
    simp only
    split_ifs
    · exact replaceDead_step h
    · exact ⟨le_refl _, h, fun _ hi => Or.inl ⟨hi, id⟩⟩
  | none => exact replaceDead_step h

/-! ### All pools -/

/-- All processes that run belong to a worker in a pool, except for `lost`; the rest as for one pool. -/
structure Fits (lost : Nat → Prop) (w : PWorld T) : Prop where
  lt : ∀ e ∈ w.pools, ∀ v ∈ e.2, v.id < w.next
  fresh : ∀ i, w.next ≤ i → w.os i = none
  idle : ∀ e ∈ w.pools, ∀ v ∈ e.2, v.proc = false → w.os v.id ≠ some none
  alive : ∀ i, w.os i = some none → (∃ e ∈ w.pools, ⟨i, true⟩ ∈ e.2) ∨ lost i

omit [DecidableEq T] in
/-- A loop over the pools: nothing runs that did not run before or was started now, and only the start of a process that
fails loses something.  `front` are the pools that the loop has passed. -/
theorem each_spec {f : T → One → PRes One} (hf : ∀ t x, Fit1 x → Step1 fail x (f t x)) :
    ∀ (l front : List (T × List PWorker)) (next : Nat) (os : Nat → Option (Option Int)) (lost : Nat → Prop),
    Fits lost ⟨front ++ l, next, os⟩ →
    next ≤ (each f l next os).val.next ∧
    Fits (fun i => lost i ∨ ∃ e, (each f l next os).err = some e ∧ Failed fail (each f l next os).val.next e ∧
        i + 1 < (each f l next os).val.next)
      ⟨front ++ (each f l next os).val.pools, (each f l next os).val.next, (each f l next os).val.os⟩
  | [], front, next, os, lost, h => by
    refine ⟨le_refl _, ⟨h.lt, h.fresh, h.idle, fun i hi => ?_⟩⟩
    rcases h.alive i hi with h | h
    · exact Or.inl h
    · exact Or.inr (Or.inl h)
  | (t, ws) :: r, front, next, os, lost, h => by
    have hx : Fit1 ⟨ws, next, os⟩ := ⟨h.lt (t, ws) (by simp), h.fresh, h.idle (t, ws) (by simp)⟩
    have h1 := hf t _ hx
    rw [each]
    rcases hr : f t ⟨ws, next, os⟩ with ⟨err, y⟩
    rw [hr] at h1
    have hle : next ≤ y.next := h1.le
    have hold : ∀ i, i < next → y.os i = some none → os i = some none := by
      intro i hi hy
      rcases h1.alive i hy with ⟨a, _⟩ | ⟨a, _⟩
      · exact a
      · exact absurd hi (not_lt.2 a)
    have hfit : Fits (fun i => lost i ∨ ∃ e, err = some e ∧ Failed fail y.next e ∧ i + 1 < y.next)
        ⟨front ++ (t, y.workers) :: r, y.next, y.os⟩ := by
      refine ⟨?_, h1.fit.fresh, ?_, ?_⟩
      · intro e he v hv
        simp only [List.mem_append, List.mem_cons] at he
        rcases he with he | rfl | he
        · exact lt_of_lt_of_le (h.lt e (by simp [he]) v hv) hle
        · exact h1.fit.lt v hv
        · exact lt_of_lt_of_le (h.lt e (by simp [he]) v hv) hle
      · intro e he v hv hp hc
        simp only [List.mem_append, List.mem_cons] at he
        rcases he with he | rfl | he
        · exact h.idle e (by simp [he]) v hv hp (hold _ (h.lt e (by simp [he]) v hv) hc)
        · exact h1.fit.idle v hv hp hc
        · exact h.idle e (by simp [he]) v hv hp (hold _ (h.lt e (by simp [he]) v hv) hc)
      · intro i hi
        rcases h1.alive i hi with ⟨a, b⟩ | ⟨a, b | ⟨e, b, c⟩⟩
        · rcases h.alive i a with ⟨e, he, hm⟩ | hl
          · simp only [List.mem_append, List.mem_cons] at he
            rcases he with he | rfl | he
            · exact Or.inl ⟨e, by simp [he], hm⟩
            · exact Or.inl ⟨(t, y.workers), by simp, b hm⟩
            · exact Or.inl ⟨e, by simp [he], hm⟩
          · exact Or.inr (Or.inl hl)
        · exact Or.inl ⟨(t, y.workers), by simp, b⟩
        · exact Or.inr (Or.inr ⟨e, b, c⟩)
    cases err with
    | some e =>
      simp only
      exact ⟨hle, hfit⟩
    | none =>
      simp only
      have hfit' : Fits lost ⟨(front ++ [(t, y.workers)]) ++ r, y.next, y.os⟩ := by
        rw [List.append_assoc, List.singleton_append]
        refine ⟨hfit.lt, hfit.fresh, hfit.idle, fun i hi => ?_⟩
        rcases hfit.alive i hi with a | a | ⟨e, he, _⟩
        · exact Or.inl a
        · exact Or.inr a
        · cases he
      obtain ⟨c1, c2⟩ := each_spec hf r (front ++ [(t, y.workers)]) y.next y.os lost hfit'
      rw [List.append_assoc, List.singleton_append] at c2
      exact ⟨le_trans hle c1, c2⟩

omit [DecidableEq T] in
/-- Where the exception of a loop over the pools comes from. -/
theorem each_err {f : T → One → PRes One} {P : PyErr → Nat → (Nat → Option (Option Int)) → Prop}
    (hf : ∀ t x, Fit1 x → Step1 fail x (f t x))
    (hp : ∀ t x e, Fit1 x → (f t x).err = some e → P e (f t x).val.next (f t x).val.os) :
    ∀ (l front : List (T × List PWorker)) (next : Nat) (os : Nat → Option (Option Int)) (lost : Nat → Prop),
    Fits lost ⟨front ++ l, next, os⟩ →
    ∀ e, (each f l next os).err = some e → P e (each f l next os).val.next (each f l next os).val.os
  | [], front, next, os, lost, h, e, he => by cases he
  | (t, ws) :: r, front, next, os, lost, h, e, he => by
    have hx : Fit1 ⟨ws, next, os⟩ := ⟨h.lt (t, ws) (by simp), h.fresh, h.idle (t, ws) (by simp)⟩
    have h2 := hf t _ hx
    have h3 := hp t _ e hx
    rw [each] at he ⊢
    rcases hr : f t ⟨ws, next, os⟩ with ⟨err, y⟩
    rw [hr] at h2 h3 he
    cases err with
    | some e' =>
      simp only at he ⊢
      cases he
      exact h3 rfl
    | none =>
      simp only at he ⊢
      have hle : next ≤ y.next := h2.le
      have hfit : Fits (fun _ => True) ⟨[] ++ r, y.next, y.os⟩ := by
        refine ⟨?_, h2.fit.fresh, ?_, fun _ _ => Or.inr trivial⟩
        · intro e he v hv
          exact lt_of_lt_of_le (h.lt e (by simp at he; simp [he]) v hv) hle
        · intro e he v hv hpr hc
          have hm : e ∈ front ++ (t, ws) :: r := by simp at he; simp [he]
          rcases h2.alive _ hc with ⟨a, _⟩ | ⟨a, _⟩
          · exact h.idle e hm v hv hpr a
          · exact absurd (h.lt e hm v hv) (not_lt.2 a)
      exact each_err hf hp r [] y.next y.os _ hfit e he

theorem start_err {x : One} (h : Fit1 x) {n : Nat} {e : PyErr} (he : (start fail x n).err = some e) :
    Failed fail (start fail x n).val.next e ∧ (start fail x n).val.os ((start fail x n).val.next - 1) = none := by
  obtain ⟨_, _, _, _, h5⟩ := spawn_spec (fail := fail) n x.next x.os h.fresh
  unfold start at he ⊢
  rcases hr : spawn fail n x.next x.os with ⟨r, next', os'⟩
  rw [hr] at h5 he
  cases r with
  | error e' =>
    cases he
    exact h5 _ rfl
  | ok ws => cases he

theorem setNum_err {x : One} (h : Fit1 x) {n : Nat} {e : PyErr} (he : (setNum fail x n).err = some e) :
    Failed fail (setNum fail x n).val.next e ∧ (setNum fail x n).val.os ((setNum fail x n).val.next - 1) = none := by
  unfold setNum at he ⊢
  split_ifs at he ⊢
  exact start_err h he

omit [DecidableEq T] in
/-- The end of a run: all pools are empty and only lost processes are left. -/
theorem stopAll_spec : ∀ (l front : List (T × List PWorker)) (next : Nat) (os : Nat → Option (Option Int))
    (lost : Nat → Prop), Fits lost ⟨front ++ l, next, os⟩ → (∀ e ∈ front, e.2 = []) →
    (each (fun (_ : T) x => setNum fail x 0) l next os).err = none ∧
    (∀ e ∈ (each (fun (_ : T) x => setNum fail x 0) l next os).val.pools, e.2 = []) ∧
    (each (fun (_ : T) x => setNum fail x 0) l next os).val.next = next ∧
    ∀ i, (each (fun (_ : T) x => setNum fail x 0) l next os).val.os i = some none → lost i
  | [], front, next, os, lost, h, hfr => by
    refine ⟨rfl, (fun e he => by cases he), rfl, fun i hi => ?_⟩
    rcases h.alive i hi with ⟨e, he, hm⟩ | h
    · rw [List.append_nil] at he
      rw [hfr e he] at hm
      cases hm
    · exact h
  | (t, ws) :: r, front, next, os, lost, h, hfr => by
    have hx : Fit1 ⟨ws, next, os⟩ := ⟨h.lt (t, ws) (by simp), h.fresh, h.idle (t, ws) (by simp)⟩
    obtain ⟨a1, a2, a3⟩ := setNum_zero (fail := fail) hx
    have a4 : (setNum fail ⟨ws, next, os⟩ 0).val.next = next := by
      unfold setNum
      rw [if_neg (by omega)]
      split_ifs
      · exact (stop_foldl _ hx).2.1
      · rfl
    have a5 := (setNum_step (fail := fail) hx 0).fit.fresh
    rw [each]
    rcases hr : setNum fail ⟨ws, next, os⟩ 0 with ⟨err, y⟩
    rw [hr] at a1 a2 a3 a4 a5
    simp only at a1 a2 a3 a4 a5
    subst a1
    simp only
    have hfit : Fits lost ⟨(front ++ [(t, y.workers)]) ++ r, y.next, y.os⟩ := by
      rw [List.append_assoc, List.singleton_append]
      refine ⟨?_, a5, ?_, ?_⟩
      · intro e he v hv
        simp only [List.mem_append, List.mem_cons] at he
        rw [a4]
        rcases he with he | rfl | he
        · exact h.lt e (by simp [he]) v hv
        · rw [a2] at hv; cases hv
        · exact h.lt e (by simp [he]) v hv
      · intro e he v hv hp hc
        simp only [List.mem_append, List.mem_cons] at he
        rcases he with he | rfl | he
        · exact h.idle e (by simp [he]) v hv hp (a3 _ hc).1
        · rw [a2] at hv; cases hv
        · exact h.idle e (by simp [he]) v hv hp (a3 _ hc).1
      · intro i hi
        obtain ⟨b1, b2⟩ := a3 i hi
        rcases h.alive i b1 with ⟨e, he, hm⟩ | hl
        · simp only [List.mem_append, List.mem_cons] at he
          rcases he with he | rfl | he
          · exact Or.inl ⟨e, by simp [he], hm⟩
          · exact absurd hm b2
          · exact Or.inl ⟨e, by simp [he], hm⟩
        · exact Or.inr hl
    obtain ⟨c1, c2, c3, c4⟩ := stopAll_spec r (front ++ [(t, y.workers)]) y.next y.os lost hfit (by
      intro e he
      rcases List.mem_append.1 he with he | he
      · exact hfr e he
      · rw [List.mem_singleton] at he
        rw [he]; exact a2)
    refine ⟨c1, ?_, c3.trans a4, c4⟩
    intro e he
    rcases List.mem_cons.1 he with rfl | he
    · exact a2
    · exact c2 e he

end Verif.PWorld
