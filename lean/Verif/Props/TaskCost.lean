import Verif.Props.Tasks

/-! # The cost of collecting the tasks in `run_blockwise`: C95 -/

namespace Verif.Props

open Verif Verif.Spec

variable {α : Type}

/-- The claim: collecting the tasks takes at most one step per given task and per entry of the `upstream_tasks` of each of
the collected tasks. -/
def C95_statement : Prop :=
  ∀ (α : Type) (tasks r : List (TTree α)), UniqueIds tasks → Convenience.flatten tasks = .ok r →
    ∃ r', Convenience.flattenLoop (tasks.length + (r.map (·.requires.length)).sum) tasks [] [] = .ok r'

mutual
/-- The ids of a task, of the tasks it requires, of the tasks those require, and so on, with repetitions. -/
def unfolded : TTree α → List Nat
  | .node i _ us => i :: unfoldeds us
/-- The same for a list of tasks. -/
def unfoldeds : List (TTree α) → List Nat
  | [] => []
  | u :: us => unfolded u ++ unfoldeds us
end

theorem unfoldeds_append (a b : List (TTree α)) : unfoldeds (a ++ b) = unfoldeds a ++ unfoldeds b := by
  induction a with
  | nil => rfl
  | cons x xs ih => simp only [List.cons_append, unfoldeds, ih, List.append_assoc]

theorem unfolded_eq (t : TTree α) : unfolded t = t.id :: unfoldeds t.requires := by
  cases t
  rw [unfolded]
  rfl

mutual
theorem unfolded_length : ∀ t : TTree α, (unfolded t).length = Convenience.size t
  | .node i a us => by rw [unfolded, Convenience.size, List.length_cons, unfoldeds_length us]
theorem unfoldeds_length : ∀ ts : List (TTree α), (unfoldeds ts).length = Convenience.sizes ts
  | [] => rfl
  | u :: us => by rw [unfoldeds, Convenience.sizes, List.length_append, unfolded_length u, unfoldeds_length us]
end

/-- The loop needs exactly one step for every entry of the unfolding, whatever it has seen: the upstream tasks of
a task are looked at as often as the task is. -/
theorem C95_steps (tasks : List (TTree α)) (seen : List Nat) (acc : List (TTree α)) (fuel : Nat) :
    (∃ r, Convenience.flattenLoop fuel tasks seen acc = .ok r) ↔ (unfoldeds tasks).length ≤ fuel := by
  induction fuel generalizing tasks seen acc with
  | zero =>
    cases tasks with
    | nil => simp [Convenience.flattenLoop, unfoldeds]
    | cons t ts => simp [Convenience.flattenLoop, unfoldeds, unfolded_eq]
  | succ fuel ih =>
    cases tasks with
    | nil => simp [Convenience.flattenLoop, unfoldeds]
    | cons t ts =>
      have hlen : (unfoldeds (t :: ts)).length = (unfoldeds (ts ++ t.requires)).length + 1 := by
        rw [unfoldeds, unfoldeds_append, unfolded_eq]
        simp only [List.length_append, List.length_cons]
        omega
      rw [hlen, Nat.succ_le_succ_iff, Convenience.flattenLoop]
      split
      · exact ih _ _ _
      · exact ih _ _ _

theorem flattenLoop_fresh : ∀ (fuel : Nat) (ts : List (TTree α)) (seen : List Nat) (acc r : List (TTree α)),
    (unfoldeds ts).Nodup → (∀ i ∈ unfoldeds ts, i ∉ seen) → Convenience.flattenLoop fuel ts seen acc = .ok r →
    (unfoldeds ts).length + (acc.map (·.requires.length)).sum = ts.length + (r.map (·.requires.length)).sum := by
  intro fuel
  induction fuel with
  | zero =>
    intro ts seen acc r _ _ h
    cases ts with
    | nil => cases h; simp [unfoldeds]
    | cons t ts => cases h
  | succ fuel ih =>
    intro ts seen acc r hn hf h
    cases ts with
    | nil => cases h; simp [unfoldeds]
    | cons t ts =>
      have hperm : (unfoldeds (t :: ts)).Perm (t.id :: unfoldeds (ts ++ t.requires)) := by
        rw [unfoldeds, unfoldeds_append, unfolded_eq, List.cons_append]
        exact List.Perm.cons _ List.perm_append_comm
      have hn' := (hperm.nodup_iff.1 hn)
      have ht : t.id ∉ seen := hf _ (hperm.mem_iff.2 List.mem_cons_self)
      rw [Convenience.flattenLoop, if_pos ht] at h
      have := ih _ _ _ _ (List.nodup_cons.1 hn').2 (by
        intro i hi
        rw [List.mem_cons, not_or]
        refine ⟨?_, hf i (hperm.mem_iff.2 (List.mem_cons_of_mem _ hi))⟩
        rintro rfl
        exact (List.nodup_cons.1 hn').1 hi) h
      rw [hperm.length_eq]
      simp only [List.map_append, List.map_cons, List.map_nil, List.sum_append, List.sum_cons, List.sum_nil,
        List.length_append, List.length_cons] at this ⊢
      omega

/-- C95, partial: the claim holds, and the bound is attained, if no task is required by two others or given twice.
Missing: the other cases, for which it is false. -/
theorem C95_tree_partial (tasks r : List (TTree α)) (hn : (unfoldeds tasks).Nodup)
    (hr : Convenience.flatten tasks = .ok r) (fuel : Nat) :
    (∃ r', Convenience.flattenLoop fuel tasks [] [] = .ok r') ↔
      tasks.length + (r.map (·.requires.length)).sum ≤ fuel := by
  have := flattenLoop_fresh _ _ _ _ _ hn (by simp) hr
  rw [C95_steps]
  simp only [List.map_nil, List.sum_nil, Nat.add_zero] at this
  rw [this]

/-- A task that requires two others, one of which requires a further one. -/
example : let tasks : List (TTree Unit) := [.node 0 () [.node 1 () [], .node 2 () [.node 3 () []]]]
    (unfoldeds tasks).Nodup ∧ Convenience.flatten tasks = .ok [.node 0 () [.node 1 () [], .node 2 () [.node 3 () []]],
      .node 1 () [], .node 2 () [.node 3 () []], .node 3 () []] := by
  refine ⟨by simp [unfoldeds, unfolded], rfl⟩

/-- Stages of two tasks each, every one of which requires both tasks of the stage before. -/
def ladder : Nat → List (TTree Unit)
  | 0 => [.node 0 () [], .node 1 () []]
  | n + 1 => [.node (2 * n + 2) () (ladder n), .node (2 * n + 3) () (ladder n)]

theorem ladder_unfolded (n : Nat) : (unfoldeds (ladder n)).length = 2 ^ (n + 2) - 2 := by
  induction n with
  | zero => simp [ladder, unfoldeds, unfolded]
  | succ n ih =>
    simp only [ladder, unfoldeds, unfolded, List.length_append, List.length_cons, List.length_nil, ih]
    have : 2 ^ 2 ≤ 2 ^ (n + 2) := Nat.pow_le_pow_right (by decide) (by omega)
    rw [pow_succ 2 (n + 2)]
    omega

/-- All tasks of the stages up to `n`. -/
def ladderAll : Nat → List (TTree Unit)
  | 0 => ladder 0
  | n + 1 => ladder (n + 1) ++ ladderAll n

theorem ladder_required (n : Nat) (s : TTree Unit) : Required (ladder n) s ↔ s ∈ ladderAll n := by
  induction n with
  | zero =>
    unfold Required
    simp only [ladder, List.mem_cons, List.not_mem_nil, or_false, exists_eq_or_imp, exists_eq_left, ladderAll,
      needs_node]
    simp
  | succ n ih =>
    have : Required (ladder (n + 1)) s ↔ (s = .node (2 * n + 2) () (ladder n) ∨ Required (ladder n) s) ∨
        (s = .node (2 * n + 3) () (ladder n) ∨ Required (ladder n) s) := by
      conv_lhs => unfold Required
      simp only [ladder, List.mem_cons, List.not_mem_nil, or_false, exists_eq_or_imp, exists_eq_left, needs_node]
      rfl
    rw [this, ih, ladderAll, List.mem_append]
    simp only [ladder, List.mem_cons, List.not_mem_nil, or_false]
    tauto

theorem ladderAll_ids (n : Nat) : (∀ s ∈ ladderAll n, s.id < 2 * n + 2 ∧ s.requires.length ≤ 2) ∧
    ((ladderAll n).map TTree.id).Nodup ∧ (ladderAll n).length = 2 * n + 2 := by
  induction n with
  | zero => simp [ladderAll, ladder, TTree.id, TTree.requires]
  | succ n ih =>
    obtain ⟨h1, h2, h3⟩ := ih
    have hl : (ladder n).length = 2 := by cases n <;> rfl
    refine ⟨?_, ?_, ?_⟩
    · intro s hs
      simp only [ladderAll, ladder, List.cons_append, List.nil_append, List.mem_cons] at hs
      rcases hs with rfl | rfl | hs
      · simp only [TTree.id, TTree.requires, hl]; omega
      · simp only [TTree.id, TTree.requires, hl]; omega
      · have := h1 s hs; omega
    · simp only [ladderAll, ladder, List.cons_append, List.nil_append, List.map_cons, List.nodup_cons, List.mem_cons,
        not_or, TTree.id]
      refine ⟨⟨by omega, ?_⟩, ?_, h2⟩ <;>
      · intro hm
        obtain ⟨s, hs, e⟩ := List.mem_map.1 hm
        have := (h1 s hs).1
        omega
    · simp only [ladderAll, ladder, List.length_append, List.length_cons, List.length_nil, h3]; omega

theorem ladder_unique (n : Nat) : UniqueIds (ladder n) := by
  intro s s' h h' e
  rw [ladder_required] at h h'
  exact List.inj_on_of_nodup_map (ladderAll_ids n).2.1 h h' e

/-- `n + 1` stages of two tasks each, where every task requires the two tasks of the stage before, are `2 n + 2`
tasks with at most two upstream tasks each; but the loop does not end within `2 ^ n` steps. -/
theorem C95_exponential (n : Nat) :
    ∃ tasks : List (TTree Unit), UniqueIds tasks ∧
      (∃ r, Convenience.flatten tasks = .ok r ∧ r.length = 2 * n + 2 ∧ ∀ t ∈ r, t.requires.length ≤ 2) ∧
      ∀ fuel ≤ 2 ^ n, ¬ ∃ r, Convenience.flattenLoop fuel tasks [] [] = .ok r := by
  refine ⟨ladder n, ladder_unique n, ?_, ?_⟩
  · obtain ⟨r, hr, _⟩ := C40_flatten (ladder n)
    obtain ⟨h1, h2⟩ := C40_flatten_tasks (ladder n) (ladder_unique n) hr
    have hmem : ∀ s, s ∈ r ↔ s ∈ ladderAll n := fun s => (h2 s).trans (ladder_required n s)
    obtain ⟨h3, h4, h5⟩ := ladderAll_ids n
    refine ⟨r, hr, ?_, fun t ht => (h3 t ((hmem t).1 ht)).2⟩
    rw [← h5]
    exact ((List.perm_ext_iff_of_nodup h1 (List.Nodup.of_map _ h4)).2 hmem).length_eq
  · intro fuel hf
    rw [C95_steps, ladder_unfolded]
    have h1 : 1 ≤ 2 ^ n := Nat.one_le_two_pow
    rw [pow_add]
    omega

/-- C95 is false. -/
theorem C95_false : ¬ C95_statement := by
  intro hC
  obtain ⟨r, hr, _⟩ := C40_flatten (ladder 2)
  obtain ⟨r', h⟩ := hC _ _ _ (ladder_unique 2) hr
  have : (Convenience.flatten (ladder 2)).toOption.map (fun r => (r.map (·.requires.length)).sum) = some 8 := by
    decide +kernel
  rw [hr] at this
  replace this : (r.map (·.requires.length)).sum = 8 := Option.some.inj this
  have h1 := (C95_steps _ _ _ _).1 ⟨r', h⟩
  rw [ladder_unfolded, this] at h1
  simp [ladder] at h1

end Verif.Props
