import Verif.Proofs.TaskGraph

/-! # Claims about task structures (C40, C54) -/

namespace Verif.Props

open Verif Verif.Spec

variable {α : Type}

namespace Ex

/-- Four tasks: 3 requires 1 and 2, which both require 0 (shared). -/
def t0 : TTree Unit := .node 0 () []
def t1 : TTree Unit := .node 1 () [t0]
def t2 : TTree Unit := .node 2 () [t0]
def t3 : TTree Unit := .node 3 () [t1, t2, t1]

end Ex

/-! ## C54: the recorded task graph -/

/-- Each id is recorded once; the recorded object is a given or transitively required task. -/
theorem C54_recorded_once (tasks : List (TTree α)) :
    (TaskGraph.build tasks).ids.Nodup ∧
    ∀ x ∈ (TaskGraph.build tasks).ids, ∃ t, (TaskGraph.build tasks).taskMap x = some t ∧
      t.id = x ∧ Required tasks t := by
  refine ⟨(TaskGraph.build_inv tasks).nodup, fun x hx => ?_⟩
  obtain ⟨t, h1, h2, h3, _⟩ := TaskGraph.build_complete tasks hx
  exact ⟨t, h1, h2, h3⟩

/-- If ids are unique names, exactly the required tasks are recorded. -/
theorem C54_all_recorded (tasks : List (TTree α)) (hid : UniqueIds tasks) (x : Nat) :
    x ∈ (TaskGraph.build tasks).ids ↔ ∃ s, Required tasks s ∧ s.id = x := by
  constructor
  · intro hx
    obtain ⟨t, _, h2, h3, _⟩ := TaskGraph.build_complete tasks hx
    exact ⟨t, h3, h2⟩
  · rintro ⟨s, hs, rfl⟩
    exact (TaskGraph.build_map tasks hid hs).1

/-- Upstream and downstream records agree. -/
theorem C54_dual (tasks : List (TTree α)) (a b : Nat) :
    b ∈ (TaskGraph.build tasks).downs a ↔ a ∈ (TaskGraph.build tasks).ups b :=
  (TaskGraph.build_inv tasks).dual a b

/-- A required task is recorded upstream of exactly the tasks that require it. -/
theorem C54_upstream (tasks : List (TTree α)) (hid : UniqueIds tasks) {t : TTree α}
    (ht : Required tasks t) (a : Nat) :
    a ∈ (TaskGraph.build tasks).ups t.id ↔ ∃ u ∈ t.requires, u.id = a := by
  obtain ⟨h1, h2⟩ := TaskGraph.build_map tasks hid ht
  obtain ⟨t', h3, _, _, h4⟩ := TaskGraph.build_complete tasks h1
  rw [h2] at h3; cases h3
  exact h4 a

/-- The root tasks are the tasks that require nothing. -/
theorem C54_roots (tasks : List (TTree α)) (hid : UniqueIds tasks) {t : TTree α}
    (ht : Required tasks t) : t.id ∈ (TaskGraph.build tasks).rootTasks ↔ t.requires = [] := by
  have h1 := (TaskGraph.build_map tasks hid ht).1
  have h2 := C54_upstream tasks hid ht
  simp only [TaskGraph.rootTasks, List.mem_filter, h1, true_and, decide_eq_true_eq,
    List.length_eq_zero_iff, List.eq_nil_iff_forall_not_mem]
  constructor
  · intro h u hu
    exact h u.id ((h2 _).2 ⟨u, hu, rfl⟩)
  · intro h a ha
    obtain ⟨u, hu, _⟩ := (h2 a).1 ha
    exact h u hu

/-- No task is (transitively) upstream of itself. -/
theorem C54_acyclic (tasks : List (TTree α)) (hid : UniqueIds tasks) (t : Nat) :
    ¬ Relation.TransGen (fun a b => a ∈ (TaskGraph.build tasks).ups b) t t := by
  obtain ⟨rank, hr⟩ := TaskGraph.build_acyclic tasks hid
  intro h
  have : ∀ a b, Relation.TransGen (fun a b => a ∈ (TaskGraph.build tasks).ups b) a b →
      rank a < rank b := by
    intro a b hab
    induction hab with
    | single h => exact hr _ _ h
    | tail _ h ih => exact lt_trans ih (hr _ _ h)
  exact lt_irrefl _ (this t t h)

/-- The scheduler's `task_map` has the same keys, in the same order. -/
theorem C54_scheduler_tasks (tasks : List (TTree α)) :
    Scheduler.initTasks [] tasks = (TaskGraph.build tasks).ids := TaskGraph.initTasks_build tasks

/-- The diamond: recorded in depth-first order, with the links of the picture. -/
example : (TaskGraph.build [Ex.t3, Ex.t1]).ids = [3, 1, 0, 2] ∧
    (TaskGraph.build [Ex.t3, Ex.t1]).ups 3 = [1, 2] ∧
    (TaskGraph.build [Ex.t3, Ex.t1]).downs 0 = [1, 2] ∧
    (TaskGraph.build [Ex.t3, Ex.t1]).rootTasks = [0] := by decide

theorem needs_node {i : Nat} {a : α} {us : List (TTree α)} {s : TTree α} :
    Needs (.node i a us) s ↔ s = .node i a us ∨ ∃ u ∈ us, Needs u s := by
  constructor
  · intro h
    rcases Relation.ReflTransGen.cases_head h with h | ⟨c, hc, hcs⟩
    · exact Or.inl h.symm
    · exact Or.inr ⟨c, hc, hcs⟩
  · rintro (rfl | ⟨u, hu, hus⟩)
    · exact Relation.ReflTransGen.refl
    · exact Relation.ReflTransGen.head (b := u) hu hus

/-- The hypothesis is met by the diamond. -/
theorem Ex.diamond_unique : UniqueIds [Ex.t3, Ex.t1] := by
  have h : ∀ s, Required [Ex.t3, Ex.t1] s → s = Ex.t0 ∨ s = Ex.t1 ∨ s = Ex.t2 ∨ s = Ex.t3 := by
    rintro s ⟨t, ht, hts⟩
    have h0 : ∀ s, Needs Ex.t0 s → s = Ex.t0 := by
      intro s h; rw [Ex.t0, needs_node] at h; simpa [Ex.t0] using h
    have h1 : ∀ s, Needs Ex.t1 s → s = Ex.t1 ∨ s = Ex.t0 := by
      intro s h
      rw [Ex.t1, needs_node] at h
      rcases h with h | ⟨u, hu, h⟩
      · exact Or.inl h
      · simp only [List.mem_singleton] at hu; subst hu; exact Or.inr (h0 s h)
    have h2 : ∀ s, Needs Ex.t2 s → s = Ex.t2 ∨ s = Ex.t0 := by
      intro s h
      rw [Ex.t2, needs_node] at h
      rcases h with h | ⟨u, hu, h⟩
      · exact Or.inl h
      · simp only [List.mem_singleton] at hu; subst hu; exact Or.inr (h0 s h)
    have h3 : ∀ s, Needs Ex.t3 s → s = Ex.t3 ∨ s = Ex.t1 ∨ s = Ex.t2 ∨ s = Ex.t0 := by
      intro s h
      rw [Ex.t3, needs_node] at h
      rcases h with h | ⟨u, hu, h⟩
      · exact Or.inl h
      · simp only [List.mem_cons, List.not_mem_nil, or_false] at hu
        rcases hu with rfl | rfl | rfl
        · rcases h1 s h with h | h <;> tauto
        · rcases h2 s h with h | h <;> tauto
        · rcases h1 s h with h | h <;> tauto
    simp only [List.mem_cons, List.not_mem_nil, or_false] at ht
    rcases ht with rfl | rfl
    · rcases h3 s hts with h | h | h | h <;> tauto
    · rcases h1 s hts with h | h <;> tauto
  intro s s' hs hs' heq
  rcases h s hs with rfl | rfl | rfl | rfl <;> rcases h s' hs' with rfl | rfl | rfl | rfl <;>
    first | rfl | (exfalso; revert heq; decide)

/-- Without unique names a required task can be lost: two different task objects with id 1; the
requirement of the second one is never recorded. -/
theorem C54_needs_unique_ids :
    let tasks : List (TTree Unit) := [.node 1 () [], .node 1 () [.node 0 () []]]
    (∃ s, Required tasks s ∧ s.id = 0) ∧ 0 ∉ (TaskGraph.build tasks).ids := by
  intro tasks
  refine ⟨⟨.node 0 () [], ⟨.node 1 () [.node 0 () []], by simp [tasks], ?_⟩, rfl⟩, by decide⟩
  exact Relation.ReflTransGen.single (by simp [TTree.requires])

/-! ## C40: flattening in `run_blockwise` -/

/-- The loop ends, and the resulting list contains each id once, only required tasks, and the id
of every required task. -/
theorem C40_flatten (tasks : List (TTree α)) :
    ∃ r, Convenience.flatten tasks = .ok r ∧ (r.map TTree.id).Nodup ∧
      (∀ t ∈ r, Required tasks t) ∧ ∀ s, Required tasks s → s.id ∈ r.map TTree.id := by
  obtain ⟨r, h1, h2, _, h4, h5⟩ := Convenience.flattenLoop_spec (Convenience.sizes tasks) tasks [] []
    (le_refl _) (by simp) (by simp)
  refine ⟨r, h1, h2, fun t ht => ?_, fun s hs => ?_⟩
  · rcases h4 t ht with h | h
    · cases h
    · exact h
  · obtain ⟨t, ht, hts⟩ := h5 s hs
    exact List.mem_map.2 ⟨t, ht, hts⟩

/-- If ids are unique names, the list contains exactly the required tasks, each once. -/
theorem C40_flatten_tasks (tasks : List (TTree α)) (hid : UniqueIds tasks) {r : List (TTree α)}
    (hr : Convenience.flatten tasks = .ok r) : r.Nodup ∧ ∀ s, s ∈ r ↔ Required tasks s := by
  obtain ⟨r', h1, h2, h3, h4⟩ := C40_flatten tasks
  rw [h1] at hr; cases hr
  refine ⟨List.Nodup.of_map _ h2, fun s => ⟨h3 s, fun hs => ?_⟩⟩
  obtain ⟨t, ht, hts⟩ := List.mem_map.1 (h4 s hs)
  rwa [hid t s (h3 t ht) hs hts] at ht

/-- Passing the flattened list on to the scheduler records the same tasks as the original list. -/
theorem C40_same_graph (tasks : List (TTree α)) (hid : UniqueIds tasks) {r : List (TTree α)}
    (hr : Convenience.flatten tasks = .ok r) (x : Nat) :
    x ∈ (TaskGraph.build r).ids ↔ x ∈ (TaskGraph.build tasks).ids := by
  obtain ⟨_, h2⟩ := C40_flatten_tasks tasks hid hr
  have hreq : ∀ s, Required r s ↔ Required tasks s := by
    intro s
    constructor
    · rintro ⟨t, ht, hts⟩
      obtain ⟨t0, ht0, h0⟩ := (h2 t).1 ht
      exact ⟨t0, ht0, h0.trans hts⟩
    · intro hs
      exact ⟨s, (h2 s).2 hs, Relation.ReflTransGen.refl⟩
  have hid' : UniqueIds r := fun s s' hs hs' => hid s s' ((hreq s).1 hs) ((hreq s').1 hs')
  rw [C54_all_recorded r hid', C54_all_recorded tasks hid]
  simp only [hreq]

example : (Convenience.flatten [Ex.t3, Ex.t1]).toOption.map (·.map TTree.id) = some [3, 1, 2, 0] := by
  decide

end Verif.Props
