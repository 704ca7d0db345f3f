import Verif.Proofs.TaskObjectGraph
import Verif.Props.Tasks

/-! # C127: collecting the tasks that are given to `run_blockwise` -/

namespace Verif.Props

open Verif Verif.Coll

variable {O α : Type} {ob : TaskObjs O} {heap : Nat → List O} {next a : Nat} {s : Coll O}

/-- The task `t` is one of the given ones, or needed by one of them. -/
def Given (ob : TaskObjs O) (heap : Nat → List O) (a : Nat) (t : O) : Prop :=
  ∃ r ∈ heap a, Relation.ReflTransGen (fun x u => u ∈ heap (ob.ups x)) r t

theorem start_good (heap : Nat → List O) (next a : Nat) : Good heap next (start heap next (.list a)) :=
  ⟨⟨a, rfl⟩, le_refl _, fun _ _ => rfl⟩

/-- C127: at no moment has a list changed that existed before: neither the one that was given, nor `upstream_tasks` of any
task. -/
theorem C127_unchanged (ho : ∀ o, ob.ups o < next) (h : Passes ob (start heap next (.list a)) s) {b : Nat} (hb : b < next) :
    s.heap b = heap b :=
  (good_passes ho (start_good heap next a) h).same b hb

/-- C127: with a list, no pass raises. -/
theorem C127_never_raises (ho : ∀ o, ob.ups o < next) (h : Passes ob (start heap next (.list a)) s) :
    ∃ r, s.pass ob = .ok r := by
  rcases e : s.elems with _ | ⟨t, rest⟩
  · exact ⟨_, pass_none.2 e⟩
  · obtain ⟨s', h1, _⟩ := pass_good ho (good_passes ho (start_good heap next a) h) e
    exact ⟨_, h1⟩

/-- C127: when the loop ends, every id is there once, only tasks that were given or are needed, and the ids of all of
them. -/
theorem C127_collected (ho : ∀ o, ob.ups o < next) {n : Nat} (h : (start heap next (.list a)).loop ob n = .ok s) :
    (s.all.map ob.tid).Nodup ∧ (∀ t ∈ s.all, Given ob heap a t) ∧ ∀ t, Given ob heap a t → ob.tid t ∈ s.all.map ob.tid := by
  obtain ⟨h1, h2⟩ := loop_passes n h
  have key : (s.all.map ob.tid).Nodup ∧ (∀ i, i ∈ s.seen ↔ i ∈ s.all.map ob.tid) ∧ (∀ t ∈ s.all, Given ob heap a t) ∧
      (∀ t ∈ s.elems, Given ob heap a t) ∧ ∀ t, Given ob heap a t → ob.tid t ∈ s.seen ∨
        ∃ e ∈ s.elems, Relation.ReflTransGen (fun x u => u ∈ heap (ob.ups x)) e t := by
    clear h h2
    induction h1 with
    | refl =>
      refine ⟨by simp [start], by simp [start], by simp [start], fun t ht => ⟨t, ht, .refl⟩, fun t ht => Or.inr ht⟩
    | @step s₁ s₂ hp hs ih =>
      obtain ⟨i1, i2, i3, i4, i5⟩ := ih
      obtain ⟨t, rest, e⟩ := pass_some hs
      obtain ⟨s', p1, _, p3, p4, p5⟩ := pass_good ho (good_passes ho (start_good heap next a) hp) e
      rw [hs] at p1
      cases p1
      rw [e] at i4 i5
      have hseen : ∀ i, i ∈ s₂.seen ↔ i = ob.tid t ∨ i ∈ s₁.seen := by
        intro i
        by_cases hx : ob.tid t ∈ s₁.seen
        · rw [(p5 hx).1]
          exact ⟨Or.inr, fun hi => hi.elim (fun hi => hi ▸ hx) id⟩
        · rw [(p4 hx).1, List.mem_cons]
      refine ⟨?_, ?_, ?_, ?_, ?_⟩
      · by_cases hx : ob.tid t ∈ s₁.seen
        · rw [(p5 hx).2]; exact i1
        · rw [(p4 hx).2, List.map_append, List.nodup_append]
          refine ⟨i1, by simp, fun x hx1 y hy => ?_⟩
          simp only [List.map_cons, List.map_nil, List.mem_singleton] at hy
          rintro rfl
          exact hx (hy ▸ (i2 x).2 hx1)
      · intro i
        rw [hseen]
        by_cases hx : ob.tid t ∈ s₁.seen
        · rw [(p5 hx).2, ← i2]
          exact ⟨fun hi => hi.elim (fun hi => hi ▸ hx) id, Or.inr⟩
        · rw [(p4 hx).2, List.map_append, List.mem_append, ← i2]
          simp [or_comm]
      · intro x hx'
        by_cases hx : ob.tid t ∈ s₁.seen
        · rw [(p5 hx).2] at hx'; exact i3 x hx'
        · rw [(p4 hx).2, List.mem_append, List.mem_singleton] at hx'
          rcases hx' with hx' | rfl
          · exact i3 x hx'
          · exact i4 x (by simp)
      · intro x hx
        rw [p3, List.mem_append] at hx
        rcases hx with hx | hx
        · exact i4 x (by simp [hx])
        · obtain ⟨r, hr, hrt⟩ := i4 t (by simp)
          exact ⟨r, hr, hrt.tail hx⟩
      · intro x hx
        rcases i5 x hx with hx | ⟨f, hf, hfx⟩
        · exact Or.inl ((hseen _).2 (Or.inr hx))
        · rcases List.mem_cons.1 hf with rfl | hf
          · rcases Relation.ReflTransGen.cases_head hfx with rfl | ⟨u, hu, hux⟩
            · exact Or.inl ((hseen _).2 (Or.inl rfl))
            · exact Or.inr ⟨u, by rw [p3]; exact List.mem_append_right _ hu, hux⟩
          · exact Or.inr ⟨f, by rw [p3]; exact List.mem_append_left _ hf, hfx⟩
  obtain ⟨k1, k2, k3, _, k5⟩ := key
  refine ⟨k1, k3, fun t ht => ?_⟩
  rcases k5 t ht with h | ⟨e, he, _⟩
  · exact (k2 _).1 h
  · rw [h2] at he; cases he

/-- C127: with the same list a second time, `run_blockwise` collects the same task objects in the same order. -/
theorem C127_again (ho : ∀ o, ob.ups o < next) (ha : a < next) {n : Nat} (h : (start heap next (.list a)).loop ob n = .ok s) :
    ∃ s', (start s.heap s.next (.list a)).loop ob n = .ok s' ∧ s'.all = s.all := by
  have hg := good_passes ho (start_good heap next a) (loop_passes n h).1
  exact loop_congr ho n (start_good heap next a) ⟨⟨a, rfl⟩, hg.le, hg.same⟩ (hg.same a ha) rfl rfl h

/-- C127: the model of `run_blockwise` with trees (`Convenience.flatten`, on which C40 and everything about pipelines is
based) does the same, if tasks do not require each other in a circle. -/
theorem C127_trees (ho : ∀ o, ob.ups o < next) {info : O → α} {ts : List (TTree α)}
    (hu : List.Forall₂ (Unfolds ob heap info) (heap a) ts) :
    ∃ n s r, (start heap next (.list a)).loop ob n = .ok s ∧ Convenience.flatten ts = .ok r ∧
      List.Forall₂ (Unfolds ob heap info) s.all r := by
  obtain ⟨r, hr, _⟩ := C40_flatten ts
  obtain ⟨s, h1, h2⟩ := loop_flatten ho _ (start_good heap next a) (s := start heap next (.list a)) hu .nil hr
  exact ⟨_, s, r, h1, hr, h2⟩

/-- C127: the dependency graph of the objects is that of the trees. -/
theorem C127_graph {info : O → α} {l : List O} {ts : List (TTree α)} (hu : List.Forall₂ (Unfolds ob heap info) l ts) :
    ∃ N, ∀ n ≥ N, ∃ G, ObjGraph.build ob heap n l ObjGraph.empty = .ok G ∧
      G.ids = (TaskGraph.build ts).ids ∧ G.ups = (TaskGraph.build ts).ups ∧ G.downs = (TaskGraph.build ts).downs ∧
      ∀ x o, G.taskMap x = some o → ∃ t, (TaskGraph.build ts).taskMap x = some t ∧ Unfolds ob heap info o t := by
  obtain ⟨N, hN⟩ := SameGraph.build (ob := ob) (heap := heap) (info := info) ts
  refine ⟨N, fun n hn => ?_⟩
  obtain ⟨G, h1, h2⟩ := hN n hn l _ _ hu .empty
  refine ⟨G, h1, h2.ids, h2.ups, h2.downs, fun x o hx => ?_⟩
  rcases h2.map x with ⟨h3, _⟩ | ⟨o', t, h3, h4, h5⟩
  · rw [h3] at hx; cases hx
  · rw [h3] at hx; cases hx
    exact ⟨t, h4, h5⟩

/-- C127: the order in which `Scheduler` records a task and what it needs is that of the tree. -/
theorem C127_order {info : O → α} {o : O} {t : TTree α} (hu : Unfolds ob heap info o t) :
    ∃ N, ∀ n ≥ N, ∀ keys, ObjGraph.initTask ob heap n keys o = .ok (Scheduler.initTask keys t) := by
  obtain ⟨N, hN⟩ := ObjGraph.init_same (ob := ob) (heap := heap) (info := info) t
  exact ⟨N, fun n hn keys => hN n hn o keys hu⟩

/-- C127: unlike the loop of `run_blockwise`, `DependencyGraph` is also made of tasks that require each other in a circle:
the recursion is at most one deeper than there are task ids. -/
theorem C127_graph_ends {L : List Nat} (hL : ∀ o, ob.tid o ∈ L) (l : List O) :
    ∃ G, ObjGraph.build ob heap (L.length + 1) l ObjGraph.empty = .ok G :=
  ObjGraph.build_ends hL l _ (Nat.lt_succ_of_le (List.length_filter_le _ _))

/-- C127, exactly when the loop ends, given a list: if there is no endless way from a given task from each task to one it
requires. -/
theorem C127_ends_iff (ho : ∀ o, ob.ups o < next) :
    (∃ n s, (start heap next (.list a)).loop ob n = .ok s) ↔
      ¬ ∃ f : Nat → O, f 0 ∈ heap a ∧ ∀ i, f (i + 1) ∈ heap (ob.ups (f i)) := by
  constructor
  · rintro ⟨n, s, h⟩ ⟨f, h0, hf⟩
    have hacc : ¬ Acc (fun u t => u ∈ heap (ob.ups t)) (f 0) :=
      not_acc_iff_exists_descending_chain.2 ⟨f, rfl, hf⟩
    rw [loop_stuck ho n (start_good heap next a) ⟨f 0, h0, hacc⟩] at h
    cases h
  · intro h
    have hacc : ∀ o ∈ heap a, Acc (fun u t => u ∈ heap (ob.ups t)) o := by
      intro o hoa
      by_contra hc
      obtain ⟨f, h0, hf⟩ := not_acc_iff_exists_descending_chain.1 hc
      exact h ⟨f, h0 ▸ hoa, hf⟩
    obtain ⟨ts, hts⟩ := unfolds_all (α := Unit) (info := fun _ => ()) hacc
    obtain ⟨n, s, _, h1, _⟩ := C127_trees ho hts
    exact ⟨n, s, h1⟩

/-- C127: given a tuple that is not empty, `run_blockwise` raises `AttributeError`. -/
theorem C127_tuple (t : O) (rest : List O) (n : Nat) :
    (start heap next (.tuple (t :: rest))).loop ob (n + 1) = .error .attributeError := by
  unfold loop pass elems start slice note extend
  by_cases h : ob.tid t ∈ ([] : List Nat)
  · cases h
  · simp

/-- C127 is false: for a tuple of one task, and for two tasks that require each other (the loop does not end).  In both
cases `heap 0` is the list of the tasks. -/
theorem C127_false :
    (∃ (ob : TaskObjs Unit) (heap : Nat → List Unit), ∀ n,
      (start heap 2 (.tuple [()])).loop ob (n + 1) = .error .attributeError) ∧
    ∃ (ob : TaskObjs Bool) (heap : Nat → List Bool), (∀ o, ob.ups o < 3) ∧ ob.tid false ≠ ob.tid true ∧
      ∀ n, (start heap 3 (.list 0)).loop ob n = .error .outOfFuel := by
  refine ⟨⟨⟨fun _ => 0, fun _ => 1⟩, fun _ => [], fun n => C127_tuple _ _ _⟩,
    ⟨fun o => if o then 1 else 0, fun o => if o then 2 else 1⟩,
    fun b => if b = 0 then [false] else if b = 1 then [true] else [false], by decide, by decide, fun n => ?_⟩
  refine loop_stuck (by decide : ∀ o : Bool, (if o then 2 else 1) < 3) n (start_good _ 3 0) ⟨false, by decide, ?_⟩
  refine not_acc_iff_exists_descending_chain.2 ⟨fun i => i % 2 = 1, by decide, fun i => ?_⟩
  rcases Nat.mod_two_eq_zero_or_one i with h | h
  · have : (i + 1) % 2 = 1 := by omega
    simp [h, this]
  · have : (i + 1) % 2 = 0 := by omega
    simp [h, this]

namespace Ex

/-- Four task objects; the list `upstream_tasks` of each has its number as address. -/
def shareObjs : TaskObjs (Fin 4) := ⟨fun o => o, fun o => o⟩

/-- Task `3` requires `1` and `2`, which require the same object `0`; the list `[3, 1]` at address `4` is given. -/
def shareHeap : Nat → List (Fin 4)
  | 1 => [0]
  | 2 => [0]
  | 3 => [1, 2]
  | 4 => [3, 1]
  | _ => []

end Ex

/-- C127, not vacuous: the given list, and the one of task `3`, are unchanged at the end. -/
example : (∀ o, Ex.shareObjs.ups o < 5) ∧ ((start Ex.shareHeap 5 (.list 4)).loop Ex.shareObjs 8).toOption.map
    (fun s => (s.all, s.heap 4, s.heap 3, s.seen)) = some ([3, 1, 2, 0], [3, 1], [1, 2], [0, 2, 1, 3]) := by
  decide

/-- C127, not vacuous: the trees of these objects. -/
example : List.Forall₂ (Unfolds Ex.shareObjs Ex.shareHeap (fun _ => ())) (Ex.shareHeap 4)
    [.node 3 () [.node 1 () [.node 0 () []], .node 2 () [.node 0 () []]], .node 1 () [.node 0 () []]] := by
  have h0 : Unfolds Ex.shareObjs Ex.shareHeap (fun _ => ()) 0 (.node 0 () []) := .node 0 [] .nil
  have h1 : Unfolds Ex.shareObjs Ex.shareHeap (fun _ => ()) 1 (.node 1 () [.node 0 () []]) := .node 1 _ (.cons h0 .nil)
  have h2 : Unfolds Ex.shareObjs Ex.shareHeap (fun _ => ()) 2 (.node 2 () [.node 0 () []]) := .node 2 _ (.cons h0 .nil)
  exact .cons (.node 3 _ (.cons h1 (.cons h2 .nil))) (.cons h1 .nil)

/-- C127, not vacuous: two tasks that require each other, for which the dependency graph has no root task. -/
example : ∃ (ob : TaskObjs Bool) (heap : Nat → List Bool), (∀ o, ob.tid o ∈ [0, 1]) ∧
    (ObjGraph.build ob heap 3 [false] ObjGraph.empty).toOption.map (fun G => (G.ids, G.ups 0, G.ups 1)) =
      some ([0, 1], [1], [0]) :=
  ⟨⟨fun o => if o then 1 else 0, fun o => if o then 1 else 0⟩, fun b => if b = 0 then [true] else [false], by decide,
    by decide⟩

end Verif.Props
