import Verif.Props.Geometry

/-! # The enumeration of a task's blocks with their dependencies (C89) -/

set_option linter.unusedSectionVars false

namespace Verif.Props

open Verif Verif.Spec Verif.BGraph

variable {d : Nat}

theorem levelPairs_ok (g : BGraph d) (h : g.Wf) (hr : g.ReadOK) {k : Nat} (hk : k < g.numLevels) :
    ∃ ps : List (Block d × List (Block d)),
      (do (← g.levelBlocks k).mapM (fun b => do return (b, ← g.upstream b))) = Except.ok ps ∧
      g.levelBlocks k = .ok (ps.map Prod.fst) ∧
      ∀ q ∈ ps, g.upstream q.1 = .ok q.2 ∧ ∃ o, g.Grid o ∧ g.lvl o = k ∧ q.1 = g.blk o := by
  obtain ⟨os, h1, _, h3, _⟩ := g.numLevelBlocks_spec h hk
  have hu : ∀ o : Coord d, ∃ us, g.Grid o → g.upstream (g.blk o) = .ok us := by
    intro o
    by_cases ho : g.Grid o
    · obtain ⟨us, u1, _⟩ := g.upstream_spec h hr ho
      exact ⟨us, fun _ => u1⟩
    · exact ⟨[], fun h => absurd h ho⟩
  choose f hf using hu
  have hgrid : ∀ o ∈ os, g.Grid o := fun o ho => ((h3 o).1 ho).1
  have hmap : ∀ l : List (Coord d), (∀ o ∈ l, g.Grid o) →
      (l.map g.blk).mapM (fun b => do return (b, ← g.upstream b)) =
        Except.ok (ε := PyErr) (l.map (fun o => (g.blk o, f o))) := by
    intro l
    induction l with
    | nil => intro _; rfl
    | cons o l ih =>
      intro hl
      rw [List.map_cons, List.mapM_cons, hf o (hl o List.mem_cons_self),
        ih (fun x hx => hl x (List.mem_cons_of_mem _ hx))]
      rfl
  refine ⟨os.map (fun o => (g.blk o, f o)), ?_, ?_, ?_⟩
  · rw [h1]
    exact hmap os hgrid
  · rw [h1, List.map_map]
    rfl
  · intro q hq
    obtain ⟨o, ho, rfl⟩ := List.mem_map.1 hq
    exact ⟨hf o (hgrid o ho), o, hgrid o ho, ((h3 o).1 ho).2, rfl⟩

theorem enumerateAll_spec (g : BGraph d) (h : g.Wf) (hr : g.ReadOK) :
    ∃ ps, g.enumerateAll = .ok ps ∧ g.blocks = .ok (ps.map Prod.fst) ∧
      (∀ q ∈ ps, g.upstream q.1 = .ok q.2 ∧ ∃ o, g.Grid o ∧ q.1 = g.blk o) ∧
      ps.Pairwise (fun a b => ∀ o p, g.Grid o → g.Grid p → a.1 = g.blk o → b.1 = g.blk p →
        g.lvl o ≤ g.lvl p) := by
  have hlev : ∀ k, ∃ ps : List (Block d × List (Block d)), k < g.numLevels →
      (do (← g.levelBlocks k).mapM (fun b => do return (b, ← g.upstream b))) = Except.ok ps ∧
      g.levelBlocks k = .ok (ps.map Prod.fst) ∧
      ∀ q ∈ ps, g.upstream q.1 = .ok q.2 ∧ ∃ o, g.Grid o ∧ g.lvl o = k ∧ q.1 = g.blk o := by
    intro k
    by_cases hk : k < g.numLevels
    · obtain ⟨ps, h1⟩ := levelPairs_ok g h hr hk
      exact ⟨ps, fun _ => h1⟩
    · exact ⟨[], fun h => absurd h hk⟩
  choose f hf using hlev
  have hoff : ∃ l, g.allLevelBlockOffsets = .ok l := by
    have : ∀ k, ∃ os, k < g.numLevels → g.levelBlockOffsets k = .ok os := by
      intro k
      by_cases hk : k < g.numLevels
      · unfold levelBlockOffsets
        rw [List.getElem?_eq_getElem hk]
        exact ⟨_, fun _ => rfl⟩
      · exact ⟨[], fun h => absurd h hk⟩
    choose e he using this
    exact ⟨_, mapM_ok g.levelBlockOffsets e _ (fun k hk => he k (List.mem_range.1 hk))⟩
  obtain ⟨l, hl⟩ := hoff
  have inj : ∀ o p, g.Grid o → g.Grid p → g.blk o = g.blk p → o = p := fun o p ho hp he =>
    g.blk_inj h (g.grid_admissible ho) (g.grid_admissible hp) he
  refine ⟨((List.range g.numLevels).map f).flatten, ?_, ?_, ?_, ?_⟩
  · unfold enumerateAll
    rw [hl, mapM_ok _ f _ (fun k hk => (hf k (List.mem_range.1 hk)).1)]
    rfl
  · unfold blocks
    rw [mapM_ok g.levelBlocks (fun k => (f k).map Prod.fst) _
      (fun k hk => (hf k (List.mem_range.1 hk)).2.1)]
    change Except.ok _ = _
    congr 1
    rw [List.map_flatten, List.map_map]
    rfl
  · intro q hq
    obtain ⟨l, hl1, hl2⟩ := List.mem_flatten.1 hq
    obtain ⟨k, hk, rfl⟩ := List.mem_map.1 hl1
    obtain ⟨a1, o, a2, _, a3⟩ := (hf k (List.mem_range.1 hk)).2.2 q hl2
    exact ⟨a1, o, a2, a3⟩
  · rw [List.pairwise_flatten]
    constructor
    · intro l hl1
      obtain ⟨k, hk, rfl⟩ := List.mem_map.1 hl1
      refine List.Pairwise.imp_of_mem (R := fun _ _ => True) ?_ (List.pairwise_of_forall (fun _ _ => trivial))
      intro a b ha hb _ o p ho hp ea eb
      obtain ⟨_, o', b1, b2, b3⟩ := (hf k (List.mem_range.1 hk)).2.2 a ha
      obtain ⟨_, p', c1, c2, c3⟩ := (hf k (List.mem_range.1 hk)).2.2 b hb
      rw [inj o o' ho b1 (ea.symm.trans b3), inj p p' hp c1 (eb.symm.trans c3), b2, c2]
    · rw [List.pairwise_map]
      refine List.Pairwise.imp_of_mem ?_ List.pairwise_lt_range
      intro k j hk hj hkj a ha b hb o p ho hp ea eb
      obtain ⟨_, o', b1, b2, b3⟩ := (hf k (List.mem_range.1 hk)).2.2 a ha
      obtain ⟨_, p', c1, c2, c3⟩ := (hf j (List.mem_range.1 hj)).2.2 b hb
      rw [inj o o' ho b1 (ea.symm.trans b3), inj p p' hp c1 (eb.symm.trans c3), b2, c2]
      exact le_of_lt hkj

/-- `enumerate_all_dependencies` never raises; it yields every block of the task exactly once, each
with exactly its upstream blocks. -/
theorem C89_enumerates (g : BGraph d) (h : g.Wf) (hr : g.ReadOK) {bs : List (Block d)}
    (hbs : g.blocks = .ok bs) :
    ∃ ps, g.enumerateAll = .ok ps ∧ (ps.map Prod.fst).Nodup ∧ (∀ b, b ∈ ps.map Prod.fst ↔ b ∈ bs) ∧
      ∀ q ∈ ps, g.upstream q.1 = .ok q.2 := by
  obtain ⟨ps, h1, h2, h3, _⟩ := enumerateAll_spec g h hr
  rw [h2] at hbs
  cases hbs
  exact ⟨ps, h1, g.nodup_blocks h h2, fun b => Iff.rfl, fun q hq => (h3 q hq).1⟩

/-- Every block comes after all blocks it depends on: going through the enumeration from front to back
respects all dependencies. -/
theorem C89_topological (g : BGraph d) (h : g.Wf) (hr : g.ReadOK)
    {ps : List (Block d × List (Block d))} (hps : g.enumerateAll = .ok ps)
    {pre post : List (Block d × List (Block d))} {q : Block d × List (Block d)}
    (heq : ps = pre ++ q :: post) : ∀ u ∈ q.2, u ∈ pre.map Prod.fst := by
  obtain ⟨ps', h1, h2, h3, h4⟩ := enumerateAll_spec g h hr
  rw [h1] at hps
  cases hps
  have hq : q ∈ ps := by rw [heq]; simp
  obtain ⟨a1, o, ho, a2⟩ := h3 q hq
  intro u hu
  obtain ⟨us, u1, _, u3⟩ := g.upstream_spec h hr ho
  rw [a2, u1] at a1
  have hus : us = q.2 := by cases a1; rfl
  rw [← hus] at hu
  obtain ⟨p, hp, hd, rfl⟩ := (u3 u).1 hu
  have hlt : g.lvl p < g.lvl o := by have := hd.2.1; omega
  have hmem := (g.mem_blocks h h2 (g.blk p)).2 ⟨p, hp, rfl⟩
  obtain ⟨r, hr1, hr2⟩ := List.mem_map.1 hmem
  rw [heq] at h4 hr1
  rw [List.pairwise_append, List.pairwise_cons] at h4
  rcases List.mem_append.1 hr1 with hr1 | hr1
  · exact List.mem_map.2 ⟨r, hr1, hr2⟩
  · exfalso
    rcases List.mem_cons.1 hr1 with rfl | hr1
    · have := g.blk_inj h (g.grid_admissible hp) (g.grid_admissible ho) (hr2.symm.trans a2)
      subst this
      omega
    · have := h4.2.1.1 r hr1 o p ho hp a2 hr2
      omega

/-- Two blocks of which one reads what the other writes are never independent in the enumeration: the
later one has the earlier one among the blocks it (transitively) waits for. -/
theorem C89_conflicts_in_order (g : BGraph d) (h : g.Wf) (hc : g.conflict = true)
    {ps : List (Block d × List (Block d))} (hps : g.enumerateAll = .ok ps)
    {pre mid post : List (Block d × List (Block d))} {q r : Block d × List (Block d)}
    (heq : ps = pre ++ q :: (mid ++ r :: post))
    (hov : Overlap q.1.readRoi r.1.writeRoi ∨ Overlap r.1.readRoi q.1.writeRoi) :
    Before g q.1 r.1 := by
  have hr := g.readOK_of_conflict h hc
  obtain ⟨ps', h1, h2, h3, h4⟩ := enumerateAll_spec g h hr
  rw [h1] at hps
  cases hps
  have hqm : q ∈ ps := by rw [heq]; simp
  have hrm : r ∈ ps := by rw [heq]; simp
  have hq := List.mem_map_of_mem (f := Prod.fst) hqm
  have hr' := List.mem_map_of_mem (f := Prod.fst) hrm
  obtain ⟨_, o, ho, ea⟩ := h3 q hqm
  obtain ⟨_, p, hp, eb⟩ := h3 r hrm
  have hle : g.lvl o ≤ g.lvl p := by
    rw [heq, List.pairwise_append, List.pairwise_cons] at h4
    exact h4.2.1.1 r (by simp) o p ho hp ea eb
  have hne : q.1 ≠ r.1 := by
    have hnd := g.nodup_blocks h h2
    rw [heq] at hnd
    simp only [List.map_append, List.map_cons] at hnd
    rw [List.nodup_append, List.nodup_cons] at hnd
    intro he
    exact hnd.2.1.1 (by rw [he]; simp)
  have hno : ¬ Before g r.1 q.1 := by
    intro hb
    rw [ea] at hb
    obtain ⟨p', hp', he, hlt⟩ := before_grid g h hr ho hb
    have := g.blk_inj h (g.grid_admissible hp) (g.grid_admissible hp') (eb.symm.trans he)
    subst this
    omega
  rcases hov with hov | hov
  · exact (C07_conflict_ordered g h hc h2 hq hr' hne hov).resolve_right hno
  · exact (C07_conflict_ordered g h hc h2 hr' hq hne.symm hov).resolve_left hno

/-- The enumeration of a task with two levels per dimension, 25 blocks: 4 roots come first, the last
block waits for others. -/
example : ((Ex.g2 .shrink).enumerateAll).toOption.map (fun ps => (ps.length, (ps.take 5).map (·.2.length),
    ps.getLast?.map (·.2.length))) = some (25, [0, 0, 0, 0, 1], some 1) := by
  decide +kernel

end Verif.Props
