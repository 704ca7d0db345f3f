import Verif.Props.Examples2
import Verif.Props.Outcome

/-! # Pipelines: C09, C13, C14, C15, C16, C17, C27, C50

All theorems are about the pipelines built by `DependencyGraph.__init__` from tasks with unique ids
(`Pipeline.init tasks = .ok p`, `UniqueIds tasks`) whose geometries are regular (`p.Wf`, see
`wf_of_regular`). -/

namespace Verif.Props

open Verif Spec Pipeline

variable {d : Nat} {tasks : List (Task d)} {p : Pipeline d}

/-- Tasks with regular parameters give well-formed pipelines. -/
theorem wf_of_regular (hp : Pipeline.init tasks = .ok p)
    (hr : ∀ t, Required tasks t → t.info.Regular) : p.Wf := Pipeline.wf_of_init hp hr

/-! ## C09: the block graph of a pipeline has no cycles -/

/-- `upstream` and `downstream` never raise for blocks of the pipeline, and report only blocks of the
same task, of upstream tasks and of downstream tasks. -/
theorem C09_closed (hp : Pipeline.init tasks = .ok p) (hid : UniqueIds tasks) (hw : p.Wf) {y : Nat}
    {b : Block d} (hb : p.BlockOf y b) :
    (∃ us, p.upstream b = .ok us) ∧ (∃ ds, p.downstream b = .ok ds) ∧
    (∀ a, p.Up a b → ∃ x, (x = y ∨ x ∈ p.tg.ups y) ∧ p.BlockOf x a) ∧
    ∀ c, p.Down b c → ∃ z, (z = y ∨ z ∈ p.tg.downs y) ∧ p.BlockOf z c := by
  have hbt := (built_of_init hp hid).1
  obtain ⟨_, _, us, _, _, h1, _⟩ := mem_upstream hbt hw hb
  obtain ⟨_, _, ds, _, _, h2, _⟩ := mem_downstream hbt hw hb
  exact ⟨⟨us, h1⟩, ⟨ds, h2⟩, fun a ha => up_blockOf hbt hw hb ha,
    fun c hc => down_blockOf hbt hw hb hc⟩

/-- C09 for pipelines: no block is transitively upstream of itself. -/
theorem C09_pipeline_acyclic (hp : Pipeline.init tasks = .ok p) (hid : UniqueIds tasks) (hw : p.Wf)
    {x : Nat} {b : Block d} (hb : p.BlockOf x b) : ¬ Relation.TransGen p.Up b b := by
  have hbt := (built_of_init hp hid).1
  obtain ⟨r, hr⟩ := hbt.acyc
  have key : ∀ a, Relation.TransGen p.Up a b →
      (∃ x, p.BlockOf x a) ∧ p.rankOf r a < p.rankOf r b := by
    intro a ha
    induction ha using Relation.TransGen.head_induction_on with
    | single hab =>
      obtain ⟨z, _, hz⟩ := up_blockOf hbt hw hb hab
      obtain ⟨us, hus, ha⟩ := hab
      exact ⟨⟨z, hz⟩, rank_lt hbt hw hr hb hus ha⟩
    | head hac _ ih =>
      obtain ⟨⟨y, hy⟩, hlt⟩ := ih
      obtain ⟨z, _, hz⟩ := up_blockOf hbt hw hy hac
      obtain ⟨us, hus, ha⟩ := hac
      exact ⟨⟨z, hz⟩, (rank_lt hbt hw hr hy hus ha).trans hlt⟩
  exact fun h => lt_irrefl _ (key b h).2

/-- The hypotheses are met; there are edges inside task `1` and across tasks. -/
example : (Ex.pipe [Ex.symB]).Wf ∧
    (Ex.pipe [Ex.symB]).upstream (Ex.blk1 1 0 4 1 3 0) =
      .ok [Ex.blk1 0 0 2 0 2 0, Ex.blk1 1 2 6 3 5 1, Ex.blk1 0 2 4 2 4 1] :=
  ⟨wf_of_regular Ex.sym_init Ex.sym_regular, by decide +kernel⟩

/-! ## C13: cross-task dependencies are complete -/

/-- Membership in `upstream` across tasks is the answer of the query. -/
theorem up_cross (hp : Pipeline.init tasks = .ok p) (hid : UniqueIds tasks) (hw : p.Wf) {x y : Nat}
    {gx : BGraph d} (hxy : x ∈ p.tg.ups y) (hgx : p.graphs x = some gx) {a b : Block d}
    (ha : p.BlockOf x a) (hb : p.BlockOf y b) :
    p.Up a b ↔ a ∈ gx.subgraphBlocks b.readRoi false := by
  have hbt := (built_of_init hp hid).1
  obtain ⟨g, us, l, h1, h2, h3, h4⟩ := mem_upstream hbt hw hb
  have hax := blockOf_taskId hbt hw ha
  constructor
  · rintro ⟨us', hus, h⟩
    rw [h3] at hus; cases hus
    rcases (h4 a).1 h with h5 | ⟨x', hx', gx', hgx', h5⟩
    · exfalso
      obtain ⟨g', bs, hg', hbs, hmem⟩ := hb
      rw [h1] at hg'; cases hg'
      obtain ⟨us2, _, u1, _, _, _, u5, _⟩ := C08_closed g (hw y g h1).1 (hw y g h1).2.1 hbs hmem
      rw [h2] at u1; cases u1
      have := blockOf_taskId hbt hw ⟨g, bs, h1, hbs, u5 a h5⟩
      rw [hax] at this
      exact hbt.irrefl y (this ▸ hxy)
    · have : x' = x := by rw [← hax, blockOf_taskId hbt hw (sub_blockOf hw hgx' h5)]
      subst this
      rw [hgx] at hgx'; cases hgx'
      exact h5
  · intro h
    exact ⟨l, h3, (h4 a).2 (Or.inr ⟨x, hxy, gx, hgx, h⟩)⟩

/-- Membership in `downstream` across tasks is the answer of the query. -/
theorem down_cross (hp : Pipeline.init tasks = .ok p) (hid : UniqueIds tasks) (hw : p.Wf) {x y : Nat}
    {gy : BGraph d} (hxy : x ∈ p.tg.ups y) (hgy : p.graphs y = some gy) {a b : Block d}
    (ha : p.BlockOf x a) (hb : p.BlockOf y b) :
    p.Down a b ↔ b ∈ gy.subgraphBlocks a.writeRoi true := by
  have hbt := (built_of_init hp hid).1
  obtain ⟨g, ds, l, h1, h2, h3, h4⟩ := mem_downstream hbt hw ha
  have hby := blockOf_taskId hbt hw hb
  constructor
  · rintro ⟨ds', hds, h⟩
    rw [h3] at hds; cases hds
    rcases (h4 b).1 h with h5 | ⟨y', hy', gy', hgy', h5⟩
    · exfalso
      obtain ⟨g', bs, hg', hbs, hmem⟩ := ha
      rw [h1] at hg'; cases hg'
      obtain ⟨_, ds2, _, u1, _, _, _, u6⟩ := C08_closed g (hw x g h1).1 (hw x g h1).2.1 hbs hmem
      rw [h2] at u1; cases u1
      have := blockOf_taskId hbt hw ⟨g, bs, h1, hbs, u6 b h5⟩
      rw [hby] at this
      exact hbt.irrefl y (by rw [← this] at hxy; exact hxy)
    · have : y' = y := by rw [← hby, blockOf_taskId hbt hw (sub_blockOf hw hgy' h5)]
      subst this
      rw [hgy] at hgy'; cases hgy'
      exact h5
  · intro h
    exact ⟨l, h3, (h4 b).2 (Or.inr ⟨y, (hbt.inv.dual _ _).2 hxy, gy, hgy, h⟩)⟩

/-- C13, without conditions on the geometry of the two tasks: a block of an upstream task that
writes, inside the total write ROI of its task, something `b` reads, is upstream of `b`. -/
theorem C13_inside (hp : Pipeline.init tasks = .ok p) (hid : UniqueIds tasks) (hw : p.Wf) {x y : Nat}
    {gx : BGraph d} (hxy : x ∈ p.tg.ups y) (hgx : p.graphs x = some gx) {a b : Block d}
    (ha : p.BlockOf x a) (hb : p.BlockOf y b)
    (hov : ∃ v : Coord d, InRoi v a.writeRoi ∧ InRoi v b.readRoi ∧ InRoi v gx.totalWrite) :
    p.Up a b := by
  rw [up_cross hp hid hw hxy hgx ha hb]
  obtain ⟨g, o, hg, ho, rfl⟩ := grid_blockOf hw ha
  rw [hgx] at hg; cases hg
  refine gx.up_query (hw x gx hgx).1 ho _ (fun i => ?_) hov
  obtain ⟨v, _, h2, _⟩ := hov
  have := h2 i
  omega

/-- C13, for upstream tasks that do not overhang: every block of an upstream task whose write ROI
overlaps the read ROI of `b` is upstream of `b`.  Missing to the full claim: `gx.Inside`, which is
necessary (`C13_false`). -/
theorem C13_complete_partial (hp : Pipeline.init tasks = .ok p) (hid : UniqueIds tasks) (hw : p.Wf)
    {x y : Nat} {gx : BGraph d} (hxy : x ∈ p.tg.ups y) (hgx : p.graphs x = some gx)
    (hin : gx.Inside) {a b : Block d} (ha : p.BlockOf x a) (hb : p.BlockOf y b)
    (hov : Overlap a.writeRoi b.readRoi) : p.Up a b := by
  refine C13_inside hp hid hw hxy hgx ha hb ?_
  obtain ⟨g, o, hg, ho, rfl⟩ := grid_blockOf hw ha
  rw [hgx] at hg; cases hg
  obtain ⟨v, h1, h2⟩ := hov
  refine ⟨v, h1, h2, fun i => ?_⟩
  have h3 := gx.write_within (hw x gx hgx).1 hin ho i
  have h4 := h1 i
  simp only [BGraph.t] at h3
  omega

/-- Nothing else is upstream: every upstream block of another task writes something `b` reads. -/
theorem C13_no_spurious_partial (hp : Pipeline.init tasks = .ok p) (hid : UniqueIds tasks)
    (hw : p.Wf) {x y : Nat} {gx gy : BGraph d} (hxy : x ∈ p.tg.ups y) (hgx : p.graphs x = some gx)
    (hgy : p.graphs y = some gy) (hs : gx.OriginSafe) (hc : gy.CtxNonneg) {a b : Block d}
    (ha : p.BlockOf x a) (hb : p.BlockOf y b) (hup : p.Up a b) : Overlap a.writeRoi b.readRoi := by
  rw [up_cross hp hid hw hxy hgx ha hb] at hup
  obtain ⟨g, o, hg, ho, rfl⟩ := grid_blockOf hw hb
  rw [hgy] at hg; cases hg
  obtain ⟨q, _, _, v, h1, h2, _⟩ := ((gx.subgraph_exact (hw x gx hgx).1 _
    (fun i => le_of_lt (gy.read_pos (hw y gy hgy).1 hc ho i)) (Or.inr hs)).2 a).1 hup
  exact ⟨v, h1, h2⟩

/-- The full C13 is false: the last block of an overhanging upstream task writes `[2,4)`, block
`[3,4)` of the dependent task reads there, but is not reported as depending on it; and it is
indeed handed out while the upstream block has not been started. -/
theorem C13_false : ∃ (tasks : List (Task 1)) (p : Pipeline 1), Pipeline.init tasks = .ok p ∧
    UniqueIds tasks ∧ p.Wf ∧ p.RootLevels ∧ ∃ a b tr st, 0 ∈ p.tg.ups 2 ∧ p.BlockOf 0 a ∧
      p.BlockOf 2 b ∧ Overlap a.writeRoi b.readRoi ∧ ¬ p.Up a b ∧
      Run p.view tr st ∧ Held tr b ∧ .hand a ∉ tr := by
  have hw := wf_of_regular Ex.up_init Ex.up_regular
  refine ⟨[Ex.upB], Ex.pipe [Ex.upB], Ex.up_init, Ex.up_unique, hw, ?_,
    Ex.blk1 0 2 4 2 4 1, Ex.blk1 2 3 4 3 4 3, ?_⟩
  · refine rootLevels_of hw (fun x g hx hg => ?_)
    have hm := (built_of_init Ex.up_init Ex.up_unique).1.only x g hg
    have hids : (Ex.pipe [Ex.upB]).tg.ids = [2, 0, 1] := by decide
    rw [hids] at hm
    simp only [List.mem_cons, List.not_mem_nil, or_false] at hm
    rcases hm with rfl | rfl | rfl
    · exact absurd hx (by decide)
    · have e : (Ex.pipe [Ex.upB]).graphs 0 = some (Ex.mk 0 (Ex.r1 0 2) (Ex.r1 0 2) false .overhang (Ex.r1 0 3)) := rfl
      rw [hg] at e; cases e; exact Or.inl rfl
    · have e : (Ex.pipe [Ex.upB]).graphs 1 = some (Ex.mk 1 (Ex.r1 0 1) (Ex.r1 0 1) false .valid (Ex.r1 0 4)) := rfl
      rw [hg] at e; cases e; exact Or.inl rfl
  have hx : (exec (Ex.pipe [Ex.upB]).view (anyPick (Ex.blk1 0 0 2 0 2 0))
      [.acq 1 [], .acq 1 [], .acq 1 [], .acq 1 [], .good (Ex.blk1 1 3 4 3 4 3), .acq 2 []]).map
      (fun p => decide (Held p.1 (Ex.blk1 2 3 4 3 4 3) ∧ Ev.hand (Ex.blk1 0 2 4 2 4 1) ∉ p.1)) =
      some true := by decide +kernel
  obtain ⟨tr, st, hrun, e⟩ := exec_map (anyPick_legal _) _ hx
  rw [decide_eq_true_eq] at e
  refine ⟨tr, st, by decide, ⟨_, _, rfl, rfl, by decide +kernel⟩, ⟨_, _, rfl, rfl, by decide +kernel⟩,
    by decide +kernel, ?_, hrun, e.1, e.2⟩
  rintro ⟨us, hus, h⟩
  have : (Ex.pipe [Ex.upB]).upstream (Ex.blk1 2 3 4 3 4 3) = .ok [Ex.blk1 1 3 4 3 4 3] := by
    decide +kernel
  rw [this] at hus; cases hus
  revert h
  decide +kernel

/-! ## C14: `upstream` and `downstream` are inverse across tasks -/

/-- C14, for a link between tasks without overhang, with the same nonnegative context on both sides
of the dependent task: both relations are "writes something the other reads", so they are inverse.
Missing to the full claim: `gx.LinkOK gy`; the counterexamples below show what happens otherwise. -/
theorem C14_inverse_partial (hp : Pipeline.init tasks = .ok p) (hid : UniqueIds tasks) (hw : p.Wf)
    {x y : Nat} {gx gy : BGraph d} (hxy : x ∈ p.tg.ups y) (hgx : p.graphs x = some gx)
    (hgy : p.graphs y = some gy) (hl : gx.LinkOK gy) {a b : Block d} (ha : p.BlockOf x a)
    (hb : p.BlockOf y b) :
    (p.Down a b ↔ p.Up a b) ∧ (p.Up a b ↔ Overlap a.writeRoi b.readRoi) := by
  rw [up_cross hp hid hw hxy hgx ha hb, down_cross hp hid hw hxy hgy ha hb]
  obtain ⟨l1, l2, l3, l4, l5, l6⟩ := hl
  obtain ⟨g1, o, hg1, ho, rfl⟩ := grid_blockOf hw ha
  rw [hgx] at hg1; cases hg1
  obtain ⟨g2, q, hg2, hq, rfl⟩ := grid_blockOf hw hb
  rw [hgy] at hg2; cases hg2
  rw [gx.up_query_iff (hw x gx hgx).1 l1 l2 _
      (fun i => le_of_lt (gy.read_pos (hw y gy hgy).1 l6 hq i)),
    gy.down_query_iff (hw y gy hgy).1 l3 l4 l5 l6 _ (fun i => gx.write_pos (hw x gx hgx).1 ho i)]
  constructor
  · constructor
    · rintro ⟨_, _, _, h⟩; exact ⟨o, ho, rfl, h⟩
    · rintro ⟨_, _, _, h⟩; exact ⟨q, hq, rfl, h⟩
  · constructor
    · rintro ⟨_, _, _, h⟩; exact h
    · intro h; exact ⟨o, ho, rfl, h⟩

/-- The condition is met by the symmetric example. -/
theorem Ex.sym_linkOK : (Ex.mk 0 (Ex.r1 0 2) (Ex.r1 0 2) false .valid (Ex.r1 0 8)).LinkOK
    (Ex.mk 1 (Ex.r1 0 4) (Ex.r1 1 3) true .valid (Ex.r1 0 8)) := by
  refine ⟨Or.inl (by decide), ⟨0, Or.inl (by decide)⟩, Or.inl (by decide), ⟨0, Or.inl (by decide)⟩, ?_, ?_⟩
  · unfold BGraph.Symmetric; decide
  · unfold BGraph.CtxNonneg; decide

example : (Ex.pipe [Ex.symB]).Down (Ex.blk1 0 2 4 2 4 1) (Ex.blk1 1 0 4 1 3 0) := by
  refine ((C14_inverse_partial (p := Ex.pipe [Ex.symB]) (x := 0) (y := 1) Ex.sym_init Ex.sym_unique
    (wf_of_regular Ex.sym_init Ex.sym_regular) (by decide) rfl rfl Ex.sym_linkOK
    ⟨_, _, rfl, rfl, by decide +kernel⟩ ⟨_, _, rfl, rfl, by decide +kernel⟩).1).2 ?_
  exact ⟨_, rfl, by decide +kernel⟩

/-- C14 is false when the context differs on the two sides (here: 2 below, 0 above): block `[0,1)`
of task 0 is upstream of block `[2,4)` of task 1, which is not downstream of it; and block `[4,6)`
is downstream of block `[7,8)`, which is not upstream of it. -/
theorem C14_false_asymmetric : ∃ (tasks : List (Task 1)) (p : Pipeline 1),
    Pipeline.init tasks = .ok p ∧ UniqueIds tasks ∧ p.Wf ∧ 0 ∈ p.tg.ups 1 ∧ ∃ a b a' b',
      p.BlockOf 0 a ∧ p.BlockOf 0 a' ∧ p.BlockOf 1 b ∧ p.BlockOf 1 b' ∧
      p.Up a b ∧ ¬ p.Down a b ∧ p.Down a' b' ∧ ¬ p.Up a' b' := by
  refine ⟨[Ex.asymB], Ex.pipe [Ex.asymB], Ex.asym_init, Ex.asym_unique,
    wf_of_regular Ex.asym_init Ex.asym_regular, by decide,
    Ex.blk1 0 0 1 0 1 0, Ex.blk1 1 0 4 2 4 1, Ex.blk1 0 7 8 7 8 7, Ex.blk1 1 2 6 4 6 2,
    ⟨_, _, rfl, rfl, by decide +kernel⟩, ⟨_, _, rfl, rfl, by decide +kernel⟩,
    ⟨_, _, rfl, rfl, by decide +kernel⟩, ⟨_, _, rfl, rfl, by decide +kernel⟩,
    ⟨_, rfl, by decide +kernel⟩, ?_, ⟨_, rfl, by decide +kernel⟩, ?_⟩
  · rintro ⟨us, hus, h⟩
    have : okOr ((Ex.pipe [Ex.asymB]).downstream (Ex.blk1 0 0 1 0 1 0)) [] = [] := by decide +kernel
    rw [hus] at this
    change us = [] at this
    rw [this] at h
    cases h
  · rintro ⟨us, hus, h⟩
    have : Ex.blk1 0 7 8 7 8 7 ∉ okOr ((Ex.pipe [Ex.asymB]).upstream (Ex.blk1 1 2 6 4 6 2)) [] := by
      decide +kernel
    rw [hus] at this
    exact this h

/-- C14 is false when the dependent task overhangs: block `[3,4)` of task 0 is upstream of the
overhanging block `[2,4)` of task 1, which is not downstream of it. -/
theorem C14_false_overhang : ∃ (tasks : List (Task 1)) (p : Pipeline 1),
    Pipeline.init tasks = .ok p ∧ UniqueIds tasks ∧ p.Wf ∧ 0 ∈ p.tg.ups 1 ∧ ∃ a b,
      p.BlockOf 0 a ∧ p.BlockOf 1 b ∧ p.Up a b ∧ ¬ p.Down a b := by
  refine ⟨[Ex.overB], Ex.pipe [Ex.overB], Ex.over_init, Ex.over_unique,
    wf_of_regular Ex.over_init Ex.over_regular, by decide,
    Ex.blk1 0 3 4 3 4 3, Ex.blk1 1 2 4 2 4 1,
    ⟨_, _, rfl, rfl, by decide +kernel⟩, ⟨_, _, rfl, rfl, by decide +kernel⟩,
    ⟨_, rfl, by decide +kernel⟩, ?_⟩
  rintro ⟨us, hus, h⟩
  have : okOr ((Ex.pipe [Ex.overB]).downstream (Ex.blk1 0 3 4 3 4 3)) [] = [] := by decide +kernel
  rw [hus] at this
  change us = [] at this
  rw [this] at h
  cases h

end Verif.Props
