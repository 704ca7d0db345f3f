import Verif.Spec.Plain
import Verif.Proofs.PipelineWf
import Verif.Props.Tasks

/-! # Conditions on the parameters of tasks imply the conditions on pipelines -/

namespace Verif

open Spec

variable {d : Nat} {tasks : List (Task d)} {p : Pipeline d}

namespace Pipeline

theorem taskGraph_ok {t : Task d} (h : t.info.Plain) : ∃ g, taskGraph t = .ok g := by
  unfold taskGraph BGraph.init
  have hne : t.info.writeRoi.isEmpty = false := by
    rw [Bool.eq_false_iff, ne_eq, Roi.isEmpty_iff]
    rintro ⟨j, hj⟩
    have := h.wpos j
    omega
  have hc : t.info.readRoi.containsRoi t.info.writeRoi = true := by
    simp only [Roi.containsRoi, hne, Bool.false_eq_true, if_false, Bool.and_eq_true,
      Roi.containsPoint_iff, Coord.get_sub, Vec.get_const, Roi.get_hi, Roi.get_lo]
    constructor <;> intro i <;> have h1 := h.wpos i <;> have h2 := h.lower i <;> have h3 := h.upper i <;>
      omega
  simp only [hc, Bool.not_true, Bool.and_false, Bool.false_eq_true, if_false]
  exact ⟨_, rfl⟩

theorem addGraphs_ok (tg : TaskGraph (TaskInfo d)) :
    ∀ (xs : List Nat) (gs : Nat → Option (BGraph d)),
      (∀ x ∈ xs, ∃ t g, tg.taskMap x = some t ∧ taskGraph t = .ok g) →
      ∃ gs', addGraphs tg xs gs = .ok gs' := by
  intro xs
  induction xs with
  | nil => exact fun gs _ => ⟨gs, rfl⟩
  | cons x xs ih =>
    intro gs h
    obtain ⟨t, g, h1, h2⟩ := h x List.mem_cons_self
    simp only [addGraphs, h1, h2]
    exact ih _ (fun y hy => h y (List.mem_cons_of_mem _ hy))

/-- Plain tasks make a dependency graph. -/
theorem init_ok (h : ∀ t, Required tasks t → t.info.Plain) : ∃ p, Pipeline.init tasks = .ok p := by
  obtain ⟨gs, hgs⟩ := addGraphs_ok (TaskGraph.build tasks) (TaskGraph.build tasks).ids (fun _ => none) (by
    intro x hx
    obtain ⟨t, h1, _, h3, _⟩ := TaskGraph.build_complete tasks hx
    obtain ⟨g, hg⟩ := taskGraph_ok (h t h3)
    exact ⟨t, g, h1, hg⟩)
  refine ⟨⟨TaskGraph.build tasks, gs⟩, ?_⟩
  unfold init
  dsimp only
  rw [hgs]

theorem Plain_regular {a : TaskInfo d} (h : a.Plain) : a.Regular where
  wpos := h.wpos
  room := fun i => by
    have := h.room i
    have := h.wpos i
    omega
  lower := h.lower
  upper := fun _ => h.upper

/-- The graph of a task in terms of its parameters. -/
theorem writes_eq {t : Task d} {g : BGraph d} (h : taskGraph t = .ok g) : g.totalWrite = t.info.writes := by
  obtain ⟨_, _, _, _, _, e6⟩ := taskGraph_init h
  rw [e6]
  unfold Roi.grow TaskInfo.writes
  congr 1
  · apply Vec.ext_get
    intro i
    simp only [Coord.get_sub, Coord.get_neg, Roi.get_lo, Vec.get_ofFn]
    ring
  · apply Vec.ext_get
    intro i
    simp only [Coord.get_sub, Coord.get_add, Coord.get_neg, Roi.get_lo, Roi.get_hi, Vec.get_ofFn]
    ring

theorem plain_graph {t : Task d} {g : BGraph d} (h : taskGraph t = .ok g) (hp : t.info.Plain) :
    g.Inside ∧ g.OriginSafe ∧ g.CtxNonneg := by
  obtain ⟨e1, e2, _, e4, _, _⟩ := taskGraph_init h
  have hw := writes_eq h
  refine ⟨?_, ?_, ?_⟩
  · rcases hp.inside with h1 | h1
    · exact Or.inl (e4 ▸ h1)
    · refine Or.inr fun i => ?_
      unfold BGraph.w BGraph.t
      rw [hw, e2]
      exact h1 i
  · obtain ⟨i, hi⟩ := hp.origin
    exact ⟨i, Or.inl (hw ▸ hi)⟩
  · intro i
    have h1 := hp.lower i
    have h2 := hp.upper i
    simp only [BGraph.cl, BGraph.cu, e1, e2]
    omega

/-- Plain tasks have a block. -/
theorem plain_has_block {t : Task d} {g : BGraph d} (h : taskGraph t = .ok g) (hp : t.info.Plain)
    (hw : g.Wf) : g.blocks ≠ .ok [] := by
  intro hb
  obtain ⟨e1, e2, _, _, _, _⟩ := taskGraph_init h
  have ho : g.Grid (Vec.const d 0) := by
    intro i
    have h1 := hp.wpos i
    have h2 := hp.room i
    have ht : g.t i = t.info.totalRoi.shape.get i -
        (t.info.readRoi.shape.get i - t.info.writeRoi.shape.get i) := by
      unfold BGraph.t
      rw [writes_eq h]
      simp only [TaskInfo.writes, Vec.get_ofFn]
    have hw' : g.w i = t.info.writeRoi.shape.get i := by unfold BGraph.w; rw [e2]
    rw [Vec.get_const]
    refine ⟨le_refl _, ?_, dvd_zero _⟩
    by_cases hf : g.fit = .valid
    · rw [g.u_valid hf]; omega
    · rw [g.u_other hf]; omega
  have := (g.mem_blocks hw hb _).2 ⟨_, ho, rfl⟩
  cases this

variable (hp : Pipeline.init tasks = .ok p) (h : PlainTasks tasks)

include hp h

theorem plain_wf : p.Wf := wf_of_init hp (fun t ht => Plain_regular (h.plain t ht))

theorem plain_rootLevels : p.RootLevels := by
  have hw := plain_wf hp h
  refine rootLevels_of hw fun x g _ hg => Or.inr ?_
  obtain ⟨t, h1, _, _, h4⟩ := graphs_init hp hg
  exact plain_has_block h4 (h.plain t h1) (hw x g hg).1

/-- Tasks and graphs on both ends of a link. -/
theorem link_tasks {x y : Nat} {gx gy : BGraph d} (hxy : x ∈ p.tg.ups y) (hx : p.graphs x = some gx)
    (hy : p.graphs y = some gy) : ∃ s t, Required tasks s ∧ Required tasks t ∧ s ∈ t.requires ∧
      s.id = x ∧ t.id = y ∧ taskGraph s = .ok gx ∧ taskGraph t = .ok gy := by
  obtain ⟨t, h1, h2, _, h4⟩ := graphs_init hp hy
  obtain ⟨s, s1, s2, _, s4⟩ := graphs_init hp hx
  rw [(built_of_init hp h.unique).2, ← h2, Props.C54_upstream tasks h.unique h1] at hxy
  obtain ⟨u, hu, e⟩ := hxy
  have hreq : Required tasks u := by
    obtain ⟨t0, ht0, hn⟩ := h1
    exact ⟨t0, ht0, hn.tail hu⟩
  have : u = s := h.unique u s hreq s1 (e.trans s2.symm)
  subst this
  exact ⟨u, t, s1, h1, hu, s2, h2, s4, h4⟩

theorem plain_linked : p.Linked := by
  intro x y gx gy hxy hx hy
  obtain ⟨s, t, s1, t1, hst, _, _, s4, t4⟩ := link_tasks hp h hxy hx hy
  obtain ⟨a1, a2, _⟩ := plain_graph s4 (h.plain s s1)
  obtain ⟨b1, b2, b3⟩ := plain_graph t4 (h.plain t t1)
  obtain ⟨e1, e2, _⟩ := taskGraph_init t4
  refine ⟨a1, a2, b1, b2, fun i => ?_, b3⟩
  have := h.symmetric t t1 (List.ne_nil_of_mem hst) i
  simp only [BGraph.cl, BGraph.cu, e1, e2]
  exact this

theorem plain_fed : p.Fed := by
  intro y b hb hy
  have hw := plain_wf hp h
  obtain ⟨gy, o, hgy, ho, rfl⟩ := grid_blockOf hw hb
  obtain ⟨t, t1, t2, _, t4⟩ := graphs_init hp hgy
  have hbt := (built_of_init hp h.unique)
  have hreq : t.requires ≠ [] := by
    obtain ⟨x, hx⟩ := List.exists_mem_of_ne_nil _ hy
    rw [hbt.2, ← t2, Props.C54_upstream tasks h.unique t1] at hx
    obtain ⟨u, hu, _⟩ := hx
    exact List.ne_nil_of_mem hu
  obtain ⟨u, hu, hin, hcov⟩ := h.nested t t1 hreq
  have hur : Required tasks u := by
    obtain ⟨t0, ht0, hn⟩ := t1
    exact ⟨t0, ht0, hn.tail hu⟩
  have hux : u.id ∈ p.tg.ups y := by
    rw [hbt.2, ← t2, Props.C54_upstream tasks h.unique t1]
    exact ⟨u, hu, rfl⟩
  obtain ⟨gx, hgx, _⟩ := hbt.1.graph u.id (hbt.1.inv.mem _ _ hux).1
  obtain ⟨s, s1, s2, _, s4⟩ := graphs_init hp hgx
  have : s = u := h.unique s u s1 hur s2
  subst this
  have hwx := (hw _ _ hgx).1
  have hwy := (hw _ _ hgy).1
  have hadm := gy.grid_admissible ho
  obtain ⟨w1, w2⟩ := gy.blk_write hwy o hadm
  have hc := (plain_graph t4 (h.plain t t1)).2.2
  obtain ⟨r1, r2⟩ := gy.blk_read hwy hc o hadm
  -- the first voxel that the block writes
  let v := (gy.blk o).writeRoi.offset
  have hv : InRoi v gy.totalWrite := by
    intro i
    have h1 := ho i
    have h2 := gy.u_le_t hwy i
    show _ ≤ (gy.blk o).writeRoi.offset.get i ∧ (gy.blk o).writeRoi.offset.get i < _
    rw [w1 i]
    unfold BGraph.t at h2
    omega
  have hread : InRoi v (gy.blk o).readRoi := by
    intro i
    have h1 := hc i
    have h3 := hwy.wpos i
    have h4 := ho i
    have h5 := gy.u_le_t hwy i
    have htw : gy.totalWrite.offset.get i = gy.totalRead.offset.get i + gy.cl i := by
      rw [hwy.tw]
      simp only [Roi.grow, Coord.get_sub, Coord.get_neg, Roi.get_lo, BGraph.cl]
      ring
    show _ ≤ (gy.blk o).writeRoi.offset.get i ∧ (gy.blk o).writeRoi.offset.get i < _
    rw [r1 i, r2 i, w1 i, w2 i, htw]
    split <;> omega
  rw [writes_eq t4] at hv
  have hvx : InRoi v gx.totalWrite := by rw [writes_eq s4]; exact hin v hv
  obtain ⟨bs, hbs⟩ := Props.C05_enumeration_ok gx hwx
  obtain ⟨e1, e2, _, e4, _, _⟩ := taskGraph_init s4
  have hex : ∃ a ∈ bs, InRoi v a.writeRoi := by
    by_cases hf : gx.fit = .valid
    · rcases hcov with h1 | h1
      · exact absurd (e4 ▸ hf) h1
      · obtain ⟨a, ⟨h2, h3⟩, _⟩ := Props.C02_cover_valid_exact gx hwx hf hbs (fun i => by
          unfold BGraph.w BGraph.t
          rw [writes_eq s4, e2]
          exact h1 i) v hvx
        exact ⟨a, h2, h3⟩
    · obtain ⟨a, ⟨h2, h3⟩, _⟩ := Props.C02_cover gx hwx hf hbs v hvx
      exact ⟨a, h2, h3⟩
  obtain ⟨a, ha, hva⟩ := hex
  exact ⟨s.id, hux, a, ⟨gx, bs, hgx, hbs, ha⟩, v, hva, hread⟩

end Pipeline

end Verif
