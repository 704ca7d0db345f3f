import Verif.Proofs.PipelineOK
import Verif.Proofs.Safety

/-! # More facts about `DependencyGraph`, without conditions on the links -/

namespace Verif

open Verif.Spec Verif.Axis

variable {d : Nat}

namespace Pipeline

theorem taskGraph_init {t : Task d} {g : BGraph d} (h : taskGraph t = .ok g) :
    g.blockRead = t.info.readRoi ∧ g.blockWrite = t.info.writeRoi ∧ g.conflict = t.info.conflict ∧
      g.fit = t.info.fit ∧ g.totalRead = t.info.totalRoi ∧
      g.totalWrite = t.info.totalRoi.grow (-(t.info.writeRoi.lo - t.info.readRoi.lo))
        (-(t.info.readRoi.hi - t.info.writeRoi.hi)) := by
  unfold taskGraph BGraph.init at h
  dsimp only at h
  split at h
  · cases h
  · cases h
    exact ⟨rfl, rfl, rfl, rfl, rfl, rfl⟩

/-- The per-task graph of a pipeline is the graph of a required task. -/
theorem graphs_init {tasks : List (Task d)} {p : Pipeline d} (h : init tasks = .ok p) {x : Nat}
    {g : BGraph d} (hx : p.graphs x = some g) :
    ∃ t, Required tasks t ∧ t.id = x ∧ p.tg.taskMap x = some t ∧ taskGraph t = .ok g := by
  unfold init at h
  dsimp only at h
  split at h
  · cases h
  · rename_i gs hgs
    cases h
    have hinv := TaskGraph.build_inv tasks
    obtain ⟨h1, h2⟩ := addGraphs_spec _ _ _ _ hinv.nodup hgs
    change gs x = _ at hx
    by_cases hm : x ∈ (TaskGraph.build tasks).ids
    · obtain ⟨t, g', ht, hg, hx'⟩ := h2 x hm
      rw [hx] at hx'; cases hx'
      obtain ⟨t', ht', hid, hreq, _⟩ := TaskGraph.build_complete tasks hm
      rw [ht] at ht'; cases ht'
      exact ⟨t, hreq, hid, ht, hg⟩
    · rw [h1 x hm] at hx
      cases hx

theorem wf_of_init {tasks : List (Task d)} {p : Pipeline d} (h : init tasks = .ok p)
    (hr : ∀ t, Required tasks t → t.info.Regular) : p.Wf := by
  intro x g hg
  obtain ⟨t, h1, _, _, h4⟩ := graphs_init h hg
  obtain ⟨e1, e2, e3, e4, e5, e6⟩ := taskGraph_init h4
  have hreg := hr t h1
  refine ⟨BGraph.wf_of_init h4 hreg.wpos ?_, ?_, ?_⟩
  · intro i
    have := hreg.room i
    rw [e6]
    simp only [Roi.grow, Coord.get_add, Coord.get_sub, Coord.get_neg, Roi.get_lo, Roi.get_hi]
    omega
  · by_cases hs : g.fit = .shrink
    · left
      intro i
      have h5 := hreg.lower i
      have h6 := hreg.upper (e4 ▸ hs) i
      simp only [BGraph.cl, BGraph.cu, e1, e2]
      omega
    · exact Or.inr hs
  · intro i
    have h5 := hreg.lower i
    simp only [BGraph.cl, e1, e2]
    omega

theorem blockOf_grid {p : Pipeline d} (hw : p.Wf) {x : Nat} {g : BGraph d} (hg : p.graphs x = some g)
    {o : Coord d} (ho : g.Grid o) : p.BlockOf x (g.blk o) := by
  obtain ⟨bs, hbs⟩ := Props.C05_enumeration_ok g (hw x g hg).1
  exact ⟨g, bs, hg, hbs, (g.mem_blocks (hw x g hg).1 hbs _).2 ⟨o, ho, rfl⟩⟩

theorem grid_blockOf {p : Pipeline d} (hw : p.Wf) {x : Nat} {b : Block d} (h : p.BlockOf x b) :
    ∃ g o, p.graphs x = some g ∧ g.Grid o ∧ b = g.blk o := by
  obtain ⟨g, bs, hg, hbs, hmem⟩ := h
  obtain ⟨o, ho, rfl⟩ := (g.mem_blocks (hw x g hg).1 hbs b).1 hmem
  exact ⟨g, o, hg, ho, rfl⟩

theorem sub_blockOf {p : Pipeline d} (hw : p.Wf) {x : Nat} {g : BGraph d} (hg : p.graphs x = some g)
    {roi : Roi d} {rr : Bool} {a : Block d} (h : a ∈ g.subgraphBlocks roi rr) : p.BlockOf x a := by
  obtain ⟨o, ho, rfl⟩ := g.subgraph_sub (hw x g hg).1 h
  exact blockOf_grid hw hg ho

/-- Everything reported upstream is a block of the same task or of an upstream task. -/
theorem up_blockOf {p : Pipeline d} (hb : p.Built) (hw : p.Wf) {y : Nat} {b : Block d}
    (h : p.BlockOf y b) {a : Block d} (ha : p.Up a b) :
    ∃ x, (x = y ∨ x ∈ p.tg.ups y) ∧ p.BlockOf x a := by
  obtain ⟨us, hus, ha⟩ := ha
  obtain ⟨g, us', l, h1, h2, h3, h4⟩ := mem_upstream hb hw h
  rw [hus] at h3; cases h3
  rcases (h4 a).1 ha with h5 | ⟨x, hx, gx, hgx, h5⟩
  · obtain ⟨g', bs, hg', hbs, hmem⟩ := h
    rw [h1] at hg'; cases hg'
    obtain ⟨us2, _, u1, _, _, _, u5, _⟩ := Props.C08_closed g (hw y g h1).1 (hw y g h1).2.1 hbs hmem
    rw [h2] at u1; cases u1
    exact ⟨y, Or.inl rfl, g, bs, h1, hbs, u5 a h5⟩
  · exact ⟨x, Or.inr hx, sub_blockOf hw hgx h5⟩

theorem down_blockOf {p : Pipeline d} (hb : p.Built) (hw : p.Wf) {x : Nat} {a : Block d}
    (h : p.BlockOf x a) {b : Block d} (hd : p.Down a b) :
    ∃ y, (y = x ∨ y ∈ p.tg.downs x) ∧ p.BlockOf y b := by
  obtain ⟨ds, hds, hbd⟩ := hd
  obtain ⟨g, ds', l, h1, h2, h3, h4⟩ := mem_downstream hb hw h
  rw [hds] at h3; cases h3
  rcases (h4 b).1 hbd with h5 | ⟨y, hy, gy, hgy, h5⟩
  · obtain ⟨g', bs, hg', hbs, hmem⟩ := h
    rw [h1] at hg'; cases hg'
    obtain ⟨_, ds2, _, u1, _, _, _, u6⟩ := Props.C08_closed g (hw x g h1).1 (hw x g h1).2.1 hbs hmem
    rw [h2] at u1; cases u1
    exact ⟨x, Or.inl rfl, g, bs, h1, hbs, u6 b h5⟩
  · exact ⟨y, Or.inr hy, sub_blockOf hw hgy h5⟩

/-- Upstream in the task is upstream in the pipeline. -/
theorem up_of_task {p : Pipeline d} (hb : p.Built) (hw : p.Wf) {y : Nat} {g : BGraph d}
    (hg : p.graphs y = some g) {a b : Block d} (h : p.BlockOf y b) (ha : Spec.Up g a b) : p.Up a b := by
  obtain ⟨us, hus, ha⟩ := ha
  obtain ⟨g', us', l, h1, h2, h3, h4⟩ := mem_upstream hb hw h
  rw [hg] at h1; cases h1
  rw [hus] at h2; cases h2
  exact ⟨l, h3, (h4 a).2 (Or.inl ha)⟩

theorem edge_iff {p : Pipeline d} (hb : p.Built) (hw : p.Wf) {y : Nat} {a b : Block d}
    (h : p.BlockOf y b) : Edge p.view a b ↔ p.Up a b := by
  obtain ⟨_, _, l, _, _, h3, _⟩ := mem_upstream hb hw h
  have : p.view.up b = l := okOr_ok h3
  unfold Edge Pipeline.Up
  rw [this, h3]
  constructor
  · exact fun h => ⟨l, rfl, h⟩
  · rintro ⟨us, h, ha⟩
    cases h
    exact ha

theorem anc_of_before {p : Pipeline d} (hb : p.Built) (hw : p.Wf) {y : Nat} {g : BGraph d}
    (hg : p.graphs y = some g) {a b : Block d} (h : p.BlockOf y b) (ha : Before g a b) :
    Anc p.view a b := by
  unfold Before at ha
  have key : p.BlockOf y a ∧ Anc p.view a b := by
    induction ha using Relation.TransGen.head_induction_on with
    | single hab =>
      have hup := up_of_task hb hw hg h hab
      refine ⟨?_, Relation.TransGen.single ((edge_iff hb hw h).2 hup)⟩
      obtain ⟨g', bs, hg', hbs, hmem⟩ := h
      rw [hg] at hg'; cases hg'
      obtain ⟨us2, _, u1, _, _, _, u5, _⟩ := Props.C08_closed g (hw y g hg).1 (hw y g hg).2.1 hbs hmem
      obtain ⟨us, hus, ha⟩ := hab
      rw [hus] at u1; cases u1
      exact ⟨g, bs, hg, hbs, u5 _ ha⟩
    | head hac _ ih =>
      obtain ⟨hc, hanc⟩ := ih
      have hup := up_of_task hb hw hg hc hac
      refine ⟨?_, Relation.TransGen.head ((edge_iff hb hw hc).2 hup) hanc⟩
      obtain ⟨g', bs, hg', hbs, hmem⟩ := hc
      rw [hg] at hg'; cases hg'
      obtain ⟨us2, _, u1, _, _, _, u5, _⟩ := Props.C08_closed g (hw y g hg).1 (hw y g hg).2.1 hbs hmem
      obtain ⟨us, hus, ha⟩ := hac
      rw [hus] at u1; cases u1
      exact ⟨g, bs, hg, hbs, u5 _ ha⟩
  exact key.2

/-- The root generators of root tasks yield blocks without upstream blocks. -/
theorem roots_no_up {p : Pipeline d} (hb : p.Built) (hw : p.Wf) (hr : p.RootLevels) :
    ∀ t ∈ p.view.rootTasks, ∀ n ∈ p.view.rootGen t, p.view.up n = [] := by
  intro t ht n hn
  obtain ⟨ht1, ht2⟩ := (mem_rootTasks t).1 ht
  obtain ⟨g, hg, _⟩ := hb.graph t ht1
  have hw1 := hw t g hg
  obtain ⟨rs, h1, _, _⟩ := Props.C05_num_roots g hw1.1 hw1.2.1 (hr t g ht2 hg)
  have hrs : p.view.rootGen t = rs := okOr_ok ((bind_graphOf hg _).trans h1)
  rw [hrs] at hn
  obtain ⟨bs, hbs⟩ := Props.C05_enumeration_ok g hw1.1
  obtain ⟨hnb, hup⟩ := (Props.C10_roots g hw1.1 hw1.2.1 (hr t g ht2 hg) hbs h1 n).1 hn
  obtain ⟨g', us', l, e1, e2, e3, e4⟩ := mem_upstream hb hw ⟨g, bs, hg, hbs, hnb⟩
  rw [hg] at e1; cases e1
  rw [hup] at e2; cases e2
  have hl : p.view.up n = l := okOr_ok e3
  rw [hl, List.eq_nil_iff_forall_not_mem]
  intro a ha
  rcases (e4 a).1 ha with h | ⟨x, hx, _⟩
  · cases h
  · rw [ht2] at hx
    cases hx

theorem rootLevels_of {p : Pipeline d} (hw : p.Wf)
    (h : ∀ x g, p.tg.ups x = [] → p.graphs x = some g → g.conflict = false ∨ g.blocks ≠ .ok []) :
    p.RootLevels := by
  intro x g hx hg
  have hw1 := (hw x g hg).1
  rcases h x g hx hg with hc | hne
  · have : (Vec.const d 0 : Coord d) ∈ g.levelOffsets := by
      rw [g.mem_levelOffsets hw1]
      intro i
      have := hw1.wpos i
      simp only [BGraph.s, BGraph.levelStride, hc, if_true, Vec.get_const, BGraph.w] at this ⊢
      exact ⟨le_refl _, this, dvd_zero _⟩
    exact List.length_pos_of_mem this
  · obtain ⟨bs, hbs⟩ := Props.C05_enumeration_ok g hw1
    refine Props.C10_has_level g hw1 hbs ?_
    rintro rfl
    exact hne hbs

end Pipeline

end Verif
