import Verif.Proofs.Pipeline
import Verif.Spec.StarvedSpec

/-! # The dependency graph of a pipeline is consistent -/

namespace Verif.Pipeline

open Verif.Spec Verif.Axis

variable {d : Nat}

/-- A bound on the number of levels. -/
def bound (p : Pipeline d) : Nat :=
  (p.tg.ids.map (fun x => match p.graphs x with | some g => g.numLevels | none => 0)).sum + 1

theorem lt_bound {p : Pipeline d} (hb : p.Built) {x : Nat} {g : BGraph d} (hg : p.graphs x = some g) :
    g.numLevels < p.bound := by
  have hm : g.numLevels ∈
      p.tg.ids.map (fun x => match p.graphs x with | some g => g.numLevels | none => 0) :=
    List.mem_map.2 ⟨x, hb.only x g hg, by simp [hg]⟩
  have := List.single_le_sum (fun _ _ => Nat.zero_le _) _ hm
  unfold bound
  omega

/-- Order of blocks: by task, then by level. -/
def rankOf (p : Pipeline d) (r : Nat → Nat) (b : Block d) : Nat :=
  r b.taskId * p.bound +
    min (match p.graphs b.taskId with | some g => okOr (g.levelOf b) 0 | none => 0) (p.bound - 1)

theorem bound_pos (p : Pipeline d) : 0 < p.bound := by unfold bound; omega

theorem rank_lt {p : Pipeline d} (hb : p.Built) (hw : p.Wf) {r : Nat → Nat}
    (hr : ∀ y x, x ∈ p.tg.ups y → r x < r y) {y : Nat} {b : Block d} (h : p.BlockOf y b)
    {us : List (Block d)} (hus : p.upstream b = .ok us) {a : Block d} (ha : a ∈ us) :
    p.rankOf r a < p.rankOf r b := by
  have hid := blockOf_taskId hb hw h
  obtain ⟨g, us', l, h1, h2, h3, h4⟩ := mem_upstream hb hw h
  rw [h3] at hus; cases hus
  have hpos := p.bound_pos
  rcases (h4 a).1 ha with ha | ⟨x, hx, gx, hgx, ha⟩
  · obtain ⟨g', bs, hg', hbs, hmem⟩ := h
    rw [h1] at hg'; cases hg'
    obtain ⟨w1, w2, _⟩ := hw y g h1
    obtain ⟨o, ho, rfl⟩ := (g.mem_blocks w1 hbs _).1 hmem
    obtain ⟨us2, u1, _, u3⟩ := g.upstream_spec w1 w2 ho
    rw [u1] at h2; cases h2
    obtain ⟨q, hq, hd, rfl⟩ := (u3 a).1 ha
    have e1 : (g.blk q).taskId = y := by rw [g.blk_taskId, ← g.blk_taskId o]; exact hid
    unfold rankOf
    rw [hid, e1, h1]
    simp only [g.levelOf_blk w1 w2 hq, g.levelOf_blk w1 w2 ho, okOr]
    have l1 := g.lvl_lt w1 ho
    have l2 := lt_bound hb h1
    have l3 := hd.2.1
    omega
  · have e1 : a.taskId = x := by
      rw [sub_taskId ha]
      obtain ⟨g', hg', hid'⟩ := hb.graph x (hb.only x gx hgx)
      rw [hgx] at hg'; cases hg'
      exact hid'
    have hlt := hr y x hx
    unfold rankOf
    rw [hid, e1]
    have : (r x + 1) * p.bound ≤ r y * p.bound := Nat.mul_le_mul_right _ hlt
    rw [Nat.add_mul] at this
    omega

/-! ## Cross-task links under `Linked` -/

theorem cross_up {p : Pipeline d} (hw : p.Wf) (hl : p.Linked) {x y : Nat} {gx : BGraph d}
    (hxy : x ∈ p.tg.ups y) (hgx : p.graphs x = some gx) {b : Block d} (hb : p.BlockOf y b)
    (a : Block d) :
    a ∈ gx.subgraphBlocks b.readRoi false ↔ p.BlockOf x a ∧ Overlap a.writeRoi b.readRoi := by
  obtain ⟨gy, bs, hgy, hbs, hmem⟩ := hb
  obtain ⟨l1, l2, l3, l4, l5, l6⟩ := hl x y gx gy hxy hgx hgy
  obtain ⟨o, ho, rfl⟩ := (gy.mem_blocks (hw y gy hgy).1 hbs b).1 hmem
  rw [gx.up_query_iff (hw x gx hgx).1 l1 l2 _
    (fun i => le_of_lt (gy.read_pos (hw y gy hgy).1 l6 ho i))]
  obtain ⟨as, has⟩ := Props.C05_enumeration_ok gx (hw x gx hgx).1
  constructor
  · rintro ⟨q, hq, rfl, hov⟩
    exact ⟨⟨gx, as, hgx, has, (gx.mem_blocks (hw x gx hgx).1 has _).2 ⟨q, hq, rfl⟩⟩, hov⟩
  · rintro ⟨⟨gx', as', hgx', has', hm⟩, hov⟩
    rw [hgx] at hgx'; cases hgx'
    rw [has] at has'; cases has'
    obtain ⟨q, hq, rfl⟩ := (gx.mem_blocks (hw x gx hgx).1 has a).1 hm
    exact ⟨q, hq, rfl, hov⟩

theorem cross_down {p : Pipeline d} (hw : p.Wf) (hl : p.Linked) {x y : Nat} {gy : BGraph d}
    (hxy : x ∈ p.tg.ups y) (hgy : p.graphs y = some gy) {a : Block d} (ha : p.BlockOf x a)
    (b : Block d) :
    b ∈ gy.subgraphBlocks a.writeRoi true ↔ p.BlockOf y b ∧ Overlap a.writeRoi b.readRoi := by
  obtain ⟨gx, as, hgx, has, hmem⟩ := ha
  obtain ⟨l1, l2, l3, l4, l5, l6⟩ := hl x y gx gy hxy hgx hgy
  obtain ⟨q, hq, rfl⟩ := (gx.mem_blocks (hw x gx hgx).1 has a).1 hmem
  rw [gy.down_query_iff (hw y gy hgy).1 l3 l4 l5 l6 _ (fun i => gx.write_pos (hw x gx hgx).1 hq i)]
  obtain ⟨bs, hbs⟩ := Props.C05_enumeration_ok gy (hw y gy hgy).1
  constructor
  · rintro ⟨o, ho, rfl, hov⟩
    exact ⟨⟨gy, bs, hgy, hbs, (gy.mem_blocks (hw y gy hgy).1 hbs _).2 ⟨o, ho, rfl⟩⟩, hov⟩
  · rintro ⟨⟨gy', bs', hgy', hbs', hm⟩, hov⟩
    rw [hgy] at hgy'; cases hgy'
    rw [hbs] at hbs'; cases hbs'
    obtain ⟨o, ho, rfl⟩ := (gy.mem_blocks (hw y gy hgy).1 hbs b).1 hm
    exact ⟨o, ho, rfl, hov⟩

/-- `a` is an upstream block of `b` in the same task. -/
def TaskUp (p : Pipeline d) (a b : Block d) : Prop :=
  ∃ g, p.graphs b.taskId = some g ∧ Spec.Up g a b

/-- Under `Linked`: membership in `upstream`. -/
theorem upstream_linked {p : Pipeline d} (hb : p.Built) (hw : p.Wf) (hl : p.Linked) {y : Nat}
    {b : Block d} (h : p.BlockOf y b) : ∃ us, p.upstream b = .ok us ∧ us.Nodup ∧
      ∀ a, a ∈ us ↔ p.TaskUp a b ∨ ∃ x ∈ p.tg.ups y, p.BlockOf x a ∧ Overlap a.writeRoi b.readRoi := by
  have hid := blockOf_taskId hb hw h
  obtain ⟨g, us, l, h1, h2, h3, h4, h5⟩ := upstream_spec hb hw h
  have hcross : ∀ x ∈ p.tg.ups y, ∀ gx, p.graphs x = some gx →
      (gx.subgraphBlocks b.readRoi false).Nodup ∧
      ∀ a ∈ gx.subgraphBlocks b.readRoi false, a.taskId = x := by
    intro x hx gx hgx
    obtain ⟨gy, bs, hgy, hbs, hmem⟩ := h
    obtain ⟨l1, l2, l3, l4, l5, l6⟩ := hl x y gx gy hx hgx hgy
    obtain ⟨o, ho, rfl⟩ := (gy.mem_blocks (hw y gy hgy).1 hbs b).1 hmem
    refine ⟨(gx.subgraph_exact (hw x gx hgx).1 _
      (fun i => le_of_lt (gy.read_pos (hw y gy hgy).1 l6 ho i)) (Or.inr l2)).1, ?_⟩
    intro a ha
    exact blockOf_taskId hb hw ((cross_up hw hl hx hgx ⟨gy, bs, hgy, hbs, hmem⟩ a).1 ha).1
  have hl' : l.Nodup := h5 hcross
  have husn : us.Nodup ∧ ∀ a ∈ us, p.BlockOf y a := by
    obtain ⟨gy, bs, hgy, hbs, hmem⟩ := h
    rw [h1] at hgy; cases hgy
    obtain ⟨us', ds', u1, _, u3, _, u5, _⟩ := Props.C08_closed g (hw y g h1).1 (hw y g h1).2.1 hbs hmem
    rw [h2] at u1; cases u1
    exact ⟨u3, fun a ha => ⟨g, bs, h1, hbs, u5 a ha⟩⟩
  refine ⟨_, h3, nodup_sortBlocks (List.Nodup.append husn.1 hl' ?_), ?_⟩
  · intro a ha hal
    obtain ⟨x, hx, gx, hgx, hax⟩ := (h4 a).1 hal
    have e1 := blockOf_taskId hb hw (husn.2 a ha)
    have e2 := (hcross x hx gx hgx).2 a hax
    rw [e1] at e2
    exact hb.irrefl y (e2 ▸ hx)
  · intro a
    rw [mem_sortBlocks, List.mem_append, h4]
    constructor
    · rintro (ha | ⟨x, hx, gx, hgx, ha⟩)
      · exact Or.inl ⟨g, by rw [hid]; exact h1, us, h2, ha⟩
      · exact Or.inr ⟨x, hx, (cross_up hw hl hx hgx h a).1 ha⟩
    · rintro (⟨g', hg', us', hus', ha⟩ | ⟨x, hx, hov⟩)
      · rw [hid, h1] at hg'; cases hg'
        rw [h2] at hus'; cases hus'
        exact Or.inl ha
      · obtain ⟨gx, bx, hgx, hrest⟩ := hov.1
        exact Or.inr ⟨x, hx, gx, hgx, (cross_up hw hl hx hgx h a).2 hov⟩

/-- Under `Linked`: membership in `downstream`. -/
theorem downstream_linked {p : Pipeline d} (hb : p.Built) (hw : p.Wf) (hl : p.Linked) {x : Nat}
    {a : Block d} (h : p.BlockOf x a) : ∃ ds, p.downstream a = .ok ds ∧ ds.Nodup ∧
      ∀ b, b ∈ ds ↔ (p.BlockOf x b ∧ p.TaskUp a b) ∨
        ∃ y, x ∈ p.tg.ups y ∧ p.BlockOf y b ∧ Overlap a.writeRoi b.readRoi := by
  have hid := blockOf_taskId hb hw h
  obtain ⟨g, ds, l, h1, h2, h3, h4, h5⟩ := downstream_spec hb hw h
  have hup : ∀ {y}, y ∈ p.tg.downs x → x ∈ p.tg.ups y := fun {y} hy => (hb.inv.dual _ _).1 hy
  have hcross : ∀ y ∈ p.tg.downs x, ∀ gy, p.graphs y = some gy →
      (gy.subgraphBlocks a.writeRoi true).Nodup ∧
      ∀ b ∈ gy.subgraphBlocks a.writeRoi true, b.taskId = y := by
    intro y hy gy hgy
    have hx := hup hy
    obtain ⟨gx, as, hgx, has, hmem⟩ := h
    obtain ⟨l1, l2, l3, l4, l5, l6⟩ := hl x y gx gy hx hgx hgy
    obtain ⟨o, ho, rfl⟩ := (gx.mem_blocks (hw x gx hgx).1 has a).1 hmem
    refine ⟨?_, ?_⟩
    · rw [gy.subgraph_read]
      refine (gy.subgraph_exact (hw y gy hgy).1 _ (fun i => ?_) (Or.inr l4)).1
      have e1 := gx.write_pos (hw x gx hgx).1 ho i
      have e2 := l6 i
      simp only [Roi.grow, BGraph.ctxLo, BGraph.ctxHi, Coord.get_add, Coord.get_sub, Roi.get_lo,
        Roi.get_hi]
      simp only [BGraph.cl, BGraph.cu] at e2
      omega
    · intro b hbm
      exact blockOf_taskId hb hw ((cross_down hw hl hx hgy ⟨gx, as, hgx, has, hmem⟩ b).1 hbm).1
  obtain ⟨gx, as, hgx, has, hmem⟩ := h
  rw [h1] at hgx; cases hgx
  obtain ⟨us', ds', _, d1, _, d3, _, d5⟩ :=
    Props.C08_closed g (hw x g h1).1 (hw x g h1).2.1 has hmem
  rw [h2] at d1; cases d1
  refine ⟨_, h3, nodup_sortBlocks (List.Nodup.append d3 (h5 hcross) ?_), ?_⟩
  · intro b hbd hbl
    obtain ⟨y, hy, gy, hgy, hby⟩ := (h4 b).1 hbl
    have e1 := blockOf_taskId hb hw ⟨g, as, h1, has, d5 b hbd⟩
    have e2 := (hcross y hy gy hgy).2 b hby
    rw [e1] at e2
    subst e2
    exact hb.irrefl x (hup hy)
  · intro b
    rw [mem_sortBlocks, List.mem_append, h4]
    constructor
    · rintro (hbd | ⟨y, hy, gy, hgy, hby⟩)
      · have hbb := d5 b hbd
        refine Or.inl ⟨⟨g, as, h1, has, hbb⟩, g, ?_, ?_⟩
        · rw [blockOf_taskId hb hw ⟨g, as, h1, has, hbb⟩]; exact h1
        · obtain ⟨us, ds2, u1, _⟩ := Props.C08_closed g (hw x g h1).1 (hw x g h1).2.1 has hbb
          exact ⟨us, u1, (Props.C08_inverse g (hw x g h1).1 (hw x g h1).2.1 has hmem hbb u1 h2).1 hbd⟩
      · exact Or.inr ⟨y, hup hy, (cross_down hw hl (hup hy) hgy ⟨g, as, h1, has, hmem⟩ b).1 hby⟩
    · rintro (⟨hbb, g', hg', us, hus, ham⟩ | ⟨y, hy, hby, hov⟩)
      · left
        rw [blockOf_taskId hb hw hbb, h1] at hg'; cases hg'
        obtain ⟨g2, bs2, hg2, hbs2, hbm⟩ := hbb
        rw [h1] at hg2; cases hg2
        rw [has] at hbs2; cases hbs2
        exact (Props.C08_inverse g (hw x g h1).1 (hw x g h1).2.1 has hmem hbm hus h2).2 ham
      · right
        have hby' := hby
        obtain ⟨gy, bs, hgy, _⟩ := hby'
        exact ⟨y, (hb.inv.dual _ _).2 hy, gy, hgy,
          (cross_down hw hl hy hgy ⟨g, as, h1, has, hmem⟩ b).2 ⟨hby, hov⟩⟩

/-! ## The whole graph -/

theorem mapM_ok {β γ : Type} (f : β → Except PyErr γ) :
    ∀ (l : List β), (∀ x ∈ l, ∃ v, f x = .ok v) →
      ∃ vs, l.mapM f = .ok vs ∧ List.Forall₂ (fun x v => f x = .ok v) l vs
  | [], _ => ⟨[], rfl, List.Forall₂.nil⟩
  | x :: xs, h => by
    obtain ⟨v, hv⟩ := h x List.mem_cons_self
    obtain ⟨vs, h1, h2⟩ := mapM_ok f xs (fun y hy => h y (List.mem_cons_of_mem _ hy))
    refine ⟨v :: vs, ?_, List.Forall₂.cons hv h2⟩
    rw [List.mapM_cons, hv]
    change (xs.mapM f >>= _) = _
    rw [h1]
    rfl

theorem mem_flatten_forall₂ {β γ : Type} {f : β → Except PyErr (List γ)} {l : List β}
    {vs : List (List γ)} (h : List.Forall₂ (fun x v => f x = .ok v) l vs) (a : γ) :
    a ∈ vs.flatten ↔ ∃ x ∈ l, ∃ v, f x = .ok v ∧ a ∈ v := by
  induction h with
  | nil => simp
  | cons hx _ ih =>
    rw [List.flatten_cons, List.mem_append, ih]
    constructor
    · rintro (ha | ⟨y, hy, v, hv, ha⟩)
      · exact ⟨_, List.mem_cons_self, _, hx, ha⟩
      · exact ⟨y, List.mem_cons_of_mem _ hy, v, hv, ha⟩
    · rintro ⟨y, hy, v, hv, ha⟩
      rcases List.mem_cons.1 hy with rfl | hy
      · rw [hx] at hv; cases hv
        exact Or.inl ha
      · exact Or.inr ⟨y, hy, v, hv, ha⟩

theorem nodup_flatten_forall₂ {β γ : Type} {f : β → Except PyErr (List γ)} {l : List β}
    {vs : List (List γ)} (h : List.Forall₂ (fun x v => f x = .ok v) l vs) (hl : l.Nodup)
    (h1 : ∀ x ∈ l, ∀ v, f x = .ok v → v.Nodup)
    (h2 : ∀ x ∈ l, ∀ y ∈ l, ∀ v w a, f x = .ok v → f y = .ok w → a ∈ v → a ∈ w → x = y) :
    vs.flatten.Nodup := by
  induction h with
  | nil => simp
  | @cons x v l vs hx hf ih =>
    rw [List.nodup_cons] at hl
    rw [List.flatten_cons]
    refine List.Nodup.append (h1 x List.mem_cons_self v hx)
      (ih hl.2 (fun y hy => h1 y (List.mem_cons_of_mem _ hy))
        (fun y hy z hz => h2 y (List.mem_cons_of_mem _ hy) z (List.mem_cons_of_mem _ hz))) ?_
    intro a ha hal
    obtain ⟨y, hy, w, hw, haw⟩ := (mem_flatten_forall₂ hf a).1 hal
    have := h2 x List.mem_cons_self y (List.mem_cons_of_mem _ hy) v w a hx hw ha haw
    exact hl.1 (this ▸ hy)

theorem bind_graphOf {β : Type} {p : Pipeline d} {x : Nat} {g : BGraph d} (hg : p.graphs x = some g)
    (f : BGraph d → Except PyErr β) : (p.graphOf x >>= f) = f g := by
  rw [graphOf_ok hg]; rfl

/-- The enumeration of all blocks. -/
theorem blocks_spec {p : Pipeline d} (hb : p.Built) (hw : p.Wf) :
    ∃ ns, p.blocks = .ok ns ∧ ns.Nodup ∧ ∀ b, b ∈ ns ↔ ∃ x, p.BlockOf x b := by
  have hf : ∀ x g, p.graphs x = some g →
      (do (← p.graphOf x).blocks : Except PyErr (List (Block d))) = g.blocks :=
    fun x g hg => bind_graphOf hg _
  obtain ⟨vs, h1, h2⟩ := mapM_ok (fun x => (do (← p.graphOf x).blocks : Except PyErr _)) p.tg.ids
    (fun x hx => by
      obtain ⟨g, hg, _⟩ := hb.graph x hx
      obtain ⟨bs, hbs⟩ := Props.C05_enumeration_ok g (hw x g hg).1
      exact ⟨bs, (hf x g hg).trans hbs⟩)
  refine ⟨vs.flatten, ?_, ?_, ?_⟩
  · unfold blocks
    rw [h1]
    rfl
  · refine nodup_flatten_forall₂ h2 hb.inv.nodup ?_ ?_
    · intro x hx v hv
      obtain ⟨g, hg, _⟩ := hb.graph x hx
      exact (Props.C05_num_blocks g (hw x g hg).1 ((hf x g hg).symm.trans hv)).1
    · intro x hx y hy v w a hv hw' hav haw
      obtain ⟨g, hg, _⟩ := hb.graph x hx
      obtain ⟨g', hg', _⟩ := hb.graph y hy
      rw [← blockOf_taskId hb hw ⟨g, v, hg, (hf x g hg).symm.trans hv, hav⟩,
        ← blockOf_taskId hb hw ⟨g', w, hg', (hf y g' hg').symm.trans hw', haw⟩]
  · intro b
    rw [mem_flatten_forall₂ h2]
    constructor
    · rintro ⟨x, hx, v, hv, hbv⟩
      obtain ⟨g, hg, _⟩ := hb.graph x hx
      exact ⟨x, g, v, hg, (hf x g hg).symm.trans hv, hbv⟩
    · rintro ⟨x, g, bs, hg, hbs, hmem⟩
      exact ⟨x, hb.only x g hg, bs, (hf x g hg).trans hbs, hmem⟩

theorem mem_rootTasks {p : Pipeline d} (x : Nat) :
    x ∈ p.tg.rootTasks ↔ x ∈ p.tg.ids ∧ p.tg.ups x = [] := by
  simp [TaskGraph.rootTasks, List.length_eq_zero_iff]

/-- Building the scheduler's view does not raise if all root tasks have a level. -/
theorem dgraph_ok {p : Pipeline d} (hb : p.Built) (hw : p.Wf) (hr : p.RootLevels) :
    p.dgraph = .ok p.view := by
  have hroot : ∀ x ∈ p.tg.rootTasks, ∃ rs, p.rootGen x = .ok rs ∧ p.numRoots x = .ok (rs.length : Int) := by
    intro x hx
    obtain ⟨hx1, hx2⟩ := (mem_rootTasks x).1 hx
    obtain ⟨g, hg, _⟩ := hb.graph x hx1
    obtain ⟨rs, h1, _, h3⟩ := Props.C05_num_roots g (hw x g hg).1 (hw x g hg).2.1 (hr x g hx2 hg)
    exact ⟨rs, (bind_graphOf hg _).trans h1, (bind_graphOf hg _).trans h3⟩
  obtain ⟨v1, e1, _⟩ := mapM_ok p.numRoots p.tg.rootTasks
    (fun x hx => by obtain ⟨rs, _, h⟩ := hroot x hx; exact ⟨_, h⟩)
  obtain ⟨v2, e2, _⟩ := mapM_ok p.rootGen p.tg.rootTasks
    (fun x hx => by obtain ⟨rs, h, _⟩ := hroot x hx; exact ⟨_, h⟩)
  obtain ⟨v3, e3, _⟩ := mapM_ok p.numBlocks p.tg.ids
    (fun x hx => by
      obtain ⟨g, hg, _⟩ := hb.graph x hx
      obtain ⟨bs, hbs⟩ := Props.C05_enumeration_ok g (hw x g hg).1
      exact ⟨_, (bind_graphOf hg _).trans (Props.C05_num_blocks g (hw x g hg).1 hbs).2⟩)
  obtain ⟨ns, e4, _⟩ := blocks_spec hb hw
  unfold dgraph
  rw [e1, e2, e3, e4]
  rfl

theorem okOr_ok {β : Type} {x : Except PyErr β} {v dflt : β} (h : x = .ok v) : okOr x dflt = v := by
  rw [h]; rfl

/-- The graph handed to the scheduler is consistent, except that blocks may have nothing upstream. -/
theorem view_loose {p : Pipeline d} (hb : p.Built) (hw : p.Wf) (hr : p.RootLevels) (hl : p.Linked) :
    p.view.Loose := by
  obtain ⟨ns, n1, n2, n3⟩ := blocks_spec hb hw
  have i0 : p.view.nodes = ns := okOr_ok n1
  rw [← i0] at n2 n3
  obtain ⟨g, hg⟩ : ∃ g, g = p.view := ⟨_, rfl⟩
  have i1 : g.tasks = p.tg.ids := by rw [hg]; rfl
  have i2 : g.rootTasks = p.tg.rootTasks := by rw [hg]; rfl
  have i3 : ∀ b, g.up b = okOr (p.upstream b) [] := by rw [hg]; exact fun _ => rfl
  have i4 : ∀ b, g.down b = okOr (p.downstream b) [] := by rw [hg]; exact fun _ => rfl
  have i5 : g.task = Block.taskId := by rw [hg]; rfl
  have i6 : g.key = Block.blockId := by rw [hg]; rfl
  have i7 : ∀ t, g.total t = okOr (p.numBlocks t) 0 := by rw [hg]; exact fun _ => rfl
  have i8 : ∀ t, g.numRoots t = okOr (p.numRoots t) 0 := by rw [hg]; exact fun _ => rfl
  have i9 : ∀ t, g.rootGen t = okOr (p.rootGen t) [] := by rw [hg]; exact fun _ => rfl
  rw [← hg] at n2 n3 ⊢
  have hup : ∀ y b, p.BlockOf y b → (g.up b).Nodup ∧ ∀ a, a ∈ g.up b ↔ p.TaskUp a b ∨
      ∃ x ∈ p.tg.ups y, p.BlockOf x a ∧ Overlap a.writeRoi b.readRoi := by
    intro y b h
    obtain ⟨us, h1, h2, h3⟩ := upstream_linked hb hw hl h
    rw [i3, okOr_ok h1]
    exact ⟨h2, h3⟩
  have hdown : ∀ x a, p.BlockOf x a → (g.down a).Nodup ∧ ∀ b, b ∈ g.down a ↔
      (p.BlockOf x b ∧ p.TaskUp a b) ∨
        ∃ y, x ∈ p.tg.ups y ∧ p.BlockOf y b ∧ Overlap a.writeRoi b.readRoi := by
    intro y b h
    obtain ⟨us, h1, h2, h3⟩ := downstream_linked hb hw hl h
    rw [i4, okOr_ok h1]
    exact ⟨h2, h3⟩
  have htask : ∀ y b, p.BlockOf y b → g.task b = y := by
    intro y b h
    rw [i5]
    exact blockOf_taskId hb hw h
  have htu : ∀ y a b, p.BlockOf y b → p.TaskUp a b → p.BlockOf y a := by
    intro y a b h ⟨gb, hgb, us, hus, ha⟩
    rw [blockOf_taskId hb hw h] at hgb
    obtain ⟨g2, bs, hg2, hbs, hmem⟩ := h
    rw [hgb] at hg2; cases hg2
    obtain ⟨us', ds', u1, _, _, _, u5, _⟩ :=
      Props.C08_closed gb (hw y gb hgb).1 (hw y gb hgb).2.1 hbs hmem
    rw [hus] at u1; cases u1
    exact ⟨gb, bs, hgb, hbs, u5 a ha⟩
  have hroot : ∀ x ∈ p.tg.rootTasks, ∃ gx bs rs, p.graphs x = some gx ∧ gx.blocks = .ok bs ∧
      gx.rootGen = .ok rs ∧ rs.Nodup ∧ g.rootGen x = rs ∧ g.numRoots x = rs.length ∧
      p.tg.ups x = [] ∧ 0 < gx.numLevels := by
    intro x hx
    obtain ⟨hx1, hx2⟩ := (mem_rootTasks x).1 hx
    obtain ⟨gx, hgx, _⟩ := hb.graph x hx1
    obtain ⟨bs, hbs⟩ := Props.C05_enumeration_ok gx (hw x gx hgx).1
    obtain ⟨rs, h1, h2, h3⟩ := Props.C05_num_roots gx (hw x gx hgx).1 (hw x gx hgx).2.1
      (hr x gx hx2 hgx)
    refine ⟨gx, bs, rs, hgx, hbs, h1, h2, ?_, ?_, hx2, hr x gx hx2 hgx⟩
    · rw [i9]; exact okOr_ok ((bind_graphOf hgx _).trans h1)
    · rw [i8]; exact okOr_ok ((bind_graphOf hgx _).trans h3)
  refine ⟨n2, ?_, ?_, ?_, ?_, ?_, ?_, ?_, ?_, ?_, ?_, ?_, ?_, ?_, ?_, ?_⟩
  · intro b hbm a ha
    obtain ⟨y, hy⟩ := (n3 b).1 hbm
    rcases ((hup y b hy).2 a).1 ha with h | ⟨x, _, h, _⟩
    · exact (n3 a).2 ⟨y, htu y a b hy h⟩
    · exact (n3 a).2 ⟨x, h⟩
  · intro a ham b hb'
    obtain ⟨x, hx⟩ := (n3 a).1 ham
    rcases ((hdown x a hx).2 b).1 hb' with ⟨h, _⟩ | ⟨y, _, h, _⟩
    · exact (n3 b).2 ⟨x, h⟩
    · exact (n3 b).2 ⟨y, h⟩
  · intro b hbm
    obtain ⟨y, hy⟩ := (n3 b).1 hbm
    exact (hup y b hy).1
  · intro a ham
    obtain ⟨x, hx⟩ := (n3 a).1 ham
    exact (hdown x a hx).1
  · intro a ham b hbm
    obtain ⟨x, hx⟩ := (n3 a).1 ham
    obtain ⟨y, hy⟩ := (n3 b).1 hbm
    rw [(hdown x a hx).2 b, (hup y b hy).2 a]
    constructor
    · rintro (⟨_, h⟩ | ⟨y', hy', hby, hov⟩)
      · exact Or.inl h
      · have : y' = y := by rw [← htask y' b hby, htask y b hy]
        subst this
        exact Or.inr ⟨x, hy', hx, hov⟩
    · rintro (h | ⟨x', hx', hax, hov⟩)
      · left
        have hya := htu y a b hy h
        have : y = x := by rw [← htask y a hya, htask x a hx]
        subst this
        exact ⟨hy, h⟩
      · have : x' = x := by rw [← htask x' a hax, htask x a hx]
        subst this
        exact Or.inr ⟨y, hx', hy, hov⟩
  · obtain ⟨r, hr'⟩ := hb.acyc
    refine ⟨p.rankOf r, fun b hbm a ha => ?_⟩
    obtain ⟨y, hy⟩ := (n3 b).1 hbm
    obtain ⟨us, h1, _⟩ := upstream_linked hb hw hl hy
    refine rank_lt hb hw hr' hy h1 ?_
    rwa [i3, okOr_ok h1] at ha
  · intro a ham b hbm hk
    obtain ⟨x, hx⟩ := (n3 a).1 ham
    obtain ⟨y, hy⟩ := (n3 b).1 hbm
    rw [i6] at hk
    have : x = y := by
      rw [← blockOf_taskId hb hw hx, ← blockOf_taskId hb hw hy]
      exact (Prod.mk.inj hk).1
    subst this
    obtain ⟨gx, as, hgx, has, hma⟩ := hx
    obtain ⟨gy, bs, hgy, hbs, hmb⟩ := hy
    rw [hgx] at hgy; cases hgy
    rw [has] at hbs; cases hbs
    exact (Props.C06_block_id_partial gx (hw x gx hgx).1 (hw x gx hgx).2.2 has hma hmb).1 hk
  · rw [i1]; exact hb.inv.nodup
  · intro b hbm
    obtain ⟨y, hy⟩ := (n3 b).1 hbm
    rw [htask y b hy, i1]
    obtain ⟨gy, _, hgy, _⟩ := hy
    exact hb.only y gy hgy
  · intro x hx
    rw [i1] at hx
    obtain ⟨gx, hgx, _⟩ := hb.graph x hx
    obtain ⟨bs, hbs⟩ := Props.C05_enumeration_ok gx (hw x gx hgx).1
    obtain ⟨hn, hcount⟩ := Props.C05_num_blocks gx (hw x gx hgx).1 hbs
    refine ⟨bs, hn, ?_, ?_⟩
    · intro b
      constructor
      · intro hbm
        have : p.BlockOf x b := ⟨gx, bs, hgx, hbs, hbm⟩
        exact ⟨(n3 b).2 ⟨x, this⟩, htask x b this⟩
      · rintro ⟨hbm, ht⟩
        obtain ⟨y, hy⟩ := (n3 b).1 hbm
        have : y = x := by rw [← htask y b hy, ht]
        subst this
        obtain ⟨gy, bs', hgy, hbs', hmem⟩ := hy
        rw [hgx] at hgy; cases hgy
        rw [hbs] at hbs'; cases hbs'
        exact hmem
    · rw [i7]; exact okOr_ok ((bind_graphOf hgx _).trans hcount)
  · rw [i2]; exact hb.inv.nodup.filter _
  · intro x hx
    rw [i2] at hx
    rw [i1]
    exact ((mem_rootTasks x).1 hx).1
  · intro x hx
    rw [i2] at hx
    obtain ⟨gx, bs, rs, _, _, _, _, h1, h2, _⟩ := hroot x hx
    rw [h1, h2]
  · intro x hx
    rw [i2] at hx
    obtain ⟨gx, bs, rs, _, _, _, h0, h1, _⟩ := hroot x hx
    rw [h1]; exact h0
  · intro x hx b
    rw [i2] at hx
    obtain ⟨gx, bs, rs, hgx, hbs, hrs, _, h1, _, hnil, hlev⟩ := hroot x hx
    rw [h1, Props.C10_roots gx (hw x gx hgx).1 (hw x gx hgx).2.1 hlev hbs hrs]
    constructor
    · rintro ⟨hmem, hu⟩
      have hx' : p.BlockOf x b := ⟨gx, bs, hgx, hbs, hmem⟩
      refine ⟨(n3 b).2 ⟨x, hx'⟩, htask x b hx', ?_⟩
      rw [List.eq_nil_iff_forall_not_mem]
      intro a ha
      rcases ((hup x b hx').2 a).1 ha with ⟨g2, hg2, us, hus, ham⟩ | ⟨z, hz, _⟩
      · rw [blockOf_taskId hb hw hx', hgx] at hg2; cases hg2
        rw [hu] at hus; cases hus
        cases ham
      · rw [hnil] at hz; cases hz
    · rintro ⟨hbm, ht, hnil'⟩
      obtain ⟨y, hy⟩ := (n3 b).1 hbm
      have : y = x := by rw [← htask y b hy, ht]
      subst this
      have hy' := hy
      obtain ⟨gy, bs', hgy, hbs', hmem⟩ := hy'
      rw [hgx] at hgy; cases hgy
      rw [hbs] at hbs'; cases hbs'
      refine ⟨hmem, ?_⟩
      obtain ⟨us, ds, u1, _⟩ := Props.C08_closed gx (hw y gx hgx).1 (hw y gx hgx).2.1 hbs hmem
      rw [u1]
      congr 1
      rw [List.eq_nil_iff_forall_not_mem]
      intro a ha
      have : a ∈ g.up b := ((hup y b hy).2 a).2
        (Or.inl ⟨gx, by rw [blockOf_taskId hb hw hy]; exact hgx, us, u1, ha⟩)
      rw [hnil'] at this
      cases this

/-- What it means that a block of a pipeline is starved: its task requires others, but nothing is upstream of it. -/
theorem starved_iff {p : Pipeline d} (hb : p.Built) (hw : p.Wf) (hl : p.Linked) {b : Block d} :
    Starved p.view b ↔ ∃ y, p.BlockOf y b ∧ p.tg.ups y ≠ [] ∧ (∀ a, ¬ p.TaskUp a b) ∧
      ∀ x ∈ p.tg.ups y, ∀ a, p.BlockOf x a → ¬ Overlap a.writeRoi b.readRoi := by
  obtain ⟨ns, n1, n2, n3⟩ := blocks_spec hb hw
  have i0 : p.view.nodes = ns := okOr_ok n1
  rw [← i0] at n3
  have i2 : p.view.rootTasks = p.tg.rootTasks := rfl
  unfold Starved
  rw [n3, i2]
  have main : ∀ y, p.BlockOf y b → ((p.view.up b = [] ∧ p.view.task b ∉ p.tg.rootTasks) ↔
      (p.tg.ups y ≠ [] ∧ (∀ a, ¬ p.TaskUp a b) ∧ ∀ x ∈ p.tg.ups y, ∀ a, p.BlockOf x a → ¬ Overlap a.writeRoi b.readRoi)) := by
    intro y hy
    obtain ⟨us, h1, _, h3⟩ := upstream_linked hb hw hl hy
    have hu : p.view.up b = us := okOr_ok h1
    have ht : p.view.task b = y := blockOf_taskId hb hw hy
    have hyi : y ∈ p.tg.ids := by
      obtain ⟨gy, _, hgy, _⟩ := hy
      exact hb.only y gy hgy
    rw [hu, ht, mem_rootTasks]
    constructor
    · rintro ⟨hn, hr⟩
      subst hn
      refine ⟨fun h => hr ⟨hyi, h⟩, fun a ha => ?_, fun x hx a ha ho => ?_⟩
      · cases (h3 a).2 (Or.inl ha)
      · cases (h3 a).2 (Or.inr ⟨x, hx, ha, ho⟩)
    · rintro ⟨hr, hn1, hn2⟩
      refine ⟨?_, fun h => hr h.2⟩
      rw [List.eq_nil_iff_forall_not_mem]
      intro a ha
      rcases (h3 a).1 ha with h | ⟨x, hx, h, ho⟩
      · exact hn1 a h
      · exact hn2 x hx a h ho
  constructor
  · rintro ⟨⟨y, hy⟩, h⟩
    exact ⟨y, hy, (main y hy).1 h⟩
  · rintro ⟨y, hy, h⟩
    exact ⟨⟨y, hy⟩, (main y hy).2 h⟩

/-- The graph handed to the scheduler is consistent. -/
theorem dgraph_OK {p : Pipeline d} (hb : p.Built) (hw : p.Wf) (hr : p.RootLevels) (hl : p.Linked)
    (hf : p.Fed) : p.view.OK := by
  obtain ⟨a1, a2, a3, a4, a5, a6, a7, a8, a9, a10, a11, a12, a13, a14, a15, a16⟩ := view_loose hb hw hr hl
  refine ⟨a1, a2, a3, a4, a5, a6, a7, a8, a9, a10, a11, a12, a13, a14, a15, a16, ?_⟩
  intro b hbm hnr hnil
  obtain ⟨y, hy, hne, _, h⟩ := (starved_iff hb hw hl).1 ⟨hbm, hnil, hnr⟩
  obtain ⟨x, hx, a, ha, hov⟩ := hf y b hy hne
  exact h x hx a ha hov

end Verif.Pipeline
