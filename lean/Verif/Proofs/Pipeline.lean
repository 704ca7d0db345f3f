import Verif.Spec.PipelineSpec
import Verif.Spec.Graph
import Verif.Proofs.TaskGraph
import Verif.Props.Geometry

/-! # Facts about `DependencyGraph` -/

namespace Verif

open Verif.Spec Verif.Axis

variable {d : Nat}

namespace BGraph

/-- Blocks of a task that does not overhang write inside the total write ROI. -/
theorem write_within (g : BGraph d) (h : g.Wf) (hi : g.Inside) {o : Coord d} (ho : g.Grid o) :
    ∀ i, g.totalWrite.offset.get i ≤ (g.blk o).writeRoi.offset.get i ∧
      (g.blk o).writeRoi.offset.get i + (g.blk o).writeRoi.shape.get i ≤
        g.totalWrite.offset.get i + g.t i := by
  intro i
  have hw := g.blk_write h o (g.grid_admissible ho)
  have h1 := ho i
  have h2 := g.u_le_t h i
  rw [hw.1 i, hw.2 i]
  refine ⟨by omega, ?_⟩
  split
  · omega
  · rename_i hs
    rcases hi with hi | hi
    · have hv : g.fit = .valid := by
        cases hq : g.fit
        · rfl
        · exact absurd hq hi
        · exact absurd hq hs
      rw [g.u_valid hv] at h1
      omega
    · have := dvd_lt h1.2.2 (hi i) (by omega)
      omega

/-- The queries made by `upstream`: blocks of the upstream task that write what is read, inside
the total write ROI. -/
theorem up_query (g : BGraph d) (h : g.Wf) {o : Coord d} (ho : g.Grid o) (roi : Roi d)
    (hroi : ∀ i, 0 ≤ roi.shape.get i) (hm : g.Meets (g.blk o) roi) :
    g.blk o ∈ g.subgraphBlocks roi false := by
  obtain ⟨q, h1, h2, h3⟩ := hm
  exact ((g.subgraph_exact h roi hroi (Or.inl ⟨q, h2, h3⟩)).2 _).2 ⟨o, ho, rfl, q, h1, h2, h3⟩

/-- Under `Inside` and `OriginSafe` the query is exact. -/
theorem up_query_iff (g : BGraph d) (h : g.Wf) (hi : g.Inside) (hs : g.OriginSafe)
    (roi : Roi d) (hroi : ∀ i, 0 ≤ roi.shape.get i) (a : Block d) :
    a ∈ g.subgraphBlocks roi false ↔ ∃ o, g.Grid o ∧ a = g.blk o ∧ Overlap a.writeRoi roi := by
  rw [(g.subgraph_exact h roi hroi (Or.inr hs)).2]
  refine exists_congr fun o => and_congr_right fun ho => and_congr_right fun hb => ?_
  constructor
  · rintro ⟨q, h1, h2, _⟩
    exact ⟨q, h1, h2⟩
  · rintro ⟨q, h1, h2⟩
    refine ⟨q, h1, h2, fun i => ?_⟩
    have := g.write_within h hi ho i
    have h3 := h1 i
    rw [hb] at h3
    simp only [t] at this
    omega

/-- The queries made by `downstream`, exact for symmetric context. -/
theorem down_query_iff (g : BGraph d) (h : g.Wf) (hi : g.Inside) (hs : g.OriginSafe)
    (hsym : g.Symmetric) (hc : g.CtxNonneg) (roi : Roi d) (hroi : ∀ i, 0 < roi.shape.get i)
    (b : Block d) :
    b ∈ g.subgraphBlocks roi true ↔ ∃ o, g.Grid o ∧ b = g.blk o ∧ Overlap roi b.readRoi := by
  rw [g.subgraph_read]
  have hg : ∀ i, 0 ≤ (roi.grow (ctxLo g.blockRead g.blockWrite)
      (ctxHi g.blockRead g.blockWrite)).shape.get i := by
    intro i
    have h1 := hroi i
    have h2 := hc i
    simp only [Roi.grow, ctxLo, ctxHi, Coord.get_add, Coord.get_sub, Roi.get_lo, Roi.get_hi]
    simp only [cl, cu] at h2
    omega
  rw [g.up_query_iff h hi hs _ hg]
  refine exists_congr fun o => and_congr_right fun ho => and_congr_right fun hb => ?_
  rw [overlap_iff, overlap_iff]
  refine forall_congr' fun i => ?_
  have hw := g.blk_write h o (g.grid_admissible ho)
  have hr := g.blk_read h hc o (g.grid_admissible ho)
  have h1 := hroi i
  have h2 := hc i
  have h3 := hsym i
  have h4 := g.tw_off h i
  have h5 : 0 < (g.blk o).writeRoi.shape.get i := by
    have h6 := ho i
    have h7 := g.u_le_t h i
    have h8 := h.wpos i
    rw [hw.2 i]
    split <;> omega
  rw [hb, hr.1 i, hr.2 i, hw.1 i]
  simp only [Roi.grow, ctxLo, ctxHi, Coord.get_add, Coord.get_sub, Roi.get_lo, Roi.get_hi]
  simp only [cl, cu] at h2 h3 h4 ⊢
  omega

/-- Blocks have nonempty write ROIs, and with nonnegative context nonempty read ROIs. -/
theorem write_pos (g : BGraph d) (h : g.Wf) {o : Coord d} (ho : g.Grid o) (i : Fin d) :
    0 < (g.blk o).writeRoi.shape.get i := by
  have hw := g.blk_write h o (g.grid_admissible ho)
  have h6 := ho i
  have h7 := g.u_le_t h i
  have h8 := h.wpos i
  rw [hw.2 i]
  split <;> omega

theorem read_pos (g : BGraph d) (h : g.Wf) (hc : g.CtxNonneg) {o : Coord d} (ho : g.Grid o)
    (i : Fin d) : 0 < (g.blk o).readRoi.shape.get i := by
  have hr := g.blk_read h hc o (g.grid_admissible ho)
  have h2 := hc i
  have := g.write_pos h ho i
  rw [hr.2 i]
  omega

end BGraph

namespace Pipeline

/-! ## Construction -/

theorem addGraphs_spec (tg : TaskGraph (TaskInfo d)) :
    ∀ (xs : List Nat) (gs gs' : Nat → Option (BGraph d)), xs.Nodup →
      addGraphs tg xs gs = .ok gs' →
      (∀ x, x ∉ xs → gs' x = gs x) ∧
      ∀ x ∈ xs, ∃ t g, tg.taskMap x = some t ∧ taskGraph t = .ok g ∧ gs' x = some g := by
  intro xs
  induction xs with
  | nil =>
    intro gs gs' _ h
    cases h
    exact ⟨fun _ _ => rfl, by simp⟩
  | cons x xs ih =>
    intro gs gs' hnd h
    rw [List.nodup_cons] at hnd
    simp only [addGraphs] at h
    split at h
    · cases h
    · rename_i t ht
      split at h
      · cases h
      · rename_i g hg
        obtain ⟨h1, h2⟩ := ih _ _ hnd.2 h
        constructor
        · intro y hy
          rw [List.mem_cons, not_or] at hy
          rw [h1 y hy.2, if_neg hy.1]
        · intro y hy
          rcases List.mem_cons.1 hy with rfl | hy
          · refine ⟨t, g, ht, hg, ?_⟩
            rw [h1 y hnd.1, if_pos rfl]
          · exact h2 y hy

theorem init_taskId {id : Nat} {br bw : Roi d} {c : Bool} {f : Fit} {tr tw : Option (Roi d)}
    {g : BGraph d} (h : BGraph.init id br bw c f tr tw = .ok g) : g.taskId = id := by
  unfold BGraph.init at h
  dsimp only at h
  split at h
  · split at h
    · split at h
      · cases h
      · cases h; rfl
    · cases h
  · split at h
    · cases h
    · cases h; rfl
  · split at h
    · cases h
    · cases h; rfl
  · cases h

/-- What the constructor guarantees. -/
structure Built (p : Pipeline d) : Prop where
  inv : p.tg.Inv
  graph : ∀ x ∈ p.tg.ids, ∃ g, p.graphs x = some g ∧ g.taskId = x
  only : ∀ x g, p.graphs x = some g → x ∈ p.tg.ids
  acyc : ∃ r : Nat → Nat, ∀ y x, x ∈ p.tg.ups y → r x < r y

theorem Built.irrefl {p : Pipeline d} (h : p.Built) (x : Nat) : x ∉ p.tg.ups x := by
  obtain ⟨r, hr⟩ := h.acyc
  exact fun hx => lt_irrefl _ (hr x x hx)

theorem built_of_init {tasks : List (Task d)} {p : Pipeline d} (h : init tasks = .ok p)
    (hid : UniqueIds tasks) :
    p.Built ∧ p.tg = TaskGraph.build tasks := by
  unfold init at h
  dsimp only at h
  split at h
  · cases h
  · rename_i gs hgs
    cases h
    have hinv := TaskGraph.build_inv tasks
    obtain ⟨h1, h2⟩ := addGraphs_spec _ _ _ _ hinv.nodup hgs
    refine ⟨⟨hinv, ?_, ?_, TaskGraph.build_acyclic tasks hid⟩, rfl⟩
    · intro x hx
      obtain ⟨t, g, ht, hg, hx'⟩ := h2 x hx
      obtain ⟨t', ht', hid, _⟩ := TaskGraph.build_complete tasks hx
      rw [ht] at ht'; cases ht'
      refine ⟨g, hx', ?_⟩
      rw [← hid]
      exact init_taskId hg
    · intro x g hx
      by_contra hn
      change gs x = _ at hx
      rw [h1 x hn] at hx
      cases hx

theorem graphOf_ok {p : Pipeline d} {x : Nat} {g : BGraph d} (h : p.graphs x = some g) :
    p.graphOf x = .ok g := by
  simp [graphOf, h]

/-! ## `upstream`, `downstream` -/

theorem extend_spec {p : Pipeline d} (roi : Roi d) (rr : Bool) :
    ∀ (xs : List Nat) (acc : List (Block d)), (∀ x ∈ xs, ∃ g, p.graphs x = some g) →
      ∃ l, p.extend roi rr xs acc = .ok (acc ++ l) ∧
        (∀ a, a ∈ l ↔ ∃ x ∈ xs, ∃ g, p.graphs x = some g ∧ a ∈ g.subgraphBlocks roi rr) ∧
        (xs.Nodup → (∀ x ∈ xs, ∀ g, p.graphs x = some g → (g.subgraphBlocks roi rr).Nodup ∧
            ∀ a ∈ g.subgraphBlocks roi rr, a.taskId = x) → l.Nodup) := by
  intro xs
  induction xs with
  | nil => intro acc _; exact ⟨[], by simp [extend], by simp, by simp⟩
  | cons x xs ih =>
    intro acc hx
    obtain ⟨g, hg⟩ := hx x List.mem_cons_self
    obtain ⟨l, h1, h2, h3⟩ := ih (acc ++ g.subgraphBlocks roi rr)
      (fun y hy => hx y (List.mem_cons_of_mem _ hy))
    refine ⟨g.subgraphBlocks roi rr ++ l, ?_, ?_, ?_⟩
    · simp only [extend, graphOf_ok hg]
      rw [h1, List.append_assoc]
    · intro a
      rw [List.mem_append, h2]
      constructor
      · rintro (h | ⟨y, hy, gy, h⟩)
        · exact ⟨x, List.mem_cons_self, g, hg, h⟩
        · exact ⟨y, List.mem_cons_of_mem _ hy, gy, h⟩
      · rintro ⟨y, hy, gy, hgy, h⟩
        rcases List.mem_cons.1 hy with rfl | hy
        · rw [hg] at hgy; cases hgy
          exact Or.inl h
        · exact Or.inr ⟨y, hy, gy, hgy, h⟩
    · intro hnd hall
      rw [List.nodup_cons] at hnd
      refine List.Nodup.append (hall x List.mem_cons_self g hg).1
        (h3 hnd.2 (fun y hy => hall y (List.mem_cons_of_mem _ hy))) ?_
      intro a ha hal
      have e1 := (hall x List.mem_cons_self g hg).2 a ha
      obtain ⟨y, hy, gy, hgy, hay⟩ := (h2 a).1 hal
      have e2 := (hall y (List.mem_cons_of_mem _ hy) gy hgy).2 a hay
      rw [e1] at e2
      exact hnd.1 (e2 ▸ hy)

theorem mem_sortBlocks (bs : List (Block d)) (a : Block d) : a ∈ sortBlocks bs ↔ a ∈ bs :=
  List.mem_insertionSort _

theorem nodup_sortBlocks {bs : List (Block d)} (h : bs.Nodup) : (sortBlocks bs).Nodup :=
  (List.perm_insertionSort _ bs).nodup_iff.2 h

theorem blockOf_taskId {p : Pipeline d} (hb : p.Built) (hw : p.Wf) {x : Nat} {b : Block d}
    (h : p.BlockOf x b) : b.taskId = x := by
  obtain ⟨g, bs, hg, hbs, hmem⟩ := h
  obtain ⟨o, _, rfl⟩ := (g.mem_blocks (hw x g hg).1 hbs b).1 hmem
  rw [g.blk_taskId]
  obtain ⟨g', hg', hid⟩ := hb.graph x (hb.only x g hg)
  rw [hg] at hg'; cases hg'
  exact hid

theorem sub_taskId {g : BGraph d} {roi : Roi d} {rr : Bool} {a : Block d}
    (h : a ∈ g.subgraphBlocks roi rr) : a.taskId = g.taskId := by
  unfold BGraph.subgraphBlocks at h
  simp only [List.mem_filter, List.mem_map] at h
  obtain ⟨⟨o, _, rfl⟩, _⟩ := h
  unfold BGraph.fitBlock
  split <;> rfl

/-- `upstream` of a block of the pipeline does not raise; it lists the upstream blocks in the task
and the answers of the queries to the upstream tasks. -/
theorem upstream_spec {p : Pipeline d} (hb : p.Built) (hw : p.Wf) {y : Nat} {b : Block d}
    (h : p.BlockOf y b) : ∃ g us l, p.graphs y = some g ∧ g.upstream b = .ok us ∧
      p.upstream b = .ok (sortBlocks (us ++ l)) ∧
      (∀ a, a ∈ l ↔ ∃ x ∈ p.tg.ups y, ∃ gx, p.graphs x = some gx ∧
        a ∈ gx.subgraphBlocks b.readRoi false) ∧
      ((∀ x ∈ p.tg.ups y, ∀ gx, p.graphs x = some gx → (gx.subgraphBlocks b.readRoi false).Nodup ∧
        ∀ a ∈ gx.subgraphBlocks b.readRoi false, a.taskId = x) → l.Nodup) := by
  have hid := blockOf_taskId hb hw h
  obtain ⟨g, bs, hg, hbs, hmem⟩ := h
  obtain ⟨us, ds, u1, _⟩ := Props.C08_closed g (hw y g hg).1 (hw y g hg).2.1 hbs hmem
  obtain ⟨l, l1, l2, l3⟩ := extend_spec (p := p) b.readRoi false (p.tg.ups y) us
    (fun x hx => by
      obtain ⟨gx, hgx, _⟩ := hb.graph x (hb.inv.mem _ _ hx).1
      exact ⟨gx, hgx⟩)
  refine ⟨g, us, l, hg, u1, ?_, l2, l3 (hb.inv.ups_nodup y)⟩
  unfold upstream
  rw [hid, graphOf_ok hg]
  change (g.upstream b >>= _) = _
  rw [u1]
  change (p.extend _ _ _ _ >>= _) = _
  rw [l1]
  rfl

theorem downstream_spec {p : Pipeline d} (hb : p.Built) (hw : p.Wf) {x : Nat} {a : Block d}
    (h : p.BlockOf x a) : ∃ g ds l, p.graphs x = some g ∧ g.downstream a = .ok ds ∧
      p.downstream a = .ok (sortBlocks (ds ++ l)) ∧
      (∀ b, b ∈ l ↔ ∃ y ∈ p.tg.downs x, ∃ gy, p.graphs y = some gy ∧
        b ∈ gy.subgraphBlocks a.writeRoi true) ∧
      ((∀ y ∈ p.tg.downs x, ∀ gy, p.graphs y = some gy → (gy.subgraphBlocks a.writeRoi true).Nodup ∧
        ∀ b ∈ gy.subgraphBlocks a.writeRoi true, b.taskId = y) → l.Nodup) := by
  have hid := blockOf_taskId hb hw h
  obtain ⟨g, bs, hg, hbs, hmem⟩ := h
  obtain ⟨us, ds, _, u1, _⟩ := Props.C08_closed g (hw x g hg).1 (hw x g hg).2.1 hbs hmem
  obtain ⟨l, l1, l2, l3⟩ := extend_spec (p := p) a.writeRoi true (p.tg.downs x) ds
    (fun y hy => by
      obtain ⟨gy, hgy, _⟩ := hb.graph y (hb.inv.mem _ _ ((hb.inv.dual _ _).1 hy)).2
      exact ⟨gy, hgy⟩)
  refine ⟨g, ds, l, hg, u1, ?_, l2, l3 (hb.inv.downs_nodup x)⟩
  unfold downstream
  rw [hid, graphOf_ok hg]
  change (g.downstream a >>= _) = _
  rw [u1]
  change (p.extend _ _ _ _ >>= _) = _
  rw [l1]
  rfl

/-- Membership in `upstream`, no condition on the links. -/
theorem mem_upstream {p : Pipeline d} (hb : p.Built) (hw : p.Wf) {y : Nat} {b : Block d}
    (h : p.BlockOf y b) : ∃ g us l, p.graphs y = some g ∧ g.upstream b = .ok us ∧
      p.upstream b = .ok l ∧ ∀ a, a ∈ l ↔ a ∈ us ∨ ∃ x ∈ p.tg.ups y, ∃ gx, p.graphs x = some gx ∧
        a ∈ gx.subgraphBlocks b.readRoi false := by
  obtain ⟨g, us, l, h1, h2, h3, h4, _⟩ := upstream_spec hb hw h
  refine ⟨g, us, _, h1, h2, h3, fun a => ?_⟩
  rw [mem_sortBlocks, List.mem_append, h4]

theorem mem_downstream {p : Pipeline d} (hb : p.Built) (hw : p.Wf) {x : Nat} {a : Block d}
    (h : p.BlockOf x a) : ∃ g ds l, p.graphs x = some g ∧ g.downstream a = .ok ds ∧
      p.downstream a = .ok l ∧ ∀ b, b ∈ l ↔ b ∈ ds ∨ ∃ y ∈ p.tg.downs x, ∃ gy, p.graphs y = some gy ∧
        b ∈ gy.subgraphBlocks a.writeRoi true := by
  obtain ⟨g, us, l, h1, h2, h3, h4, _⟩ := downstream_spec hb hw h
  refine ⟨g, us, _, h1, h2, h3, fun a => ?_⟩
  rw [mem_sortBlocks, List.mem_append, h4]

end Pipeline

end Verif
