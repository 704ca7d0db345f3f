import Verif.Spec.Thin
import Verif.Proofs.Plain
import Verif.Proofs.Deps

/-! # Blocks of thin tasks have at most two direct upstream blocks -/

namespace Verif

open Spec Axis

variable {d : Nat}

namespace Thin

theorem le_abs {w e : Int} (h : w ∣ e) (he : e ≠ 0) : w ≤ e ∨ w ≤ -e := by
  rcases lt_or_gt_of_ne he with h1 | h1
  · exact Or.inr (Int.le_of_dvd (by omega) ((Int.dvd_neg).2 h))
  · exact Or.inl (Int.le_of_dvd h1 h)

/-- Among three congruent numbers close together two are equal. -/
theorem three {w x y z lo hi : Int} (hxy : w ∣ x - y) (hxz : w ∣ x - z) (hyz : w ∣ y - z)
    (hx : lo < x ∧ x < hi) (hy : lo < y ∧ y < hi) (hz : lo < z ∧ z < hi) (hl : hi - lo ≤ 2 * w + 1) :
    x = y ∨ x = z ∨ y = z := by
  by_contra hcon
  push Not at hcon
  obtain ⟨h1, h2, h3⟩ := hcon
  have a1 := le_abs hxy (by omega)
  have a2 := le_abs hxz (by omega)
  have a3 := le_abs hyz (by omega)
  omega

/-- A list without repetitions among any three members of which two are equal. -/
theorem length_le_two {α : Type*} {l : List α} (hn : l.Nodup)
    (h : ∀ a ∈ l, ∀ b ∈ l, ∀ c ∈ l, a = b ∨ a = c ∨ b = c) : l.length ≤ 2 := by
  match l, hn, h with
  | [], _, _ => simp
  | [_], _, _ => simp
  | [_, _], _, _ => simp
  | a :: b :: c :: l, hn, h =>
    exfalso
    simp only [List.nodup_cons, List.mem_cons, not_or] at hn
    rcases h a (by simp) b (by simp) c (by simp) with e | e | e
    · exact hn.1.1 e
    · exact hn.1.2.1 e
    · exact hn.2.1.1 e

end Thin

namespace BGraph

/-- Without context the level stride is at most the write size. -/
theorem s_le_w (g : BGraph d) (h : g.Wf) {i : Fin d} (hl : g.cl i = 0) (hu : g.cu i = 0) : g.s i ≤ g.w i := by
  by_cases hc : g.conflict = true
  · have hw := h.wpos i
    rw [g.s_conf hc, show g.mctx i = 0 by unfold mctx; rw [hl, hu]; rfl]
    have : (0 + g.w i - 1).fdiv (g.w i) = 0 := by
      rw [Int.fdiv_eq_ediv_of_nonneg _ (by omega)]
      exact Int.ediv_eq_zero_of_lt (by omega) (by omega)
    rw [this]
    omega
  · rw [g.s_noconf (by simpa using hc)]

/-- Two blocks of the same level differ by a multiple of the stride. -/
theorem same_level (g : BGraph d) (h : g.Wf) {p q : Coord d} (hp : g.Grid p) (hq : g.Grid q)
    (hl : g.lvl p = g.lvl q) (i : Fin d) : g.s i ∣ p.get i - q.get i := by
  obtain ⟨lo, e, _⟩ := g.getElem?_of_lt (g.lvl_lt h hp)
  have h1 := (g.lvl_eq_iff h hp e).1 rfl i
  have h2 := (g.lvl_eq_iff h hq e).1 hl.symm i
  have := dvd_sub h1 h2
  rwa [show p.get i - lo.get i - (q.get i - lo.get i) = p.get i - q.get i by ring] at this

/-- A dependency does not move in a dimension without context. -/
theorem dep_stays (g : BGraph d) (h : g.Wf) {p o : Coord d} (hp : g.Grid p) (ho : g.Grid o) (hd : g.Dep p o)
    {i : Fin d} (hl : g.cl i = 0) (hu : g.cu i = 0) : p.get i = o.get i := by
  have h1 := hd.2.2 i
  have h2 := g.s_le_w h hl hu
  exact dvd_close (hp i).2.2 (ho i).2.2 (by omega) (by omega)

/-- Without any context there are no dependencies inside a task. -/
theorem no_dep (g : BGraph d) (h : g.Wf) {p o : Coord d} (hp : g.Grid p) (ho : g.Grid o) (hd : g.Dep p o)
    (hc : ∀ i, g.cl i = 0 ∧ g.cu i = 0) : False := by
  have : p = o := Vec.ext_get fun i => g.dep_stays h hp ho hd (hc i).1 (hc i).2
  have := this ▸ hd.2.1
  omega

/-- With context in one dimension a block has at most two dependencies inside its task. -/
theorem dep_two (g : BGraph d) (h : g.Wf) {j : Fin d} (hc : ∀ i, i ≠ j → g.cl i = 0 ∧ g.cu i = 0)
    {o p q r : Coord d} (ho : g.Grid o) (hp : g.Grid p) (hq : g.Grid q) (hr : g.Grid r) (dp : g.Dep p o)
    (dq : g.Dep q o) (dr : g.Dep r o) : p = q ∨ p = r ∨ q = r := by
  have key : ∀ {x y : Coord d}, g.Grid x → g.Grid y → g.Dep x o → g.Dep y o → x.get j = y.get j → x = y := by
    intro x y hx hy dx dy he
    apply Vec.ext_get
    intro i
    by_cases hi : i = j
    · exact hi ▸ he
    · rw [g.dep_stays h hx ho dx (hc i hi).1 (hc i hi).2, g.dep_stays h hy ho dy (hc i hi).1 (hc i hi).2]
  have lv : ∀ {x y : Coord d}, g.Dep x o → g.Dep y o → g.lvl x = g.lvl y := by
    intro x y dx dy
    have := dx.2.1
    have := dy.2.1
    omega
  have bp := dp.2.2 j
  have bq := dq.2.2 j
  have br := dr.2.2 j
  rcases Thin.three (g.same_level h hp hq (lv dp dq) j) (g.same_level h hp hr (lv dp dr) j)
    (g.same_level h hq hr (lv dq dr) j) (lo := o.get j - g.s j) (hi := o.get j + g.s j)
    ⟨by omega, by omega⟩ ⟨by omega, by omega⟩ ⟨by omega, by omega⟩ (by omega) with e | e | e
  · exact Or.inl (key hp hq dp dq e)
  · exact Or.inr (Or.inl (key hp hr dp dr e))
  · exact Or.inr (Or.inr (key hq hr dq dr e))

end BGraph

namespace Pipeline

/-- Where an upstream block that overlaps what a block reads may lie. -/
theorem overlap_range {s t : Task d} {gx gy : BGraph d} (hs : taskGraph s = .ok gx) (ht : taskGraph t = .ok gy)
    (hx : gx.Wf) (hy : gy.Wf) (hcy : gy.CtxNonneg) {p o : Coord d} (hp : gx.Grid p) (ho : gy.Grid o)
    (hov : Overlap (gx.blk p).writeRoi (gy.blk o).readRoi) (i : Fin d) :
    s.info.writes.offset.get i + p.get i < t.info.totalRoi.offset.get i + o.get i + t.info.readRoi.shape.get i ∧
    t.info.totalRoi.offset.get i + o.get i <
      s.info.writes.offset.get i + p.get i + s.info.writeRoi.shape.get i := by
  obtain ⟨q, h1, h2⟩ := hov
  obtain ⟨e1, e2, _, _, e5, _⟩ := taskGraph_init ht
  obtain ⟨_, f2, _, _, _, _⟩ := taskGraph_init hs
  have w1 := (gx.blk_write hx p (gx.grid_admissible hp)).1 i
  have w2 := (gx.blk_write hx p (gx.grid_admissible hp)).2 i
  have r1 := (gy.blk_read hy hcy o (gy.grid_admissible ho)).1 i
  have r2 := (gy.blk_read hy hcy o (gy.grid_admissible ho)).2 i
  have v2 := (gy.blk_write hy o (gy.grid_admissible ho)).2 i
  have q1 := h1 i
  have q2 := h2 i
  rw [writes_eq hs] at w1
  rw [e5] at r1
  have hw1 : (gx.blk p).writeRoi.shape.get i ≤ s.info.writeRoi.shape.get i := by
    rw [w2]; unfold BGraph.w; rw [f2]; split <;> omega
  have hw2 : (gy.blk o).readRoi.shape.get i ≤ t.info.readRoi.shape.get i := by
    rw [r2, v2]; unfold BGraph.w BGraph.cl BGraph.cu; rw [e1, e2]; split <;> omega
  omega

/-- Refining grids: the upstream block is determined. -/
theorem refines_unique {s t : Task d} {gx gy : BGraph d} (hs : taskGraph s = .ok gx) (ht : taskGraph t = .ok gy)
    (hx : gx.Wf) (hy : gy.Wf) (hcy : gy.CtxNonneg) {p p' o : Coord d} (hp : gx.Grid p) (hp' : gx.Grid p')
    (ho : gy.Grid o) (hov : Overlap (gx.blk p).writeRoi (gy.blk o).readRoi)
    (hov' : Overlap (gx.blk p').writeRoi (gy.blk o).readRoi) {i : Fin d} (hr : s.info.Refines t.info i) :
    p.get i = p'.get i := by
  obtain ⟨⟨c1, c2⟩, d1, d2⟩ := hr
  obtain ⟨_, e2, _, _, _, _⟩ := taskGraph_init ht
  obtain ⟨_, f2, _, _, _, _⟩ := taskGraph_init hs
  have a1 := overlap_range hs ht hx hy hcy hp ho hov i
  have a2 := overlap_range hs ht hx hy hcy hp' ho hov' i
  have gw : gx.w i = s.info.writeRoi.shape.get i := by unfold BGraph.w; rw [f2]
  have gv : gy.w i = t.info.writeRoi.shape.get i := by unfold BGraph.w; rw [e2]
  have hto : t.info.writes.offset.get i = t.info.totalRoi.offset.get i := by
    simp only [TaskInfo.writes, Vec.get_ofFn, c1]; ring
  have dp := (hp i).2.2
  have dp' := (hp' i).2.2
  have dq := (ho i).2.2
  rw [gw] at dp dp'
  rw [gv] at dq
  -- the position of the reading block relative to the upstream grid
  have key : ∀ {x : Int}, s.info.writeRoi.shape.get i ∣ x →
      s.info.writes.offset.get i + x < t.info.totalRoi.offset.get i + o.get i + t.info.readRoi.shape.get i →
      s.info.writes.offset.get i + x ≤ t.info.totalRoi.offset.get i + o.get i := by
    intro x hx1 hx2
    by_contra hcon
    have h1 : t.info.writeRoi.shape.get i ∣
        t.info.writes.offset.get i - s.info.writes.offset.get i + o.get i := dvd_add d2 dq
    have := dvd_lt h1 (d1.trans hx1) (by omega)
    omega
  have k1 := key dp a1.1
  have k2 := key dp' a2.1
  exact dvd_close dp dp' (by omega) (by omega)

/-- A narrow link: among three upstream blocks two are equal. -/
theorem narrow_two {s t : Task d} {gx gy : BGraph d} (hs : taskGraph s = .ok gx) (ht : taskGraph t = .ok gy)
    (hx : gx.Wf) (hy : gy.Wf) (hcy : gy.CtxNonneg) {p q r o : Coord d} (hp : gx.Grid p) (hq : gx.Grid q)
    (hr : gx.Grid r) (ho : gy.Grid o) (vp : Overlap (gx.blk p).writeRoi (gy.blk o).readRoi)
    (vq : Overlap (gx.blk q).writeRoi (gy.blk o).readRoi) (vr : Overlap (gx.blk r).writeRoi (gy.blk o).readRoi)
    (hn : s.info.Narrow t.info) : p = q ∨ p = r ∨ q = r := by
  obtain ⟨j, hj, hi⟩ := hn
  have key : ∀ {x y : Coord d}, gx.Grid x → gx.Grid y → Overlap (gx.blk x).writeRoi (gy.blk o).readRoi →
      Overlap (gx.blk y).writeRoi (gy.blk o).readRoi → x.get j = y.get j → x = y := by
    intro x y hx1 hy1 vx vy he
    apply Vec.ext_get
    intro i
    by_cases hij : i = j
    · exact hij ▸ he
    · exact refines_unique hs ht hx hy hcy hx1 hy1 ho vx vy (hi i hij)
  obtain ⟨_, f2, _, _, _, _⟩ := taskGraph_init hs
  have gw : gx.w j = s.info.writeRoi.shape.get j := by unfold BGraph.w; rw [f2]
  have bp := overlap_range hs ht hx hy hcy hp ho vp j
  have bq := overlap_range hs ht hx hy hcy hq ho vq j
  have br := overlap_range hs ht hx hy hcy hr ho vr j
  rcases Thin.three (dvd_sub (hp j).2.2 (hq j).2.2) (dvd_sub (hp j).2.2 (hr j).2.2)
    (dvd_sub (hq j).2.2 (hr j).2.2)
    (lo := t.info.totalRoi.offset.get j + o.get j - s.info.writes.offset.get j - s.info.writeRoi.shape.get j)
    (hi := t.info.totalRoi.offset.get j + o.get j + t.info.readRoi.shape.get j - s.info.writes.offset.get j)
    ⟨by omega, by omega⟩ ⟨by omega, by omega⟩ ⟨by omega, by omega⟩ (by omega) with e | e | e
  · exact Or.inl (key hp hq vp vq e)
  · exact Or.inr (Or.inl (key hp hr vp vr e))
  · exact Or.inr (Or.inr (key hq hr vq vr e))

end Pipeline

end Verif
