import Verif.Spec.Depth
import Verif.Proofs.PipelineOK
import Verif.Proofs.PipelineWf
import Mathlib.Algebra.Order.BigOperators.Group.List

/-! # Number of levels; chains of dependencies -/

namespace Verif

open Verif.Axis Verif.Spec

variable {d : Nat}

theorem Vec.toList_eq_ofFn {α : Type} (v : Vec α d) : v.toList = List.ofFn v.get := by
  apply List.ext_getElem
  · simp [v.len]
  · intro i h1 h2
    simp [Vec.get]

namespace BGraph

theorem numLevels_eq (g : BGraph d) :
    g.numLevels = ∏ i, ((g.s i + g.w i - 1) / g.w i).toNat := by
  unfold numLevels levelOffsets
  rw [List.length_reverse, length_vecProduct, Vec.toList_eq_ofFn, List.map_ofFn, List.prod_ofFn]
  refine Finset.prod_congr rfl fun i _ => ?_
  rw [Function.comp_apply, Vec.get_zipWith, length_pyRange, Int.sub_zero]
  rfl

/-- Along one axis. -/
theorem axis_levels {w s : Int} (hw : 0 < w) (hd : w ∣ s) : (s + w - 1) / w = s / w := by
  obtain ⟨c, rfl⟩ := hd
  rw [Int.mul_ediv_cancel_left _ hw.ne']
  have e : w * c + w - 1 = (w - 1) + w * c := by ring
  rw [e, Int.add_mul_ediv_left _ _ hw.ne', Int.ediv_eq_zero_of_lt (by omega) (by omega)]
  omega

theorem stride_le (g : BGraph d) (h : g.Wf) {k : Fin d → Nat} (hk : Reaches g k) (i : Fin d) :
    g.s i ≤ (k i + 1) * g.w i := by
  have hw := h.wpos i
  have hki := hk i
  cases hc : g.conflict with
  | false =>
    rw [g.s_noconf hc i]
    have : 0 ≤ (k i : Int) * g.w i := by positivity
    linarith
  | true =>
    rw [g.s_conf hc i]
    refine (min_le_left _ _).trans ?_
    have h1 : g.mctx i ≤ k i * g.w i := max_le hki.1 hki.2
    have h2 : (g.mctx i + g.w i - 1).fdiv (g.w i) ≤ k i := by
      rw [Int.fdiv_eq_ediv_of_nonneg _ hw.le]
      have : (g.mctx i + g.w i - 1) / g.w i < k i + 1 := by
        apply Int.ediv_lt_of_lt_mul hw
        linarith
      omega
    exact mul_le_mul_of_nonneg_right (by omega) hw.le

theorem numLevels_le (g : BGraph d) (h : g.Wf) {k : Fin d → Nat} (hk : Reaches g k) :
    g.numLevels ≤ cube k := by
  rw [numLevels_eq]
  refine Finset.prod_le_prod' fun i _ => ?_
  have hw := h.wpos i
  rw [axis_levels hw (g.strideOK h i).dvd]
  have h1 := g.stride_le h hk i
  have h2 : g.s i / g.w i ≤ (k i + 1 : Int) := by
    have := Int.ediv_le_ediv hw h1
    rwa [Int.mul_ediv_cancel _ hw.ne'] at this
  omega

theorem numLevels_big (g : BGraph d) (h : g.Wf) (hc : g.conflict = true) {k : Fin d → Nat} (hk : ReachesExactly g k)
    (ht : ∀ i, (k i + 1) * g.w i ≤ g.t i) : g.numLevels = cube k := by
  rw [numLevels_eq]
  refine Finset.prod_congr rfl fun i _ => ?_
  have hw := h.wpos i
  have hctx := h.ctx hc i
  have hs : g.s i = (k i + 1) * g.w i := by
    rw [g.s_conf hc i]
    have h1 : (g.mctx i + g.w i - 1).fdiv (g.w i) = k i := by
      rw [Int.fdiv_eq_ediv_of_nonneg _ hw.le]
      have hm : g.mctx i ≤ k i * g.w i := max_le (hk.1 i).1 (hk.1 i).2
      have hm' : k i = 0 ∧ 0 ≤ g.mctx i ∨ ((k i : Int) - 1) * g.w i < g.mctx i := by
        unfold mctx
        rcases hk.2 i with h0 | h0 | h0
        · left; exact ⟨h0, le_trans hctx.1 (le_max_left _ _)⟩
        · right; exact lt_of_lt_of_le h0 (le_max_left _ _)
        · right; exact lt_of_lt_of_le h0 (le_max_right _ _)
      have e1 : (g.mctx i + g.w i - 1) / g.w i < k i + 1 := by
        apply Int.ediv_lt_of_lt_mul hw
        linarith
      have e2 : (k i : Int) ≤ (g.mctx i + g.w i - 1) / g.w i := by
        apply Int.le_ediv_of_mul_le hw
        rcases hm' with ⟨h0, h1⟩ | h1
        · rw [h0]; push_cast; linarith
        · have : ((k i : Int) - 1) * g.w i = k i * g.w i - g.w i := by ring
          omega
      omega
    rw [h1]
    refine min_eq_left ?_
    unfold rounded
    split
    · obtain ⟨d1, d2, d3, d4⟩ := round_down hw (h.tnn i)
      obtain ⟨c, hc'⟩ := d1
      rw [hc'] at d3 d4 ⊢
      have : (k i : Int) + 1 ≤ c := by
        by_contra hcon
        have h5 : (c + 1) * g.w i ≤ (k i + 1) * g.w i := mul_le_mul_of_nonneg_right (by omega) hw.le
        have h6 : (c + 1) * g.w i = g.w i * c + g.w i := by ring
        have := ht i
        omega
      calc _ ≤ c * g.w i := mul_le_mul_of_nonneg_right this hw.le
        _ = _ := by ring
    · obtain ⟨d1, d2, d3, d4⟩ := round_up hw (h.tnn i)
      have := ht i
      omega
  rw [axis_levels hw (g.strideOK h i).dvd, hs, Int.mul_ediv_cancel _ hw.ne']
  omega

/-- In a chain of dependencies the offsets change by less than a stride per step. -/
theorem before_close (g : BGraph d) (h : g.Wf) (hr : g.ReadOK) {o : Coord d} (ho : g.Grid o) {a : Block d}
    (hab : Before g a (g.blk o)) : ∃ p, g.Grid p ∧ a = g.blk p ∧ g.lvl p < g.lvl o ∧
      ∀ i, p.get i - o.get i ≤ (g.lvl o - g.lvl p : Int) * g.s i ∧
        o.get i - p.get i ≤ (g.lvl o - g.lvl p : Int) * g.s i := by
  induction hab using Relation.TransGen.head_induction_on with
  | single hu =>
    obtain ⟨us, u1, _, u3⟩ := g.upstream_spec h hr ho
    obtain ⟨us', h1, h2⟩ := hu
    rw [u1] at h1; cases h1
    obtain ⟨p, hp, hd, rfl⟩ := (u3 _).1 h2
    refine ⟨p, hp, rfl, by have := hd.2.1; omega, fun i => ?_⟩
    have e : (g.lvl o - g.lvl p : Int) = 1 := by have := hd.2.1; omega
    rw [e, one_mul]
    have := hd.2.2 i
    omega
  | head hu _ ih =>
    obtain ⟨q, hq, rfl, hlt, hi⟩ := ih
    obtain ⟨us, u1, _, u3⟩ := g.upstream_spec h hr hq
    obtain ⟨us', h1, h2⟩ := hu
    rw [u1] at h1; cases h1
    obtain ⟨p, hp, hd, rfl⟩ := (u3 _).1 h2
    refine ⟨p, hp, rfl, by have := hd.2.1; omega, fun i => ?_⟩
    have e : (g.lvl o - g.lvl p : Int) = (g.lvl o - g.lvl q : Int) + 1 := by have := hd.2.1; omega
    rw [e, add_mul, one_mul]
    have h3 := hd.2.2 i
    have h4 := hi i
    constructor <;> linarith [h3.1, h3.2, h4.1, h4.2]

/-- One block of every level, each upstream of the next. -/
theorem level_chain (g : BGraph d) (h : g.Wf) (hc : g.conflict = true) {a : Coord d} (ha : g.Window a) :
    ∃ l : List (Coord d), l.length = g.numLevels ∧
      (∀ o ∈ l, g.Grid o ∧ ∀ i, a.get i ≤ o.get i ∧ o.get i < a.get i + g.s i) ∧ l.IsChain g.Dep := by
  refine ⟨g.levelOffsets.map (g.winBlock a), by simp [numLevels], ?_, ?_⟩
  · intro o ho
    obtain ⟨lo, hlo, rfl⟩ := List.mem_map.1 ho
    refine ⟨g.winBlock_grid h ha hlo, fun i => ?_⟩
    have h1 := rep_spec (a := a.get i) (r := lo.get i) (g.s_pos_of_level h hlo i)
    unfold winBlock
    rw [Vec.get_ofFn]
    exact ⟨h1.1, h1.2.1⟩
  · rw [List.isChain_iff_getElem]
    intro i hi
    rw [List.length_map] at hi
    rw [List.getElem_map, List.getElem_map]
    exact g.winBlock_dep h hc ha (List.getElem?_eq_getElem _) (List.getElem?_eq_getElem _)

end BGraph

namespace Pipeline

/-- The level of a block in its task. -/
def lev (p : Pipeline d) (b : Block d) : Nat :=
  match p.graphs b.taskId with | some g => okOr (g.levelOf b) 0 | none => 0

theorem lev_lt {p : Pipeline d} (hb : p.Built) (hw : p.Wf) {k : Nat → Fin d → Nat}
    (hk : ∀ x g, p.graphs x = some g → Reaches g (k x)) {y : Nat} {b : Block d} (h : p.BlockOf y b) :
    p.lev b < cube (k y) := by
  have hid := blockOf_taskId hb hw h
  obtain ⟨g, bs, hg, hbs, hmem⟩ := h
  obtain ⟨w1, w2, _⟩ := hw y g hg
  obtain ⟨o, ho, rfl⟩ := (g.mem_blocks w1 hbs _).1 hmem
  unfold lev
  rw [hid, hg]
  simp only [g.levelOf_blk w1 w2 ho, okOr]
  exact lt_of_lt_of_le (g.lvl_lt w1 ho) (g.numLevels_le w1 (hk y g hg))

/-- Number of the round of a block, if task `x` begins with round `E x`. -/
def batch (p : Pipeline d) (E : Nat → Nat) (b : Block d) : Nat := E b.taskId + p.lev b

theorem batch_lt {p : Pipeline d} (hb : p.Built) (hw : p.Wf) {k : Nat → Fin d → Nat} {E : Nat → Nat}
    (hk : ∀ x g, p.graphs x = some g → Reaches g (k x))
    (hE : ∀ y x, x ∈ p.tg.ups y → E x + cube (k x) ≤ E y) {y : Nat} {a b : Block d} (h : p.BlockOf y b)
    (hab : p.Up a b) : p.batch E a < p.batch E b := by
  have hid := blockOf_taskId hb hw h
  obtain ⟨g, us', l, h1, h2, h3, h4⟩ := mem_upstream hb hw h
  obtain ⟨z, hz, hza⟩ := up_blockOf hb hw h hab
  have ida := blockOf_taskId hb hw hza
  have hla := lev_lt hb hw hk hza
  unfold batch
  rw [hid, ida]
  rcases hz with rfl | hz
  · obtain ⟨us, hus, ha⟩ := hab
    rw [h3] at hus; cases hus
    rcases (h4 a).1 ha with ha | ⟨x, hx, gx, hgx, ha⟩
    · obtain ⟨g', bs, hg', hbs, hmem⟩ := h
      rw [h1] at hg'; cases hg'
      obtain ⟨w1, w2, _⟩ := hw z g h1
      obtain ⟨o, ho, rfl⟩ := (g.mem_blocks w1 hbs _).1 hmem
      obtain ⟨us2, u1, _, u3⟩ := g.upstream_spec w1 w2 ho
      rw [u1] at h2; cases h2
      obtain ⟨q, hq, hd, rfl⟩ := (u3 a).1 ha
      unfold lev
      rw [hid, ida, h1]
      simp only [g.levelOf_blk w1 w2 hq, g.levelOf_blk w1 w2 ho, okOr]
      have l3 := hd.2.1
      omega
    · have e1 : a.taskId = x := by
        rw [sub_taskId ha]
        obtain ⟨g', hg', hid'⟩ := hb.graph x (hb.only x gx hgx)
        rw [hgx] at hg'; cases hg'
        exact hid'
      rw [ida] at e1
      exact absurd (e1 ▸ hx) (hb.irrefl z)
  · have := hE y z hz
    omega

/-- Rounds with which the tasks can begin: after all rounds of all tasks of lower rank. -/
theorem exists_begin {p : Pipeline d} (hb : p.Built) (n : Nat → Nat) : ∃ E : Nat → Nat,
    (∀ y x, x ∈ p.tg.ups y → E x + n x ≤ E y) ∧ ∀ x ∈ p.tg.ids, E x + n x ≤ (p.tg.ids.map n).sum := by
  obtain ⟨r, hr⟩ := hb.acyc
  have hsum : ∀ (l : List Nat) (q q' : Nat → Bool) (x : Nat), x ∈ l → q x = false → q' x = true →
      (∀ z, q z = true → q' z = true) →
      ((l.filter q).map n).sum + n x ≤ ((l.filter q').map n).sum := by
    have hmono : ∀ (l : List Nat) (q q' : Nat → Bool), (∀ z, q z = true → q' z = true) →
        ((l.filter q).map n).sum ≤ ((l.filter q').map n).sum := by
      intro l q q' hq
      exact ((List.monotone_filter_right l hq).map n).sum_le_sum (fun _ _ => Nat.zero_le _)
    intro l q q' x hx h1 h2 h3
    induction l with
    | nil => exact absurd hx List.not_mem_nil
    | cons z l ih =>
      by_cases hz : z = x
      · subst hz
        rw [List.filter_cons_of_neg (by simp [h1]), List.filter_cons_of_pos h2, List.map_cons, List.sum_cons]
        have := hmono l q q' h3
        omega
      · have hx' : x ∈ l := (List.mem_cons.1 hx).resolve_left (fun h => hz h.symm)
        have := ih hx'
        by_cases hqz : q z = true
        · rw [List.filter_cons_of_pos hqz, List.filter_cons_of_pos (h3 z hqz), List.map_cons, List.map_cons,
            List.sum_cons, List.sum_cons]
          omega
        · rw [List.filter_cons_of_neg hqz]
          by_cases hqz' : q' z = true
          · rw [List.filter_cons_of_pos hqz', List.map_cons, List.sum_cons]
            omega
          · rw [List.filter_cons_of_neg hqz']
            exact this
  refine ⟨fun y => ((p.tg.ids.filter (fun z => decide (r z < r y))).map n).sum, ?_, ?_⟩
  · intro y x hx
    have h1 := hr y x hx
    refine hsum _ _ _ x ?_ (by simp) (by simpa using h1) ?_
    · exact (hb.inv.mem x y hx).1
    · intro z hz
      simp only [decide_eq_true_eq] at hz ⊢
      omega
  · intro x hx
    have := hsum p.tg.ids (fun z => decide (r z < r x)) (fun _ => true) x hx (by simp) rfl (fun _ _ => rfl)
    rwa [List.filter_true] at this

end Pipeline

end Verif
