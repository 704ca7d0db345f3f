import Verif.Proofs.Levels
import Mathlib.Algebra.BigOperators.Group.List.Basic
import Mathlib.Data.Nat.Cast.Basic

/-! # Closed-form block counts -/

namespace Verif.BGraph

open Verif.Axis Verif.Spec

variable {d : Nat}

theorem cast_prod (l : List Nat) : ((l.prod : Nat) : Int) = (l.map (fun n : Nat => (n : Int))).prod := by
  induction l with
  | nil => rfl
  | cons a l ih => simp [ih]

/-- Room for at least one block per level, along each axis. -/
theorem count_nonneg (g : BGraph d) (h : g.Wf) {lo : Coord d} (hlo : lo ∈ g.levelOffsets)
    (i : Fin d) : 0 ≤ g.u i - lo.get i + g.s i - 1 := by
  have hs := g.s_pos_of_level h hlo i
  have hl := (g.mem_levelOffsets h lo).1 hlo i
  have hw := h.wpos i
  have ht := h.tnn i
  cases hc : g.conflict with
  | true =>
    have : 0 < g.u i := by
      by_contra hcon
      have := g.stride_zero h hc i (by omega)
      omega
    omega
  | false =>
    have h1 := g.s_noconf hc i
    have h2 : lo.get i = 0 := dvd_close (w := g.w i) hl.2.2 (dvd_zero _) (by omega) (by omega)
    by_cases hf : g.fit = .valid
    · have := g.u_valid hf i
      omega
    · have := g.u_other hf i
      omega

/-- The closed form equals the number of enumerated blocks of a level. -/
theorem numLevelBlocks_spec (g : BGraph d) (h : g.Wf) {k : Nat} (hk : k < g.numLevels) :
    ∃ os : List (Coord d), g.levelBlocks k = .ok (os.map g.blk) ∧ os.Nodup ∧
      (∀ o, o ∈ os ↔ g.Grid o ∧ g.lvl o = k) ∧ g.numLevelBlocks k = .ok (os.length : Int) := by
  have hk' : g.levelOffsets[k]? = some g.levelOffsets[k] := List.getElem?_eq_getElem hk
  obtain ⟨os, h1, h2, h3, h4⟩ := g.levelBlocks_spec h hk'
  refine ⟨os, h1, h2, fun o => (h3 o).trans (g.level_mem_iff h hk'), ?_⟩
  have hlo : g.levelOffsets[k] ∈ g.levelOffsets := List.getElem_mem _
  unfold numLevelBlocks
  rw [hk']
  simp only
  congr 1
  rw [h4, cast_prod, List.map_map]
  congr 1
  change _ = (Vec.map ((fun n : Nat => (n : Int)) ∘ List.length) _).toList
  congr 1
  apply Vec.ext_get; intro i
  have hs := g.s_pos_of_level h hlo i
  have hn := g.count_nonneg h hlo i
  simp only [Vec.get_zipWith, Vec.get_map, Function.comp, length_pyRange, Coord.get_sub,
    Coord.get_add, Vec.get_const]
  rw [Int.toNat_of_nonneg]
  · exact count_eq hs
  · refine Int.ediv_nonneg ?_ (le_of_lt hs)
    exact hn

theorem foldlM_sum (f : Nat → Except PyErr Int) (c : Nat → Int) :
    ∀ (l : List Nat) (a : Int), (∀ k ∈ l, f k = .ok (c k)) →
      l.foldlM (fun acc level => do return acc + (← f level)) a = .ok (a + (l.map c).sum)
  | [], a, _ => by simp [pure, Except.pure]
  | k :: l, a, h => by
    rw [List.foldlM_cons, h k List.mem_cons_self]
    change List.foldlM _ (a + c k) l = _
    rw [foldlM_sum f c l _ (fun x hx => h x (List.mem_cons_of_mem _ hx))]
    simp [add_assoc]

/-- `num_blocks` is the number of enumerated blocks. -/
theorem numBlocks_eq (g : BGraph d) (h : g.Wf) {bs : List (Block d)} (hb : g.blocks = .ok bs) :
    g.numBlocks = .ok (bs.length : Int) := by
  have hlev : ∀ k, ∃ os : List (Coord d), k < g.numLevels →
      g.levelBlocks k = .ok (os.map g.blk) ∧ g.numLevelBlocks k = .ok (os.length : Int) := by
    intro k
    by_cases hk : k < g.numLevels
    · obtain ⟨os, h1, _, _, h4⟩ := g.numLevelBlocks_spec h hk
      exact ⟨os, fun _ => ⟨h1, h4⟩⟩
    · exact ⟨[], fun h => absurd h hk⟩
  choose f hf using hlev
  have hbs : g.blocks = .ok ((List.range g.numLevels).map (fun k => (f k).map g.blk)).flatten := by
    unfold blocks
    rw [mapM_ok g.levelBlocks (fun k => (f k).map g.blk) _
      (fun k hk => (hf k (List.mem_range.1 hk)).1)]
    rfl
  rw [hbs] at hb
  cases hb
  unfold numBlocks
  rw [foldlM_sum g.numLevelBlocks (fun k => ((f k).length : Int)) _ _
    (fun k hk => (hf k (List.mem_range.1 hk)).2)]
  congr 1
  rw [List.length_flatten, zero_add, List.map_map]
  generalize List.range g.numLevels = l
  induction l with
  | nil => rfl
  | cons a l ih => simp [ih]

end Verif.BGraph
