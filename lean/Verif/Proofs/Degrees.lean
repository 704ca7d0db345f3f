import Verif.Spec.Queries
import Verif.Proofs.Pipeline

/-! # Degrees of the dependency graph: they depend on the shapes of blocks, not on the total ROI -/

namespace Verif

open Spec

variable {d : Nat}

theorem length_vecProduct_le {α : Type} (ls : Vec (List α) d) (f : Fin d → Nat) (h : ∀ i, (ls.get i).length ≤ f i) :
    (vecProduct ls).length ≤ ∏ i, f i := by
  rw [length_vecProduct]
  have e : ls.toList.map List.length = List.ofFn (fun i => (ls.get i).length) := by
    refine List.ext_getElem ?_ ?_
    · rw [List.length_map, List.length_ofFn, ls.len]
    · intro n h1 h2
      rw [List.getElem_map, List.getElem_ofFn]
      rfl
  rw [e, List.prod_ofFn]
  exact Finset.prod_le_prod' fun i _ => h i

theorem getConflictOffsets_len (a b s : Coord d) : (BGraph.getConflictOffsets a b s).length ≤ 2 ^ d := by
  unfold BGraph.getConflictOffsets
  refine (length_vecProduct_le _ (fun _ => 2) fun i => ?_).trans (Nat.le_of_eq ?_)
  · rw [Vec.get_zipWith]
    unfold BGraph.getOffsets
    split
    · simp
    · split <;> simp
  · simp

theorem levelConflictsAux_len (c : Bool) (s : Coord d) : ∀ (l : List (Coord d)) (prev : Option (Coord d)),
    ∀ cs ∈ BGraph.levelConflictsAux c s prev l, cs.length ≤ 2 ^ d
  | [], _, cs, h => by cases h
  | lo :: rest, prev, cs, h => by
    unfold BGraph.levelConflictsAux at h
    rcases List.mem_cons.1 h with h | h
    · subst h
      cases prev with
      | none => exact Nat.zero_le _
      | some p =>
        dsimp only
        split
        · exact getConflictOffsets_len _ _ _
        · exact Nat.zero_le _
    · exact levelConflictsAux_len c s rest (some lo) cs h

theorem fitted_len (g : BGraph d) (cs : List (Coord d)) (f : Coord d → Block d) :
    ((((cs.map f).filter g.included).map g.fitBlock).dedup).length ≤ cs.length := by
  refine (List.dedup_sublist _).length_le.trans ?_
  rw [List.length_map]
  refine (List.filter_sublist).length_le.trans ?_
  rw [List.length_map]

theorem upstream_len (g : BGraph d) {b : Block d} {us : List (Block d)} (h : g.upstream b = .ok us) :
    us.length ≤ 2 ^ d := by
  unfold BGraph.upstream at h
  rcases hl : g.levelOf b with e | l
  · rw [hl] at h; cases h
  · rw [hl] at h
    change (match g.levelConflicts[l]? with
      | none => _
      | some cs => _) = _ at h
    split at h
    · cases h
    · rename_i cs hcs
      cases h
      exact (fitted_len g cs _).trans (levelConflictsAux_len _ _ _ _ cs (List.mem_of_getElem? hcs))

theorem downstream_len (g : BGraph d) {b : Block d} {ds : List (Block d)} (h : g.downstream b = .ok ds) :
    ds.length ≤ 2 ^ d := by
  unfold BGraph.downstream at h
  rcases hl : g.levelOf b with e | l
  · rw [hl] at h; cases h
  · rw [hl] at h
    change (if g.numLevels ≤ l + 1 then _ else match g.levelConflicts[l + 1]? with
      | none => _
      | some cs => _) = _ at h
    split at h
    · cases h; exact Nat.zero_le _
    · split at h
      · cases h
      · rename_i cs hcs
        cases h
        exact (fitted_len g cs _).trans (levelConflictsAux_len _ _ _ _ cs (List.mem_of_getElem? hcs))

theorem cells_axis {w bg en s : Int} (hw : 0 < w) (hs : 0 ≤ s) (he : en ≤ bg + s) :
    (pyRange (bg.fdiv w * w) (-((-en).fdiv w) * w) w).length ≤ s.toNat / w.toNat + 2 := by
  rw [length_pyRange]
  have e1 : -((-en).fdiv w) * w - bg.fdiv w * w + w - 1 = (w - 1) + (-((-en).fdiv w) - bg.fdiv w) * w := by ring
  rw [e1, Int.add_mul_ediv_right _ _ (by omega), Int.ediv_eq_zero_of_lt (by omega) (by omega), zero_add,
    Int.fdiv_eq_ediv_of_nonneg _ (by omega), Int.fdiv_eq_ediv_of_nonneg _ (by omega)]
  have e2 : ((s.toNat / w.toNat : Nat) : Int) = s / w := by
    rw [Int.natCast_div, Int.toNat_of_nonneg hs, Int.toNat_of_nonneg (by omega)]
  have key : -((-en) / w) - bg / w ≤ s / w + 2 := by
    have h1 := Int.mul_ediv_add_emod bg w
    have h2 := Int.mul_ediv_add_emod s w
    have h3 := Int.mul_ediv_add_emod (-en) w
    have h4 := Int.emod_nonneg bg (by omega : w ≠ 0)
    have h5 := Int.emod_lt_of_pos bg hw
    have h6 := Int.emod_lt_of_pos s hw
    have h7 := Int.emod_lt_of_pos (-en) hw
    have h8 := Int.emod_nonneg (-en) (by omega : w ≠ 0)
    by_contra hc
    have h9 : s / w + 3 ≤ -((-en) / w) - bg / w := by omega
    have h10 := mul_le_mul_of_nonneg_left h9 (by omega : 0 ≤ w)
    have e3 : w * (s / w + 3) = w * (s / w) + 3 * w := by ring
    have e4 : w * (-((-en) / w) - bg / w) = -(w * ((-en) / w)) - w * (bg / w) := by ring
    rw [e3, e4] at h10
    omega
  apply Int.toNat_le.2
  rw [Nat.cast_add, e2]
  exact key

theorem intersect_extent (r o : Roi d) (i : Fin d) :
    (r.intersect o).hi.get i ≤ (r.intersect o).lo.get i + ((r.shape.get i).toNat : Int) := by
  unfold Roi.intersect
  split
  · simp only [Roi.get_hi, Roi.get_lo, Coord.get_max, Coord.get_min, Coord.get_sub]
    omega
  · simp only [Roi.get_hi, Roi.get_lo, Vec.get_const]
    omega

/-- What the query of another task's blocks returns, for a box of shape `s`. -/
theorem subgraph_len (g : BGraph d) (h : ∀ i, 0 < g.blockWrite.shape.get i) (sub : Roi d) (rr : Bool) :
    (g.subgraphBlocks sub rr).length ≤
      cellsMet (if rr then sub.shape + g.blockRead.shape - g.blockWrite.shape else sub.shape) g.blockWrite.shape := by
  unfold BGraph.subgraphBlocks cellsMet
  dsimp only
  refine (List.filter_sublist).length_le.trans ?_
  rw [List.length_map, List.length_map]
  refine length_vecProduct_le _ _ fun i => ?_
  simp only [Vec.get_zipWith, Coord.get_mul, Coord.get_floorDiv, Coord.get_neg, Coord.get_sub]
  have hs : (if rr then sub.grow (BGraph.ctxLo g.blockRead g.blockWrite) (BGraph.ctxHi g.blockRead g.blockWrite)
      else sub).shape = (if rr then sub.shape + g.blockRead.shape - g.blockWrite.shape else sub.shape) := by
    cases rr
    · rfl
    · simp only [if_true, Roi.grow, BGraph.ctxLo, BGraph.ctxHi]
      apply Vec.ext_get
      intro j
      simp only [Coord.get_add, Coord.get_sub, Roi.get_hi, Roi.get_lo]
      ring
  rw [← hs]
  generalize (if rr then sub.grow (BGraph.ctxLo g.blockRead g.blockWrite) (BGraph.ctxHi g.blockRead g.blockWrite)
      else sub) = s0
  have hx := intersect_extent s0 g.totalWrite i
  have := cells_axis (s := ((s0.shape.get i).toNat : Int)) (w := g.blockWrite.shape.get i)
    (bg := (s0.intersect g.totalWrite).lo.get i - g.totalWrite.offset.get i)
    (en := (s0.intersect g.totalWrite).hi.get i - g.totalWrite.offset.get i) (h i) (by omega) (by omega)
  rw [Int.toNat_natCast] at this
  exact this

theorem cellsMet_mono {s s' w : Coord d} (h : ∀ i, (s.get i).toNat ≤ (s'.get i).toNat) : cellsMet s w ≤ cellsMet s' w :=
  Finset.prod_le_prod' fun i _ => Nat.add_le_add_right (Nat.div_le_div_right (h i)) 2

theorem fit_shapes (g : BGraph d) (b : Block d) (hr : b.readRoi.shape = g.blockRead.shape)
    (hw : b.writeRoi.shape = g.blockWrite.shape) (i : Fin d) :
    ((g.fitBlock b).readRoi.shape.get i).toNat ≤ (g.blockRead.shape.get i).toNat ∧
    ((g.fitBlock b).writeRoi.shape.get i).toNat ≤ (g.blockWrite.shape.get i).toNat := by
  have key : ∀ (t r : Roi d), ((t.intersect r).shape.get i).toNat ≤ (r.shape.get i).toNat := by
    intro t r
    unfold Roi.intersect
    split
    · simp only [Roi.get_hi, Roi.get_lo, Coord.get_max, Coord.get_min, Coord.get_sub]
      omega
    · simp
  unfold BGraph.fitBlock
  split
  · rw [hr, hw]; exact ⟨le_refl _, le_refl _⟩
  · rw [hr, hw]; exact ⟨le_refl _, le_refl _⟩
  · unfold BGraph.shrinkBlock
    rw [← hr, ← hw]
    exact ⟨key _ _, key _ _⟩

namespace Pipeline

theorem extend_len {p : Pipeline d} {roi : Roi d} {rr : Bool} {c : Nat} : ∀ (xs : List Nat) (acc l : List (Block d)),
    (∀ x ∈ xs, ∀ g, p.graphs x = some g → (g.subgraphBlocks roi rr).length ≤ c) →
    p.extend roi rr xs acc = .ok l → l.length ≤ acc.length + xs.length * c
  | [], acc, l, _, h => by cases h; simp
  | x :: xs, acc, l, hc, h => by
    unfold extend at h
    split at h
    · cases h
    · rename_i g hg
      have hg' : p.graphs x = some g := by
        unfold graphOf at hg
        split at hg
        · cases hg
        · rename_i g' e; cases hg; exact e
      have h1 := extend_len xs _ l (fun y hy => hc y (List.mem_cons_of_mem _ hy)) h
      have h2 := hc x List.mem_cons_self g hg'
      rw [List.length_append] at h1
      rw [List.length_cons, Nat.add_mul]
      omega

theorem sortBlocks_len (bs : List (Block d)) : (sortBlocks bs).length = bs.length := List.length_insertionSort _ _

theorem view_up_len {p : Pipeline d} {b : Block d} {c : Nat}
    (hc : ∀ x ∈ p.tg.ups b.taskId, ∀ g, p.graphs x = some g → (g.subgraphBlocks b.readRoi false).length ≤ c) :
    (p.view.up b).length ≤ 2 ^ d + (p.tg.ups b.taskId).length * c := by
  change (okOr (p.upstream b) []).length ≤ _
  rcases hu : p.upstream b with e | l
  · exact Nat.zero_le _
  · unfold upstream at hu
    rcases h1 : p.graphOf b.taskId with e | g
    · rw [h1] at hu; cases hu
    · rw [h1] at hu
      change (g.upstream b >>= _) = _ at hu
      rcases h2 : g.upstream b with e | us
      · rw [h2] at hu; cases hu
      · rw [h2] at hu
        change (p.extend b.readRoi false (p.tg.ups b.taskId) us >>= _) = _ at hu
        rcases h3 : p.extend b.readRoi false (p.tg.ups b.taskId) us with e | k
        · rw [h3] at hu; cases hu
        · rw [h3] at hu
          cases hu
          change (sortBlocks k).length ≤ _
          rw [sortBlocks_len]
          exact (extend_len _ _ _ hc h3).trans (Nat.add_le_add_right (upstream_len g h2) _)

theorem view_down_len {p : Pipeline d} {b : Block d} {c : Nat}
    (hc : ∀ x ∈ p.tg.downs b.taskId, ∀ g, p.graphs x = some g → (g.subgraphBlocks b.writeRoi true).length ≤ c) :
    (p.view.down b).length ≤ 2 ^ d + (p.tg.downs b.taskId).length * c := by
  change (okOr (p.downstream b) []).length ≤ _
  rcases hu : p.downstream b with e | l
  · exact Nat.zero_le _
  · unfold downstream at hu
    rcases h1 : p.graphOf b.taskId with e | g
    · rw [h1] at hu; cases hu
    · rw [h1] at hu
      change (g.downstream b >>= _) = _ at hu
      rcases h2 : g.downstream b with e | us
      · rw [h2] at hu; cases hu
      · rw [h2] at hu
        change (p.extend b.writeRoi true (p.tg.downs b.taskId) us >>= _) = _ at hu
        rcases h3 : p.extend b.writeRoi true (p.tg.downs b.taskId) us with e | k
        · rw [h3] at hu; cases hu
        · rw [h3] at hu
          cases hu
          change (sortBlocks k).length ≤ _
          rw [sortBlocks_len]
          exact (extend_len _ _ _ hc h3).trans (Nat.add_le_add_right (downstream_len g h2) _)

end Pipeline

end Verif
