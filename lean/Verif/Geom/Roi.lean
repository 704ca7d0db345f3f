import Verif.Geom.Vec

/-! # Regions of interest

`funlib.geometry.Roi` is not part of `/repo`; this is the behaviour daisy relies on.
Unbounded ROIs (`None` entries) are not modelled. -/

namespace Verif

/-- `funlib.geometry.Roi(offset, shape)`. -/
structure Roi (d : Nat) where
  offset : Coord d
  shape : Coord d
  deriving DecidableEq

namespace Roi

variable {d : Nat}

/-- `roi.begin` -/
def lo (r : Roi d) : Coord d := r.offset
/-- `roi.end` -/
def hi (r : Roi d) : Coord d := r.offset + r.shape
/-- `roi.empty`: the size (product of the shape) is zero. -/
def isEmpty (r : Roi d) : Bool := r.shape.any (· == 0)
/-- `roi.contains(point)`: `begin ≤ p < end` in every dimension. -/
def containsPoint (r : Roi d) (p : Coord d) : Bool :=
  (Vec.zipWith (fun (be : Int × Int) (x : Int) => decide (be.1 ≤ x) && decide (x < be.2))
    (Vec.zipWith Prod.mk r.lo r.hi) p).all id
/-- `roi.contains(other_roi)`: `begin` is contained, and `end - 1` unless `other` is empty. -/
def containsRoi (r o : Roi d) : Bool :=
  if o.isEmpty then r.containsPoint o.lo
  else r.containsPoint o.lo && r.containsPoint (o.hi - Vec.const d 1)
/-- `roi.intersects(other)`: false if one is empty or they are separated in some dimension. -/
def intersects (r o : Roi d) : Bool :=
  if r.isEmpty || o.isEmpty then false
  else
    let sep := Vec.zipWith (fun (x : Int × Int) (y : Int × Int) =>
        decide (y.2 ≤ x.1) || decide (x.2 ≤ y.1))
      (Vec.zipWith Prod.mk r.lo r.hi) (Vec.zipWith Prod.mk o.lo o.hi)
    !(sep.any id)
/-- `roi.intersect(other)`: the common part, or the empty ROI *at the origin*. -/
def intersect (r o : Roi d) : Roi d :=
  if r.intersects o then
    let b := Coord.max r.lo o.lo
    let e := Coord.min r.hi o.hi
    ⟨b, e - b⟩
  else ⟨Vec.const d 0, Vec.const d 0⟩
/-- `roi.grow(amount_neg, amount_pos)`. -/
def grow (r : Roi d) (neg pos : Coord d) : Roi d := ⟨r.offset - neg, r.shape + neg + pos⟩
/-- `roi + shift`. -/
def shift (r : Roi d) (o : Coord d) : Roi d := ⟨r.offset + o, r.shape⟩

@[simp] theorem get_lo (r : Roi d) (i : Fin d) : r.lo.get i = r.offset.get i := rfl
@[simp] theorem get_hi (r : Roi d) (i : Fin d) :
    r.hi.get i = r.offset.get i + r.shape.get i := Coord.get_add _ _ i

theorem isEmpty_iff (r : Roi d) : r.isEmpty = true ↔ ∃ i, r.shape.get i = 0 := by
  simp [isEmpty, Vec.any_iff]

theorem containsPoint_iff (r : Roi d) (p : Coord d) :
    r.containsPoint p = true ↔
      ∀ i, r.offset.get i ≤ p.get i ∧ p.get i < r.offset.get i + r.shape.get i := by
  simp [containsPoint, Vec.all_iff]

theorem intersects_iff (r o : Roi d) :
    r.intersects o = true ↔
      (∀ i, r.shape.get i ≠ 0 ∧ o.shape.get i ≠ 0) ∧
      ∀ i, r.offset.get i < o.offset.get i + o.shape.get i ∧
        o.offset.get i < r.offset.get i + r.shape.get i := by
  have h1 : (r.isEmpty || o.isEmpty) = true ↔
      (∃ i, r.shape.get i = 0) ∨ ∃ i, o.shape.get i = 0 := by
    rw [Bool.or_eq_true, isEmpty_iff, isEmpty_iff]
  unfold intersects
  split
  · rename_i h
    simp only [Bool.false_eq_true, false_iff]
    rintro ⟨h2, _⟩
    rcases h1.1 h with ⟨i, hi⟩ | ⟨i, hi⟩
    · exact (h2 i).1 hi
    · exact (h2 i).2 hi
  · rename_i h
    rw [h1] at h
    push Not at h
    simp only [Bool.not_eq_true', Bool.eq_false_iff, ne_eq, Vec.any_iff, Vec.get_zipWith, id,
      Bool.or_eq_true, decide_eq_true_eq, not_exists, not_or, not_le, get_lo, get_hi]
    constructor
    · intro h3
      exact ⟨fun i => ⟨h.1 i, h.2 i⟩, h3⟩
    · rintro ⟨_, h3⟩
      exact h3

end Roi

end Verif
