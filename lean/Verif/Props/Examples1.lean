import Verif.Proofs.BlockGraph

/-! # Concrete geometries used as non-trivial instances -/

namespace Verif.Ex

open Verif BGraph

/-- One-dimensional coordinate. -/
def c1 (x : Int) : Coord 1 := ⟨[x], rfl⟩
/-- One-dimensional ROI `[a, b)`. -/
def r1 (a b : Int) : Roi 1 := ⟨c1 a, c1 (b - a)⟩
/-- Two-dimensional coordinate. -/
def c2 (x y : Int) : Coord 2 := ⟨[x, y], rfl⟩
/-- Two-dimensional ROI `[a, b) × [a', b')`. -/
def r2 (a b a' b' : Int) : Roi 2 := ⟨c2 a a', c2 (b - a) (b' - a')⟩

/-- The total write ROI the constructor derives from the total read ROI. -/
def tw {d : Nat} (tr br bw : Roi d) : Roi d := tr.grow (-(bw.lo - br.lo)) (-(br.hi - bw.hi))

/-- A graph as built by the constructor from `total_read_roi`. -/
def mk {d : Nat} (id : Nat) (br bw : Roi d) (c : Bool) (f : Fit) (tr : Roi d) : BGraph d :=
  ⟨id, br, bw, c, f, tr, tw tr br bw⟩

/-- The task of the tests: read `[0,10)`, write `[3,7)`, total `[0,41)`. -/
def g1 (f : Fit) : BGraph 1 := mk 0 (r1 0 10) (r1 3 7) true f (r1 0 41)

/-- A two-dimensional task with asymmetric context and a negative offset. -/
def g2 (f : Fit) : BGraph 2 :=
  mk 1 (r2 0 5 0 4) (r2 2 4 1 3) true f (r2 (-3) 10 (-2) 9)

/-- Same, without conflicts. -/
def g3 (f : Fit) : BGraph 2 :=
  mk 1 (r2 0 5 0 4) (r2 2 4 1 3) false f (r2 (-3) 10 (-2) 9)

theorem mk_init {d : Nat} (id : Nat) (br bw : Roi d) (c : Bool) (f : Fit) (tr : Roi d)
    (h : (c && !br.containsRoi bw) = false) :
    init id br bw c f (some tr) none = .ok (mk id br bw c f tr) := by
  simp only [init, h, Bool.false_eq_true, if_false]
  rfl

theorem g1_wf (f : Fit) : (g1 f).Wf := by
  refine wf_of_init (mk_init _ _ _ _ _ _ (by decide)) (by decide) ?_
  change ∀ i, 0 ≤ (tw (r1 0 41) (r1 0 10) (r1 3 7)).shape.get i
  decide

theorem g2_wf (f : Fit) : (g2 f).Wf := by
  refine wf_of_init (mk_init _ _ _ _ _ _ (by decide)) (by decide) ?_
  change ∀ i, 0 ≤ (tw (r2 (-3) 10 (-2) 9) (r2 0 5 0 4) (r2 2 4 1 3)).shape.get i
  decide

theorem g3_wf (f : Fit) : (g3 f).Wf := by
  refine wf_of_init (mk_init _ _ _ _ _ _ (by decide)) (by decide) ?_
  change ∀ i, 0 ≤ (tw (r2 (-3) 10 (-2) 9) (r2 0 5 0 4) (r2 2 4 1 3)).shape.get i
  decide

theorem g3_ctx (f : Fit) : (g3 f).CtxNonneg := by
  have : ∀ i : Fin 2, 0 ≤ (r2 2 4 1 3).offset.get i - (r2 0 5 0 4).offset.get i ∧
      0 ≤ (r2 0 5 0 4).offset.get i + (r2 0 5 0 4).shape.get i -
        ((r2 2 4 1 3).offset.get i + (r2 2 4 1 3).shape.get i) := by decide
  exact this

end Verif.Ex
