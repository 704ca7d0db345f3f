import Verif.Model.BlockGraph

/-! # Well-formed task geometries, and names for the numbers along one axis -/

namespace Verif.BGraph

variable {d : Nat}

/-- Write size along axis `i`. -/
def w (g : BGraph d) (i : Fin d) : Int := g.blockWrite.shape.get i
/-- Size of the total write ROI along axis `i`. -/
def t (g : BGraph d) (i : Fin d) : Int := g.totalWrite.shape.get i
/-- Level stride along axis `i`. -/
def s (g : BGraph d) (i : Fin d) : Int := g.levelStride.get i
/-- Offsets (relative to the total write ROI) of blocks lie in `[0, u)`. -/
def u (g : BGraph d) (i : Fin d) : Int := g.t i + 1 - g.roundingTerm.get i
/-- Lower context along axis `i`. -/
def cl (g : BGraph d) (i : Fin d) : Int := g.blockWrite.offset.get i - g.blockRead.offset.get i
/-- Upper context along axis `i`. -/
def cu (g : BGraph d) (i : Fin d) : Int :=
  g.blockRead.offset.get i + g.blockRead.shape.get i -
    (g.blockWrite.offset.get i + g.blockWrite.shape.get i)

/-- The geometries the theorems range over: positive write shape, total ROI large enough for
the context, total write ROI as computed by the constructor, and, with `read_write_conflict`, a
read ROI that contains the write ROI (asserted by the constructor). -/
structure Wf (g : BGraph d) : Prop where
  wpos : ∀ i, 0 < g.w i
  tnn : ∀ i, 0 ≤ g.t i
  tw : g.totalWrite =
    g.totalRead.grow (-(g.blockWrite.lo - g.blockRead.lo)) (-(g.blockRead.hi - g.blockWrite.hi))
  ctx : g.conflict = true → ∀ i, 0 ≤ g.cl i ∧ 0 ≤ g.cu i

/-- The read ROI contains the write ROI (no negative context). -/
def CtxNonneg (g : BGraph d) : Prop := ∀ i, 0 ≤ g.cl i ∧ 0 ≤ g.cu i

/-- The read ROI contains the write ROI, or boundary blocks are not shrunk.  (Shrinking a read ROI
that ends before its write ROI can make it empty.) -/
def ReadOK (g : BGraph d) : Prop := g.CtxNonneg ∨ g.fit ≠ .shrink

end Verif.BGraph
