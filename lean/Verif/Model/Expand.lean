import Verif.Geom.Roi

/-!
# Model of the grid functions in `daisy/blocks.py`

The rest of `blocks.py` (class `SingleTaskDependencyGraph`) is not modelled: its constructor calls
`self.compute_level_offset()`, which does not exist, so no object of it can be made. -/

namespace Verif

variable {d : Nat}

/-- `-(-a // b)` (`blocks.py` 364, 379, 392). -/
def Coord.ceilDiv (a b : Coord d) : Coord d := -((-a).floorDiv b)

/-- `expand_roi_to_grid`, `blocks.py` 357-368. -/
def expandRoiToGrid (sub total read write : Roi d) : Roi d :=
  let offset := write.lo + total.lo - read.lo
  let b := sub.lo - offset
  let e := sub.hi - offset
  let b := b.floorDiv write.shape
  let e := e.ceilDiv write.shape
  let b := b * write.shape + offset
  let e := e * write.shape + offset
  ⟨b, e - b⟩

/-- `expand_request_roi_to_grid`, `blocks.py` 371-384. -/
def expandRequestRoiToGrid (req total read write : Roi d) : Roi d :=
  let offset := write.lo + total.lo - read.lo
  let b := req.lo - offset
  let e := req.hi - offset
  let b := b.floorDiv write.shape
  let e := e.ceilDiv write.shape
  let b := b * write.shape
  let e := e * write.shape
  let b := b + offset + (read.lo - write.lo)
  let e := e + offset + (read.hi - write.hi)
  ⟨b, e - b⟩

/-- `expand_write_roi_to_grid`, `blocks.py` 387-396. -/
def expandWriteRoiToGrid (roi write : Roi d) : Roi d :=
  let lo := roi.lo.floorDiv write.shape
  let hi := roi.hi.ceilDiv write.shape
  ⟨lo * write.shape, (hi - lo) * write.shape⟩

end Verif
