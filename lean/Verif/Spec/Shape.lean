import Verif.Model.PVArray

/-!
# Rows in corresponding places; mirror images of arrays
-/

namespace PVF

/-- Rows of two arrays: same axis and ground coverage ratio, `c` times the width, both arrays have
more than one row. -/
structure Resized (c : ℝ) (p p' : ArrayParams) : Prop where
  pos : 0 < c
  axis : p'.axisAzimuth = p.axisAzimuth
  gcr : p'.gcr = p.gcr
  width : p'.width = c * p.width
  rows : 1 < p.nRows
  rows' : 1 < p'.nRows

/-- Row `i` of one array and row `i'` of another one: both are the first row or none of them, both
are the last row or none of them, and they are cut in the same way. -/
structure SamePlace (p p' : ArrayParams) (i i' : ℕ) : Prop where
  first : i = 0 ↔ i' = 0
  last : i + 1 = p.nRows ↔ i' + 1 = p'.nRows
  cut : ∀ s, p'.nSeg i' s = p.nSeg i s

/-- The array in a mirror that stands upright along the axis of the rows. -/
def ArrayParams.mirror (p : ArrayParams) : ArrayParams :=
  { p with cut := fun i => p.cut (p.nRows - 1 - i) }

/-- Modules and sun in that mirror: azimuths count from the axis in the other direction. -/
structure MirroredStep (axis : ℝ) (u u' : StepIn) : Prop where
  zenith : u'.solarZenith = u.solarZenith
  tilt : u'.surfaceTilt = u.surfaceTilt
  sun : ∃ k : ℤ, u'.solarAzimuth - axis = -(u.solarAzimuth - axis) + 360 * k
  surface : ∃ k : ℤ, u'.surfaceAzimuth - axis = -(u.surfaceAzimuth - axis) + 360 * k

/-- The mirror image of a surface of a module: rows are counted from the other end of the array,
segments from the other end of the row. -/
def mirrorPv (p : ArrayParams) (i : ℕ) (s : RowSide) (k : ℕ) (sh : Bool) : SurfRef :=
  .pv (p.nRows - 1 - i) s (p.nSeg i s - 1 - k) sh

end PVF
