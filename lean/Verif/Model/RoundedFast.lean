import Verif.Model.RoundedTrig
import Verif.Model.Fast

/-!
# Fast mode with rounding (engine.py, calculator.py, vfmethods.py)

The formulas of fast mode (see `Verif.Model.Fast`), written with the operations of an arithmetic that has
rounding errors, in the order in which the code uses them.
-/

namespace PVF
noncomputable section
namespace Arith
variable {ε : ℝ} (A : Arith ε)

/-- `TsSide.shaded_length`: pvfactors/geometry/pvrow.py lines 402-408, with `TsShadeCollection.length`
of pvfactors/geometry/timeseries.py lines 35-41 for the shaded collection of a segment, which has one
surface. -/
def sideShadedLength (segs : List SegGeom) : ℝ :=
  segs.foldl (fun length s => A.add length (A.add 0 (A.length s.shaded))) 0

/-- `VFTsMethods._create_shaded_side_coords`: pvfactors/viewfactors/vfmethods.py lines 649-696, for the
computed values of trigonometric functions `T` (see `PVF.shadedSideCoords`). -/
def shadedSideCoords (center : Pt) (width shadedLength : ℝ) (tiltedToLeft : Prop) (T : Trig)
    (sideLowest : Pt) : Line :=
  open Classical in
  let radius := A.div width 2
  let rShade := A.sub radius shadedLength
  ⟨⟨if tiltedToLeft then A.add (A.mul rShade T.cs180) center.x else A.add (A.mul rShade T.cs) center.x,
    if tiltedToLeft then A.add (A.mul rShade T.sn180) center.y
      else A.add (A.mul rShade T.sn) center.y⟩, sideLowest⟩

/-- `VFTsMethods.calculate_vf_to_pvrow`: pvfactors/viewfactors/vfmethods.py lines 248-325 (see
`PVF.vfToPvrow`). -/
def vfToPvrow (pv : Line) (i : ℤ) (n : ℕ) (rows : ℕ → RowGeom) (len : ℝ) (tiltedToLeft : Prop)
    (width : ℝ) (T : Trig) : ℝ × ℝ :=
  open Classical in
  let vfs (j : ℤ) : ℝ × ℝ :=
    let row := rows (pyIdx n j)
    let shaded := A.shadedSideCoords row.center width (A.sideShadedLength row.front) tiltedToLeft
      T row.full.lowest
    (A.surfSurf pv row.full len, A.surfSurf pv shaded len)
  let left := if i = 0 then (0, 0) else vfs (i - 1)
  let right := if i = n - 1 then (0, 0) else vfs (i + 1)
  (if tiltedToLeft then right.1 else left.1, if tiltedToLeft then right.2 else left.2)

/-- `VFTsMethods.calculate_vf_to_gnd`: pvfactors/viewfactors/vfmethods.py lines 327-398 (see
`PVF.vfToGnd`). -/
def vfToGnd (pv : Line) (i : ℤ) (n : ℕ) (cut : XR) (len : ℝ) (tiltedToLeft : Prop)
    (rows : ℕ → RowGeom) : ℝ :=
  open Classical in
  let low := (rows (pyIdx n i)).full.lowest
  let left :=
    if i = 0 then A.surfSurf pv ⟨⟨MIN_X, Y_GROUND⟩, ⟨minMaxX cut, Y_GROUND⟩⟩ len
    else A.surfSurf pv ⟨(rows (pyIdx n (i - 1))).full.lowest, low⟩ len
  let right :=
    if i = n - 1 then A.surfSurf pv ⟨⟨maxMinX cut, Y_GROUND⟩, ⟨MAX_X, Y_GROUND⟩⟩ len
    else A.surfSurf pv ⟨low, (rows (pyIdx n (i + 1))).full.lowest⟩ len
  if tiltedToLeft then right else left

/-- `VFTsMethods.calculate_vf_to_shadow_obstruction_hottel`:
pvfactors/viewfactors/vfmethods.py lines 400-471 (see `PVF.vfToShadow`). -/
def vfToShadow (pv : Line) (i : ℤ) (n : ℕ) (tiltedToLeft : Prop) (rows : ℕ → RowGeom)
    (shadowLeft shadowRight : Line) (len : ℝ) : ℝ :=
  open Classical in
  let left :=
    if i = 0 then A.surfSurf pv shadowLeft len
    else A.hottelGnd pv.highest pv.lowest shadowLeft.b1 shadowLeft.b2
      (rows (pyIdx n (i - 1))).full.lowest len true
  let right :=
    if i = n - 1 then A.surfSurf pv shadowRight len
    else A.hottelGnd pv.highest pv.lowest shadowRight.b1 shadowRight.b2
      (rows (pyIdx n (i + 1))).full.lowest len false
  if tiltedToLeft then right else left

/-- `VFCalculator.get_vf_ts_pvrow_element` at one time step: pvfactors/viewfactors/calculator.py
lines 183-275 (see `PVF.fastVF`).  The view factors to shadows are added in the order `S`. -/
def fastVF (S : SumTree) (p : ArrayParams) (g : StepGeom) (T : Trig) (i : ℤ) (pv : Line) : FastVF :=
  let n := p.nRows
  let tiltedToLeft := g.rot.deg > 0
  let len := A.length pv
  let cut := g.ground.cuts.getD (pyIdx n i) .posInf
  let each := fun e =>
    A.vfToShadow pv i n tiltedToLeft g.row (coordsLeftOfCut (g.ground.shadowEl e) cut)
      (coordsRightOfCut (g.ground.shadowEl e) cut) len
  let shaded := A.sum each S
  let total := A.vfToGnd pv i n cut len tiltedToLeft g.row
  let pvrow := A.vfToPvrow pv i n g.row len tiltedToLeft p.width T
  { toEachGndShadow := (List.range n).map each
    toGndShaded := shaded
    toGndIllum := A.sub total shaded
    toGndTotal := total
    toPvrowTotal := pvrow.1
    toPvrowShaded := pvrow.2
    toPvrowIllum := A.sub pvrow.1 pvrow.2
    toSky := A.sub (A.sub 1 total) pvrow.1 }

/-- `BaseModel.update_ts_surface_sky_term`: pvfactors/irradiance/base.py lines 123-137 (see
`PVF.sumComponents`). -/
def sumComponents (l : List ℝ) : ℝ := l.foldl (fun value c => A.add value c) 0

/-- The body of the loop of `_calculate_back_ts_segment_qinc` for one surface at one time step:
pvfactors/engine.py lines 349-382 (see `PVF.fastSurface`), for the computed view factors `vf`. -/
def fastSurface (vf : FastVF) (s : IrrStep) (a : SurfRef) : FastOut :=
  let skyTerm := A.sumComponents (s.comp a)
  let gndShadow := A.mul (A.mul vf.toGndShaded s.albedo) s.gndShaded
  let gndIllum := A.mul (A.mul vf.toGndIllum s.albedo) s.gndIllum
  let pvShadow := A.mul (A.mul vf.toPvrowShaded s.rhoFront) s.pvrowShaded
  let pvIllum := A.mul (A.mul vf.toPvrowIllum s.rhoFront) s.pvrowIllum
  let isotropic := A.mul vf.toSky s.sky
  let reflection := A.add (A.add (A.add gndShadow gndIllum) pvShadow) pvIllum
  { skyTerm := skyTerm
    qinc := A.add (A.add reflection isotropic) skyTerm
    reflectionGndShaded := gndShadow
    reflectionGndIllum := gndIllum
    reflectionPvrowShaded := pvShadow
    reflectionPvrowIllum := pvIllum
    isotropic := isotropic
    reflection := reflection
    viewFactors := vf }

end Arith

namespace TrigArith
variable {ε : ℝ} (A : TrigArith ε)

/-- View factors of fast mode for a surface `a` on the back of row `i`, computed from the inputs of a time
step: `fit` (pvfactors/geometry/pvarray.py lines 130-178) and `get_vf_ts_pvrow_element`
(pvfactors/viewfactors/calculator.py lines 183-275). -/
def fastVF (S : SumTree) (p : ArrayParams) (u : StepIn) (i : ℤ) (a : SurfRef) : FastVF :=
  let g := A.fitStep p u
  A.toArith.fastVF S p g (A.trig g.rot.deg g.alpha) i (g.coords a)

/-- What fast mode stores in the surface `a`, computed from the inputs of a time step and the irradiance
terms `s`: pvfactors/engine.py lines 267-319 and 349-382. -/
def fastStep (S : SumTree) (p : ArrayParams) (u : StepIn) (s : IrrStep) (i : ℤ) (a : SurfRef) : FastOut :=
  A.toArith.fastSurface (A.fastVF S p u i a) s a

end TrigArith
end
end PVF
