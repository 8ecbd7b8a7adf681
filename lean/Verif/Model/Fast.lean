import Verif.Model.Engine

/-!
# Fast mode (engine.py, calculator.py, vfmethods.py)
-/

namespace PVF
noncomputable section

/-- Python list indexing `l[i]` for a list of length `n`: negative indices count from the end.
Indices outside the list raise an error in Python, which is not modelled: theorems are about
indices for which all list accesses are valid. -/
def pyIdx (n : ℕ) (i : ℤ) : ℕ := (if i < 0 then i + n else i).toNat

/-- `VFTsMethods._create_shaded_side_coords`: pvfactors/viewfactors/vfmethods.py lines 649-696. -/
def shadedSideCoords (center : Pt) (width shadedLength : ℝ) (tiltedToLeft : Prop) (rotation : ℝ)
    (sideLowest : Pt) : Line :=
  open Classical in
  let radius := width / 2
  let rShade := radius - shadedLength
  ⟨⟨if tiltedToLeft then rShade * cosd (rotation + 180) + center.x
      else rShade * cosd rotation + center.x,
    if tiltedToLeft then rShade * sind (rotation + 180) + center.y
      else rShade * sind rotation + center.y⟩, sideLowest⟩

/-- `VFTsMethods.calculate_vf_to_pvrow`: pvfactors/viewfactors/vfmethods.py lines 248-325.  Returns
the view factors to the neighbouring row and to its shaded part. -/
def vfToPvrow (pv : Line) (i : ℤ) (n : ℕ) (rows : ℕ → RowGeom) (len : ℝ) (tiltedToLeft : Prop)
    (width rotation : ℝ) : ℝ × ℝ :=
  open Classical in
  let vfs (j : ℤ) : ℝ × ℝ :=
    let row := rows (pyIdx n j)
    let shaded := shadedSideCoords row.center width (sideShadedLength row.front) tiltedToLeft
      rotation row.full.lowest
    (vfSurfSurf pv row.full len, vfSurfSurf pv shaded len)
  let left := if i = 0 then (0, 0) else vfs (i - 1)
  let right := if i = n - 1 then (0, 0) else vfs (i + 1)
  (if tiltedToLeft then right.1 else left.1, if tiltedToLeft then right.2 else left.2)

/-- `np.minimum(MAX_X_GROUND, cut_point_coords.x)`: pvfactors/viewfactors/vfmethods.py line 369.
(For `-inf` numpy continues with an infinite coordinate and gets NaN; cut points are never `-inf`,
because the rotation of flat rows is `-0.0`.) -/
def minMaxX : XR → ℝ
  | .negInf => MAX_X
  | .fin c => min MAX_X c
  | .posInf => MAX_X

/-- `np.maximum(MIN_X_GROUND, cut_point_coords.x)`: pvfactors/viewfactors/vfmethods.py line 385.
(For `+inf`, flat rows, numpy continues with an infinite coordinate and gets NaN, which is then
discarded by `np.where` in line 396, because flat rows are not tilted to the left.) -/
def maxMinX : XR → ℝ
  | .negInf => MIN_X
  | .fin c => max MIN_X c
  | .posInf => MIN_X

/-- `VFTsMethods.calculate_vf_to_gnd`: pvfactors/viewfactors/vfmethods.py lines 327-398. -/
def vfToGnd (pv : Line) (i : ℤ) (n : ℕ) (cut : XR) (len : ℝ) (tiltedToLeft : Prop)
    (rows : ℕ → RowGeom) : ℝ :=
  open Classical in
  let low := (rows (pyIdx n i)).full.lowest
  let left :=
    if i = 0 then vfSurfSurf pv ⟨⟨MIN_X, Y_GROUND⟩, ⟨minMaxX cut, Y_GROUND⟩⟩ len
    else vfSurfSurf pv ⟨(rows (pyIdx n (i - 1))).full.lowest, low⟩ len
  let right :=
    if i = n - 1 then vfSurfSurf pv ⟨⟨maxMinX cut, Y_GROUND⟩, ⟨MAX_X, Y_GROUND⟩⟩ len
    else vfSurfSurf pv ⟨low, (rows (pyIdx n (i + 1))).full.lowest⟩ len
  if tiltedToLeft then right else left

/-- `VFTsMethods.calculate_vf_to_shadow_obstruction_hottel`:
pvfactors/viewfactors/vfmethods.py lines 400-471. -/
def vfToShadow (pv : Line) (i : ℤ) (n : ℕ) (tiltedToLeft : Prop) (rows : ℕ → RowGeom)
    (shadowLeft shadowRight : Line) (len : ℝ) : ℝ :=
  open Classical in
  let left :=
    if i = 0 then vfSurfSurf pv shadowLeft len
    else vfHottelGnd pv.highest pv.lowest shadowLeft.b1 shadowLeft.b2
      (rows (pyIdx n (i - 1))).full.lowest len true
  let right :=
    if i = n - 1 then vfSurfSurf pv shadowRight len
    else vfHottelGnd pv.highest pv.lowest shadowRight.b1 shadowRight.b2
      (rows (pyIdx n (i + 1))).full.lowest len false
  if tiltedToLeft then right else left

/-- The dictionary of view factors returned in fast mode. -/
structure FastVF where
  toEachGndShadow : List ℝ
  toGndShaded : ℝ
  toGndIllum : ℝ
  toGndTotal : ℝ
  toPvrowTotal : ℝ
  toPvrowShaded : ℝ
  toPvrowIllum : ℝ
  toSky : ℝ

/-- `VFCalculator.get_vf_ts_pvrow_element` at one time step for an element with coordinates `pv` on
the back of the row with (Python) index `i`: pvfactors/viewfactors/calculator.py lines 183-275;
shadow coordinates from pvfactors/geometry/pvground.py lines 395-435. -/
def fastVF (p : ArrayParams) (g : StepGeom) (i : ℤ) (pv : Line) : FastVF :=
  let n := p.nRows
  let tiltedToLeft := g.rot.deg > 0
  let cut := g.ground.cuts.getD (pyIdx n i) .posInf
  let each := (List.range n).map fun e =>
    vfToShadow pv i n tiltedToLeft g.row (coordsLeftOfCut (g.ground.shadowEl e) cut)
      (coordsRightOfCut (g.ground.shadowEl e) cut) pv.length
  let shaded := each.sum
  let total := vfToGnd pv i n cut pv.length tiltedToLeft g.row
  let pvrow := vfToPvrow pv i n g.row pv.length tiltedToLeft p.width g.rot.deg
  { toEachGndShadow := each
    toGndShaded := shaded
    toGndIllum := total - shaded
    toGndTotal := total
    toPvrowTotal := pvrow.1
    toPvrowShaded := pvrow.2
    toPvrowIllum := pvrow.1 - pvrow.2
    toSky := 1 - total - pvrow.1 }

/-- What fast mode stores in a surface at one time step. -/
structure FastOut where
  skyTerm : ℝ
  qinc : ℝ
  reflectionGndShaded : ℝ
  reflectionGndIllum : ℝ
  reflectionPvrowShaded : ℝ
  reflectionPvrowIllum : ℝ
  isotropic : ℝ
  reflection : ℝ
  viewFactors : FastVF

/-- The body of the loop of `_calculate_back_ts_segment_qinc` for one surface at one time step:
pvfactors/engine.py lines 349-382, with `update_ts_surface_sky_term` of
pvfactors/irradiance/base.py lines 123-137. -/
def fastSurface (p : ArrayParams) (g : StepGeom) (s : IrrStep) (i : ℤ) (a : SurfRef) : FastOut :=
  let vf := fastVF p g i (g.coords a)
  let skyTerm := sumComponents (s.comp a)
  let gndShadow := vf.toGndShaded * s.albedo * s.gndShaded
  let gndIllum := vf.toGndIllum * s.albedo * s.gndIllum
  let pvShadow := vf.toPvrowShaded * s.rhoFront * s.pvrowShaded
  let pvIllum := vf.toPvrowIllum * s.rhoFront * s.pvrowIllum
  let isotropic := vf.toSky * s.sky
  { skyTerm := skyTerm
    qinc := gndShadow + gndIllum + pvShadow + pvIllum + isotropic + skyTerm
    reflectionGndShaded := gndShadow
    reflectionGndIllum := gndIllum
    reflectionPvrowShaded := pvShadow
    reflectionPvrowIllum := pvIllum
    isotropic := isotropic
    reflection := gndShadow + gndIllum + pvShadow + pvIllum
    viewFactors := vf }

/-- The surfaces that `run_fast_mode` updates: pvfactors/engine.py lines 298-313.  `segment` is
`None` or a segment index. -/
def fastTargets (p : ArrayParams) (i : ℤ) (segment : Option ℤ) : List SurfRef :=
  let r := pyIdx p.nRows i
  match segment with
  | none => sideRefs p r .back
  | some k =>
    let k := pyIdx (p.nBack r) k
    [.pv r .back k false, .pv r .back k true]

/-- `PVEngine.run_fast_mode` at one time step: pvfactors/engine.py lines 267-319.  The values
written to the surfaces of the PV array (`none`: nothing written). -/
def runFastMode (p : ArrayParams) (g : StepGeom) (s : IrrStep) (i : ℤ) (segment : Option ℤ) :
    SurfRef → Option FastOut :=
  (fastTargets p i segment).foldl
    (fun m a => Function.update m a (some (fastSurface p g s i a))) fun _ => none

end
end PVF
