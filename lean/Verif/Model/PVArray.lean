import Verif.Model.Ground

/-!
# Ordered PV array (geometry/pvarray.py, geometry/base.py)
-/

namespace PVF
noncomputable section

/-- Invariant parameters of an `OrderedPVArray`: pvfactors/geometry/pvarray.py lines 21-60.
`cut i` is `self.cut.get(i, {})`. -/
structure ArrayParams where
  axisAzimuth : ℝ
  gcr : ℝ
  height : ℝ
  width : ℝ
  nRows : ℕ
  cut : ℕ → CutSpec

/-- `self.distance`: pvfactors/geometry/pvarray.py lines 54-56. -/
def ArrayParams.distance (p : ArrayParams) : ℝ := p.width / p.gcr

/-- Number of front segments of row `i`: `cut.get('front', 1)`, pvfactors/geometry/pvrow.py
line 84. -/
def ArrayParams.nFront (p : ArrayParams) (i : ℕ) : ℕ := (p.cut i).front.getD 1

/-- Number of back segments of row `i`: `cut.get('back', 1)`, pvfactors/geometry/pvrow.py
line 89. -/
def ArrayParams.nBack (p : ArrayParams) (i : ℕ) : ℕ := (p.cut i).back.getD 1

/-- Inputs of `OrderedPVArray.fit` at one time step: pvfactors/geometry/pvarray.py line 130. -/
structure StepIn where
  solarZenith : ℝ
  solarAzimuth : ℝ
  surfaceTilt : ℝ
  surfaceAzimuth : ℝ

/-- The quantity `delta` of `_calculate_interrow_shading`: pvfactors/geometry/pvarray.py
lines 242-248.  Theorems assume that the tangent is defined (`cos beta ≠ 0`). -/
def shadingDelta (distance alpha rotation : ℝ) : ℝ :=
  let alphaDeg := rad2deg alpha
  let thetaT := 90 - rotation
  let thetaTRad := deg2rad thetaT
  let beta := thetaT + alphaDeg
  let betaRad := deg2rad beta
  distance * (Real.sin thetaTRad - Real.cos thetaTRad * Real.tan betaRad)

/-- `shaded_length_front` and `shaded_length_back` of the array:
`_calculate_interrow_shading`, pvfactors/geometry/pvarray.py lines 240-263. -/
def interrowShading (p : ArrayParams) (alpha rotation : ℝ) : ℝ × ℝ :=
  if p.nRows > 1 then
    let delta := shadingDelta p.distance alpha rotation
    let tmpFront := max 0 (p.width - delta)
    let tmpBack := max 0 (p.width + delta)
    (if tmpFront > p.width then 0 else tmpFront, if tmpBack > p.width then 0 else tmpBack)
  else (0, 0)

/-- `has_direct_shading`: pvfactors/geometry/pvarray.py lines 265-268. -/
def hasDirectShading (p : ArrayParams) (alpha rotation : ℝ) : Prop :=
  (interrowShading p alpha rotation).1 > TOL ∨ (interrowShading p alpha rotation).2 > TOL

/-- Shaded lengths (front, back) of row `i` with the special treatment of the edge rows:
pvfactors/geometry/pvarray.py lines 201-220. -/
def rowShadedLengths (p : ArrayParams) (alpha rotation : ℝ) (i : ℕ) : ℝ × ℝ :=
  let s := interrowShading p alpha rotation
  if i = 0 then
    (if rotation > 0 then 0 else s.1, if rotation > 0 then s.2 else 0)
  else if i = p.nRows - 1 then
    (if rotation > 0 then s.1 else 0, if rotation > 0 then 0 else s.2)
  else s

/-- `xy_centers[i]`: pvfactors/geometry/pvarray.py lines 198-200. -/
def rowCenter (p : ArrayParams) (i : ℕ) : Pt :=
  ⟨X_ORIGIN + i * p.distance, p.height + Y_GROUND⟩

/-- `ts_pvrows[i]` at one time step: pvfactors/geometry/pvarray.py lines 202-226. -/
def rowGeom (p : ArrayParams) (alpha rotation : ℝ) (i : ℕ) : RowGeom :=
  rowFromRawInputs (rowCenter p i) p.width rotation (p.cut i)
    (rowShadedLengths p alpha rotation i).1 (rowShadedLengths p alpha rotation i).2

/-- One time step of a fitted `OrderedPVArray`. -/
structure StepGeom where
  rot : Rot
  sun : Pt
  alpha : ℝ
  row : ℕ → RowGeom
  ground : GroundIn

/-- The ground built from the rows: `TsGround.from_ts_pvrows_and_angles`,
pvfactors/geometry/pvground.py lines 97-129, called from pvfactors/geometry/pvarray.py
lines 169-172. -/
def groundFromRows (p : ArrayParams) (alpha : ℝ) (rot : Rot) (row : ℕ → RowGeom) : GroundIn where
  nRows := p.nRows
  shadowXs := fun i => shadowXs (row i).full alpha
  flagOverlap := hasDirectShading p alpha rot.deg
  cuts := (List.range p.nRows).map (fun i => cutPointX (row i).full rot)

/-- `OrderedPVArray.fit` at one time step, given the rotation and the sun vector:
pvfactors/geometry/pvarray.py lines 161-172. -/
def fitGeom (p : ArrayParams) (rot : Rot) (sun : Pt) : StepGeom :=
  let alpha := arctan2 sun.y sun.x
  let row := rowGeom p alpha rot.deg
  { rot := rot, sun := sun, alpha := alpha, row := row
    ground := groundFromRows p alpha rot row }

/-- `OrderedPVArray.fit` at one time step: pvfactors/geometry/pvarray.py lines 130-178. -/
def fitStep (p : ArrayParams) (u : StepIn) : StepGeom :=
  fitGeom p (rotationFromTiltAzimuth u.surfaceAzimuth p.axisAzimuth u.surfaceTilt)
    (solar2dVector u.solarZenith u.solarAzimuth p.axisAzimuth)

/-! ## Surfaces and their indices -/

/-- The two sides of a PV row. -/
inductive RowSide where
  | front
  | back
  deriving DecidableEq

/-- A reference to a timeseries surface object.  Ground surfaces: is it part of a shadow element,
which element, which zone between cut points.  PV surfaces: row, side, segment, and whether it is
the shaded or the illuminated surface of the segment. -/
inductive SurfRef where
  | gnd (shaded : Bool) (el zone : ℕ)
  | pv (row : ℕ) (side : RowSide) (seg : ℕ) (shaded : Bool)
  deriving DecidableEq

/-- `TsGround.all_ts_surfaces`: pvfactors/geometry/pvground.py lines 482-490; each element has
`nRows + 1` surfaces. -/
def groundRefs (p : ArrayParams) : List SurfRef :=
  ((List.range p.nRows).flatMap fun e =>
      (List.range (p.nRows + 1)).map fun z => SurfRef.gnd true e z)
  ++ ((List.range (p.nRows + 1)).flatMap fun e =>
      (List.range (p.nRows + 1)).map fun z => SurfRef.gnd false e z)

/-- Number of segments of a side. -/
def ArrayParams.nSeg (p : ArrayParams) (i : ℕ) : RowSide → ℕ
  | .front => p.nFront i
  | .back => p.nBack i

/-- `TsSide.all_ts_surfaces` (illuminated, then shaded surface of each segment):
pvfactors/geometry/pvrow.py lines 477-483, 644-647. -/
def sideRefs (p : ArrayParams) (i : ℕ) (s : RowSide) : List SurfRef :=
  (List.range (p.nSeg i s)).flatMap fun k => [SurfRef.pv i s k false, SurfRef.pv i s k true]

/-- `TsPVRow.all_ts_surfaces`: pvfactors/geometry/pvrow.py lines 201-204. -/
def rowRefs (p : ArrayParams) (i : ℕ) : List SurfRef :=
  sideRefs p i .front ++ sideRefs p i .back

/-- `BasePVArray.all_ts_surfaces`: pvfactors/geometry/base.py lines 1163-1170. -/
def allRefs (p : ArrayParams) : List SurfRef :=
  groundRefs p ++ (List.range p.nRows).flatMap (rowRefs p)

/-- `BasePVArray.n_ts_surfaces`: pvfactors/geometry/base.py lines 1154-1161, with
pvfactors/geometry/pvground.py lines 461-480, 798 and pvfactors/geometry/pvrow.py lines 196-199,
469-475, 649-652. -/
def nTsSurfaces (p : ArrayParams) : ℕ :=
  (((List.range p.nRows).map fun _ => p.nRows + 1).sum
    + ((List.range (p.nRows + 1)).map fun _ => p.nRows + 1).sum)
  + ((List.range p.nRows).map fun i =>
      ((List.range (p.nFront i)).map fun _ => 1 + 1).sum
      + ((List.range (p.nBack i)).map fun _ => 1 + 1).sum).sum

/-- `_index_all_ts_surfaces`: pvfactors/geometry/base.py lines 1242-1245: a loop that writes the
running position into each surface object (a later write to the same object wins). -/
def indexLoop (refs : List SurfRef) : SurfRef → Option ℕ :=
  refs.zipIdx.foldl (fun d ri => Function.update d ri.1 (some ri.2)) (fun _ => none)

/-- `ts_surface.index` after `fit`; surfaces outside the array have no index (0 here, never used:
all loops run over surfaces of the array). -/
def surfIndex (p : ArrayParams) (a : SurfRef) : ℕ := (indexLoop (allRefs p) a).getD 0

/-- Segments of a side of row `i` at a time step. -/
def StepGeom.side (g : StepGeom) (i : ℕ) : RowSide → List SegGeom
  | .front => (g.row i).front
  | .back => (g.row i).back

/-- Coordinates of a surface object at a time step: the surfaces of ground elements are the ones
of `_create_all_ts_surfaces` (pvfactors/geometry/pvground.py lines 898-934), the ones of segments
are those of pvfactors/geometry/pvrow.py lines 328-338. -/
def StepGeom.coords (g : StepGeom) : SurfRef → Line
  | .gnd true e z => (cutSurfaces (g.ground.shadowEl e) g.ground.cuts).getD z default
  | .gnd false e z => (cutSurfaces (g.ground.illumEl e) g.ground.cuts).getD z default
  | .pv i s k sh =>
    let seg := (g.side i s).getD k default
    if sh then seg.shaded else seg.illum

/-- `TsSurface.is_empty` over a whole time series:
pvfactors/geometry/timeseries.py lines 252-256 (`np.nansum(self.length) < DISTANCE_TOLERANCE`). -/
def isEmptyTs {ι : Type*} [Fintype ι] (g : ι → StepGeom) (a : SurfRef) : Prop :=
  ∑ t, ((g t).coords a).length < TOL

end
end PVF
