import Verif.Model.PVArray
import Mathlib.Analysis.SpecialFunctions.Trigonometric.Inverse
import Mathlib.Analysis.SpecialFunctions.Trigonometric.Arctan

/-!
# Irradiance models (irradiance/base.py, irradiance/models.py, irradiance/utils.py)

Everything is per time step: the functions of these modules act element by element on numpy arrays
and pandas columns.
-/

namespace PVF
noncomputable section

/-- pvfactors/config.py line 46, `SKY_REFLECTIVITY_DUMMY = 1.` -/
def SKY_REFLECTIVITY_DUMMY : ℝ := 1

/-- pvfactors/config.py line 40, `RADIUS_CIRCUMSOLAR = 1.` -/
def RADIUS_CIRCUMSOLAR : ℝ := 1

/-! ## irradiance/utils.py -/

/-- `pvlib.irradiance.aoi_projection` (pvlib, external): cosine of the angle between the surface
normal and the sun. -/
def aoiProjection (surfaceTilt surfaceAzimuth solarZenith solarAzimuth : ℝ) : ℝ :=
  cosd surfaceTilt * cosd solarZenith
    + sind surfaceTilt * sind solarZenith * cosd (solarAzimuth - surfaceAzimuth)

/-- `pvlib.irradiance.aoi` (pvlib, external): angle of incidence in degrees. -/
def aoiFunction (surfaceTilt surfaceAzimuth solarZenith solarAzimuth : ℝ) : ℝ :=
  rad2deg (Real.arccos (aoiProjection surfaceTilt surfaceAzimuth solarZenith solarAzimuth))

/-- One row of the dataframe built at the start of `perez_diffuse_luminance`:
pvfactors/irradiance/utils.py lines 57-61.  `dniExtra` and `airmass` are the values of
`get_extra_radiation` and `get_relative_airmass` (lines 63-64), which depend on the time stamp and
the solar zenith only. -/
structure PerezIn where
  surfaceTilt : ℝ
  surfaceAzimuth : ℝ
  solarZenith : ℝ
  solarAzimuth : ℝ
  dni : ℝ
  dhi : ℝ
  dniExtra : ℝ
  airmass : ℝ

/-- The components returned by `pvlib.irradiance.perez` (external). -/
structure PerezComponents where
  skyDiffuse : ℝ
  isotropic : ℝ
  circumsolar : ℝ
  horizon : ℝ

/-- The columns of the result of `perez_diffuse_luminance` that the irradiance models use. -/
structure PerezOut where
  luminanceIsotropic : ℝ
  luminanceCircumsolar : ℝ
  poaHorizon : ℝ
  poaCircumsolar : ℝ

/-- `sun_hitting_back_surface`: pvfactors/irradiance/utils.py lines 67-71. -/
def PerezIn.hitsBack (r : PerezIn) : Prop :=
  aoiProjection r.surfaceTilt r.surfaceAzimuth r.solarZenith r.solarAzimuth < 0
    ∧ r.solarZenith ≤ 90

/-- The reversed surface: pvfactors/irradiance/utils.py lines 73-80. -/
def PerezIn.flip (r : PerezIn) : PerezIn :=
  { r with surfaceAzimuth := pyMod (r.surfaceAzimuth - 180) 360, surfaceTilt := 180 - r.surfaceTilt }

/-- The luminances of one row before the adjustment of back surfaces:
pvfactors/irradiance/utils.py lines 87-134.  `perez` stands for `pvlib.irradiance.perez`.
Divisions by zero (NaN in pandas) are zero here. -/
def PerezIn.ownOut (perez : PerezIn → PerezComponents) (r : PerezIn) : PerezOut :=
  open Classical in
  let c := perez r
  let a := max (aoiProjection r.surfaceTilt r.surfaceAzimuth r.solarZenith r.solarAzimuth) 0
  let b := max (cosd r.solarZenith) (cosd 85)
  let vfCircumsolar := a / b
  let vfIsotropic := (1 + cosd r.surfaceTilt) / 2
  { luminanceIsotropic := if c.skyDiffuse = 0 then 0 else c.isotropic / vfIsotropic
    luminanceCircumsolar := if c.skyDiffuse = 0 then 0 else c.circumsolar / vfCircumsolar
    poaHorizon := c.horizon
    poaCircumsolar := c.circumsolar }

/-- `df_inputs.loc[sun_hitting_back_surface, 'luminance_circumsolar'] = ...`:
pvfactors/irradiance/utils.py lines 136-139.  Rows are matched by position; pandas matches them by
time stamp, which is the same if time stamps are distinct. -/
def mergeBack (perez : PerezIn → PerezComponents) : List PerezIn → List PerezOut → List PerezOut
  | [], _ => []
  | r :: rs, sub =>
    open Classical in
    if r.hitsBack then
      match sub with
      | [] => r.ownOut perez :: mergeBack perez rs []
      | s :: ss => { r.ownOut perez with luminanceCircumsolar := s.luminanceCircumsolar }
          :: mergeBack perez rs ss
    else r.ownOut perez :: mergeBack perez rs sub

open Classical in
/-- `perez_diffuse_luminance`: pvfactors/irradiance/utils.py lines 15-141.  The first argument is
the number of nested calls that are available; `none` means that the recursion goes deeper. -/
def perezDiffuseLuminance (perez : PerezIn → PerezComponents) :
    ℕ → List PerezIn → Option (List PerezOut)
  | 0, _ => none
  | depth + 1, rows =>
    let back := (rows.filter fun r => decide r.hitsBack).map PerezIn.flip
    let sub := if back = [] then some [] else perezDiffuseLuminance perez depth back
    sub.map fun s => mergeBack perez rows s

/-- `uniform_circumsolar_disk_shading`: pvfactors/irradiance/utils.py lines 285-343. -/
def uniformDiskShading (percentageDistanceCovered : ℝ) : ℝ :=
  let r := RADIUS_CIRCUMSOLAR
  let d := 2 * r
  let area := Real.pi * r ^ 2
  let covered := percentageDistanceCovered / 100 * d
  if covered ≤ 0 then 0
  else if 0 < covered ∧ covered ≤ r then
    let theta := 2 * Real.arccos ((r - covered) / r)
    let areaCircleSector := 0.5 * r ^ 2 * theta
    let areaTriangleSector := 0.5 * r ^ 2 * Real.sin theta
    let areaShaded := areaCircleSector - areaTriangleSector
    areaShaded / area * 100
  else if covered > r ∧ covered < d then
    let uncovered := d - covered
    let theta := 2 * Real.arccos ((r - uncovered) / r)
    let areaCircleSector := 0.5 * r ^ 2 * theta
    let areaTriangleSector := 0.5 * r ^ 2 * Real.sin theta
    let areaNotShaded := areaCircleSector - areaTriangleSector
    (1 - areaNotShaded / area) * 100
  else 100

/-- `calculate_horizon_band_shading`: pvfactors/irradiance/utils.py lines 346-368. -/
def horizonBandShading (shadingAngle horizonBandAngle : ℝ) : ℝ :=
  let percent := if shadingAngle ≥ horizonBandAngle then 100 else 0
  if shadingAngle ≥ 0 ∧ shadingAngle < horizonBandAngle then
    100 * shadingAngle / horizonBandAngle
  else percent

/-! ## irradiance/models.py -/

/-- Constructor arguments of the irradiance models: pvfactors/irradiance/models.py lines 28-77
(`IsotropicOrdered`) and 407-472 (`HybridPerezOrdered`, which has `horizonBandAngle`). -/
structure IrrParams where
  rhoFront : ℝ
  rhoBack : ℝ
  moduleTransparency : ℝ
  moduleSpacingRatio : ℝ
  faoiFront : Option (ℝ → ℝ)
  faoiBack : Option (ℝ → ℝ)
  horizonBandAngle : ℝ

/-- Arguments of `fit` at one time step: pvfactors/irradiance/models.py lines 84-86, 480-482.
`poaGlobal` is the value of `pvlib.irradiance.get_total_irradiance(...)['poa_global']` (external) and
`perez` the row of `perez_diffuse_luminance` for this time step. -/
structure IrrIn where
  dni : ℝ
  dhi : ℝ
  solarZenith : ℝ
  solarAzimuth : ℝ
  surfaceTilt : ℝ
  surfaceAzimuth : ℝ
  albedo : ℝ
  ghi : Option ℝ
  poaGlobal : ℝ
  perez : PerezOut

/-- A value for each of the categories `cats` of surfaces: pvfactors/irradiance/models.py
lines 23-24, 401-402. -/
structure Cats where
  groundIllum : ℝ
  groundShaded : ℝ
  frontIllum : ℝ
  frontShaded : ℝ
  backIllum : ℝ
  backShaded : ℝ

/-- Light through module spacing and transparency, e.g. pvfactors/irradiance/models.py
lines 142-147. -/
def throughModules (q : IrrParams) (x : ℝ) : ℝ :=
  x * q.moduleSpacingRatio + x * (1 - q.moduleSpacingRatio) * q.moduleTransparency

/-- `aoi_front_pvrow`: pvfactors/irradiance/models.py lines 150-151, 1003-1004. -/
def IrrIn.aoiFront (v : IrrIn) : ℝ :=
  aoiFunction v.surfaceTilt v.surfaceAzimuth v.solarZenith v.solarAzimuth

/-- `aoi_back_pvrow`: pvfactors/irradiance/models.py lines 152, 1005. -/
def IrrIn.aoiBack (v : IrrIn) : ℝ := 180 - v.aoiFront

/-- `ghi`: pvfactors/irradiance/models.py lines 128, 536. -/
def IrrIn.ghiUsed (v : IrrIn) : ℝ := v.ghi.getD (v.dni * cosd v.solarZenith + v.dhi)

/-- `self.direct`: pvfactors/irradiance/models.py lines 140-147, 158-178 (isotropic model) and
lines 549-556, 566-586 (hybrid Perez model; the same code). -/
def directCats (q : IrrParams) (v : IrrIn) : Cats :=
  open Classical in
  let gnd := v.dni * cosd v.solarZenith
  let front := if v.aoiFront ≤ 90 then v.dni * cosd v.aoiFront else 0
  let back := if ¬ v.aoiFront ≤ 90 then v.dni * cosd v.aoiBack else 0
  { groundIllum := gnd, groundShaded := throughModules q gnd
    frontIllum := front, frontShaded := throughModules q front
    backIllum := back, backShaded := throughModules q back }

/-- `poa_circumsolar_back`: pvfactors/irradiance/models.py lines 1009-1011. -/
def poaCircumsolarBack (v : IrrIn) : ℝ :=
  v.perez.luminanceCircumsolar * (cosd v.aoiBack / cosd v.solarZenith)

/-- `self.circumsolar` of the hybrid Perez model: pvfactors/irradiance/models.py lines 557-563,
587-605. -/
def circumsolarCats (q : IrrParams) (v : IrrIn) : Cats :=
  open Classical in
  let gnd := v.perez.luminanceCircumsolar
  let front := if v.aoiFront ≤ 90 then v.perez.poaCircumsolar else 0
  let back := if ¬ v.aoiFront ≤ 90 then poaCircumsolarBack v else 0
  { groundIllum := gnd, groundShaded := throughModules q gnd
    frontIllum := front, frontShaded := throughModules q front
    backIllum := back, backShaded := throughModules q back }

/-- `self.horizon` of PV rows: pvfactors/irradiance/models.py lines 607-608, 1014. -/
def poaHorizonUsed (v : IrrIn) : ℝ := |v.perez.poaHorizon|

/-- fAOI modifier of direct and circumsolar light on the front:
pvfactors/irradiance/models.py lines 373, 376-379, 1039, 1042-1054. -/
def faoiDirectFront (q : IrrParams) (v : IrrIn) : ℝ :=
  match q.faoiFront with
  | some f => f |90 - v.aoiFront|
  | none => 1 - q.rhoFront

/-- fAOI modifier of direct and circumsolar light on the back:
pvfactors/irradiance/models.py lines 374, 382-385, 1040, 1057-1069. -/
def faoiDirectBack (q : IrrParams) (v : IrrIn) : ℝ :=
  match q.faoiBack with
  | some f => f |90 - v.aoiBack|
  | none => 1 - q.rhoBack

/-- fAOI modifier of horizon light on the front: pvfactors/irradiance/models.py lines 1042-1054. -/
def faoiHorizonFront (q : IrrParams) (v : IrrIn) : ℝ :=
  match q.faoiFront with
  | some f => f v.surfaceTilt
  | none => 1 - q.rhoFront

/-- fAOI modifier of horizon light on the back: pvfactors/irradiance/models.py lines 1057-1069. -/
def faoiHorizonBack (q : IrrParams) (v : IrrIn) : ℝ :=
  match q.faoiBack with
  | some f => f v.surfaceTilt
  | none => 1 - q.rhoBack

/-- What an irradiance model provides at one time step after `fit` and `transform`: parameters of
each timeseries surface and the vectors used by the two engine modes. -/
structure IrrStep where
  /-- values of the parameters listed in `irradiance_comp` -/
  comp : SurfRef → List ℝ
  /-- values of the parameters listed in `irradiance_comp_absorbed` -/
  compAbs : SurfRef → List ℝ
  rho : SurfRef → ℝ
  invRho : SurfRef → ℝ
  totalPerez : SurfRef → ℝ
  /-- `isotropic_luminance`, also property `sky_luminance` -/
  sky : ℝ
  albedo : ℝ
  rhoFront : ℝ
  /-- properties `gnd_shaded`, `gnd_illum`, `pvrow_shaded`, `pvrow_illum` -/
  gndShaded : ℝ
  gndIllum : ℝ
  pvrowShaded : ℝ
  pvrowIllum : ℝ

/-- The value of a `Cats` record that belongs to a surface. -/
def Cats.get (c : Cats) : SurfRef → ℝ
  | .gnd true _ _ => c.groundShaded
  | .gnd false _ _ => c.groundIllum
  | .pv _ .front _ true => c.frontShaded
  | .pv _ .front _ false => c.frontIllum
  | .pv _ .back _ true => c.backShaded
  | .pv _ .back _ false => c.backIllum

/-- Reflectivity given to a surface by `transform`: pvfactors/irradiance/models.py lines 199-252,
640-746. -/
def rhoOf (q : IrrParams) (v : IrrIn) : SurfRef → ℝ
  | .gnd _ _ _ => v.albedo
  | .pv _ .front _ _ => q.rhoFront
  | .pv _ .back _ _ => q.rhoBack

/-- fAOI modifier of direct and circumsolar light of a surface; `faoi_ground` is `1 - albedo`
(pvfactors/irradiance/models.py lines 388, 1072). -/
def faoiDirectOf (q : IrrParams) (v : IrrIn) : SurfRef → ℝ
  | .gnd _ _ _ => 1 - v.albedo
  | .pv _ .front _ _ => faoiDirectFront q v
  | .pv _ .back _ _ => faoiDirectBack q v

/-- `IsotropicOrdered.fit` and `transform` at one time step: pvfactors/irradiance/models.py
lines 84-252 and the properties in lines 327-352. -/
def isotropicStep (q : IrrParams) (v : IrrIn) : IrrStep :=
  let direct := directCats q v
  let frontIllumPerez := v.poaGlobal
  let frontShadedPerez := v.poaGlobal - direct.frontIllum
  let groundShadedPerez := v.dhi + direct.groundShaded
  { comp := fun a => [direct.get a]
    compAbs := fun a => [faoiDirectOf q v a * direct.get a]
    rho := rhoOf q v
    invRho := fun a => 1 / rhoOf q v a
    totalPerez := fun a => match a with
      | .gnd true _ _ => groundShadedPerez
      | .gnd false _ _ => v.ghiUsed
      | .pv _ .front _ true => frontShadedPerez
      | .pv _ .front _ false => frontIllumPerez
      | .pv _ .back _ _ => 0
    sky := v.dhi
    albedo := v.albedo
    rhoFront := q.rhoFront
    gndShaded := groundShadedPerez
    gndIllum := v.ghiUsed
    pvrowShaded := frontShadedPerez
    pvrowIllum := frontIllumPerez }

/-- Elevation angle in degrees of the highest point of a row seen from a point:
pvfactors/irradiance/models.py lines 876-880 and 887-891.  If the highest point is exactly above the
point, numpy divides by zero and gives 90 degrees; the model gives 0. -/
def shadingAngleTo (row : Line) (pt : Pt) : ℝ :=
  rad2deg |Real.arctan ((row.highest.y - pt.y) / (row.highest.x - pt.x))|

/-- `_calculate_horizon_shading_pct_ts`: pvfactors/irradiance/models.py lines 847-902. -/
def horizonShadingPct (q : IrrParams) (p : ArrayParams) (g : StepGeom) (pt : Pt) (pvrowIdx : ℕ)
    (isBackSide : Bool) : ℝ :=
  open Classical in
  let left := if pvrowIdx = 0 then 0
    else horizonBandShading (shadingAngleTo (g.row (pvrowIdx - 1)).full pt) q.horizonBandAngle
  let right := if pvrowIdx = p.nRows - 1 then 0
    else horizonBandShading (shadingAngleTo (g.row (pvrowIdx + 1)).full pt) q.horizonBandAngle
  if isBackSide then (if g.rot.deg > 0 then right else left)
  else (if g.rot.deg > 0 then left else right)

/-- The parameter `horizon` given to a surface by `HybridPerezOrdered.transform`:
pvfactors/irradiance/models.py lines 649, 660, 676, 689, 702-711, 726-734. -/
def horizonOf (q : IrrParams) (p : ArrayParams) (g : StepGeom) (v : IrrIn) : SurfRef → ℝ
  | .gnd _ _ _ => 0
  | .pv _ .front _ _ => poaHorizonUsed v
  | .pv r .back k sh =>
    poaHorizonUsed v
      * (1 - horizonShadingPct q p g (g.coords (.pv r .back k sh)).centroid r true / 100)

/-- The parameter `horizon_absorbed`: pvfactors/irradiance/models.py lines 656, 667, 684-685,
697-698, 721-723, 744-746. -/
def horizonAbsOf (q : IrrParams) (p : ArrayParams) (g : StepGeom) (v : IrrIn) : SurfRef → ℝ
  | .gnd _ _ _ => 0
  | .pv _ .front _ _ => faoiHorizonFront q v * poaHorizonUsed v
  | .pv r .back k sh =>
    faoiHorizonBack q v * poaHorizonUsed v
      * (1 - horizonShadingPct q p g (g.coords (.pv r .back k sh)).centroid r true / 100)

/-- `HybridPerezOrdered.fit` and `transform` at one time step: pvfactors/irradiance/models.py
lines 480-746 and the properties in lines 820-845. -/
def hybridPerezStep (q : IrrParams) (p : ArrayParams) (g : StepGeom) (v : IrrIn) : IrrStep :=
  let direct := directCats q v
  let circ := circumsolarCats q v
  let frontIllumPerez := v.poaGlobal
  let frontShadedPerez := v.poaGlobal - direct.frontIllum - circ.frontIllum
    + direct.frontShaded + circ.frontShaded
  let groundShadedPerez := v.dhi - circ.groundIllum + circ.groundShaded + direct.groundShaded
  { comp := fun a => [direct.get a, circ.get a, horizonOf q p g v a]
    compAbs := fun a => [faoiDirectOf q v a * direct.get a, faoiDirectOf q v a * circ.get a,
      horizonAbsOf q p g v a]
    rho := rhoOf q v
    invRho := fun a => 1 / rhoOf q v a
    totalPerez := fun a => match a with
      | .gnd true _ _ => groundShadedPerez
      | .gnd false _ _ => v.ghiUsed
      | .pv _ .front _ true => frontShadedPerez
      | .pv _ .front _ false => frontIllumPerez
      | .pv _ .back _ _ => 0
    sky := v.perez.luminanceIsotropic
    albedo := v.albedo
    rhoFront := q.rhoFront
    gndShaded := groundShadedPerez
    gndIllum := v.ghiUsed
    pvrowShaded := frontShadedPerez
    pvrowIllum := frontIllumPerez }

/-! ## irradiance/base.py -/

/-- The loop `for component in ...: value += ...` starting from zero:
pvfactors/irradiance/base.py lines 84-86, 117-119, 134-136. -/
def sumComponents (l : List ℝ) : ℝ := l.foldl (fun value c => value + c) 0

/-- `BaseModel.initialize_rho`: pvfactors/irradiance/base.py lines 139-165.  `none` stands for a
value that is not a scalar (such as `None`). -/
def initializeRho (rhoScalar rhoCalculated : Option ℝ) (default : ℝ) : ℝ :=
  match rhoScalar with
  | some r => r
  | none => match rhoCalculated with
    | some r => r
    | none => default

end
end PVF
