import Verif.Model.RoundedFast
import Verif.Model.Irradiance

/-!
# Irradiance models with rounding (irradiance/models.py, irradiance/utils.py)

The formulas of `fit` and `transform` of both irradiance models (see `Verif.Model.Irradiance`), written with
the operations of an arithmetic that has rounding errors, in the order in which the code uses them.  Values
from pvlib other than the angle of incidence (`poa_global` and the columns of the Perez model) are given.
Absorbed components are left out.
-/

namespace PVF
noncomputable section

/-- Operations and functions with relative errors of at most `ε`, including arcus functions (numpy,
external).  Nothing is said about `arccos` outside of its domain, where numpy gives NaN. -/
structure LightArith (ε : ℝ) extends TrigArith ε where
  acos : ℝ → ℝ
  atan : ℝ → ℝ
  acos_err : ∀ x, |x| ≤ 1 → |acos x - Real.arccos x| ≤ ε * |Real.arccos x|
  atan_err : ∀ x, |atan x - Real.arctan x| ≤ ε * |Real.arctan x|

/-- What both engine modes take from an irradiance model, apart from given numbers: components of the light
on surfaces and the properties `gnd_shaded`, `gnd_illum`, `pvrow_shaded`, `pvrow_illum`
(pvfactors/irradiance/models.py lines 327-352, 820-845). -/
structure LightTerms where
  comp : SurfRef → List ℝ
  gndShaded : ℝ
  gndIllum : ℝ
  pvrowShaded : ℝ
  pvrowIllum : ℝ

namespace LightArith
variable {ε : ℝ} (A : LightArith ε)

/-- `pvlib.irradiance.aoi_projection` (pvlib, external; see `PVF.aoiProjection`). -/
def aoiProjection (surfaceTilt surfaceAzimuth solarZenith solarAzimuth : ℝ) : ℝ :=
  A.add (A.mul (A.cosd surfaceTilt) (A.cosd solarZenith))
    (A.mul (A.mul (A.sind surfaceTilt) (A.sind solarZenith))
      (A.cosd (A.sub solarAzimuth surfaceAzimuth)))

/-- `aoi_front_pvrow`: pvfactors/irradiance/models.py lines 150-151, 1003-1004, with
`pvlib.irradiance.aoi` (pvlib, external). -/
def aoiFront (v : IrrIn) : ℝ :=
  A.rad2deg (A.acos (A.aoiProjection v.surfaceTilt v.surfaceAzimuth v.solarZenith v.solarAzimuth))

/-- `aoi_back_pvrow`: pvfactors/irradiance/models.py lines 152, 1005. -/
def aoiBack (v : IrrIn) : ℝ := A.sub 180 (A.aoiFront v)

/-- `ghi`: pvfactors/irradiance/models.py lines 128, 536. -/
def ghiUsed (v : IrrIn) : ℝ := v.ghi.getD (A.add (A.mul v.dni (A.cosd v.solarZenith)) v.dhi)

/-- Light through module spacing and transparency, e.g. pvfactors/irradiance/models.py
lines 142-147. -/
def throughModules (q : IrrParams) (x : ℝ) : ℝ :=
  A.add (A.mul x q.moduleSpacingRatio)
    (A.mul (A.mul x (A.sub 1 q.moduleSpacingRatio)) q.moduleTransparency)

/-- `self.direct`: pvfactors/irradiance/models.py lines 140-147, 158-178 and 549-556, 566-586 (see
`PVF.directCats`). -/
def directCats (q : IrrParams) (v : IrrIn) : Cats :=
  open Classical in
  let gnd := A.mul v.dni (A.cosd v.solarZenith)
  let front := if A.aoiFront v ≤ 90 then A.mul v.dni (A.cosd (A.aoiFront v)) else 0
  let back := if ¬ A.aoiFront v ≤ 90 then A.mul v.dni (A.cosd (A.aoiBack v)) else 0
  { groundIllum := gnd, groundShaded := A.throughModules q gnd
    frontIllum := front, frontShaded := A.throughModules q front
    backIllum := back, backShaded := A.throughModules q back }

/-- `poa_circumsolar_back`: pvfactors/irradiance/models.py lines 1009-1011. -/
def poaCircumsolarBack (v : IrrIn) : ℝ :=
  A.mul v.perez.luminanceCircumsolar (A.div (A.cosd (A.aoiBack v)) (A.cosd v.solarZenith))

/-- `self.circumsolar`: pvfactors/irradiance/models.py lines 557-563, 587-605 (see
`PVF.circumsolarCats`). -/
def circumsolarCats (q : IrrParams) (v : IrrIn) : Cats :=
  open Classical in
  let gnd := v.perez.luminanceCircumsolar
  let front := if A.aoiFront v ≤ 90 then v.perez.poaCircumsolar else 0
  let back := if ¬ A.aoiFront v ≤ 90 then A.poaCircumsolarBack v else 0
  { groundIllum := gnd, groundShaded := A.throughModules q gnd
    frontIllum := front, frontShaded := A.throughModules q front
    backIllum := back, backShaded := A.throughModules q back }

/-- `IsotropicOrdered.fit` and `transform` at one time step: pvfactors/irradiance/models.py lines 84-252
and the properties in lines 327-352 (see `PVF.isotropicStep`). -/
def isotropicLight (q : IrrParams) (v : IrrIn) : LightTerms :=
  let direct := A.directCats q v
  { comp := fun a => [direct.get a]
    gndShaded := A.add v.dhi direct.groundShaded
    gndIllum := A.ghiUsed v
    pvrowShaded := A.sub v.poaGlobal direct.frontIllum
    pvrowIllum := v.poaGlobal }

/-- `TsLineCoords.centroid`: pvfactors/geometry/timeseries.py lines 313-318. -/
def centroid (l : Line) : Pt :=
  let dy := A.sub l.b2.y l.b1.y
  let dx := A.sub l.b2.x l.b1.x
  ⟨A.add l.b1.x (A.mul 0.5 dx), A.add l.b1.y (A.mul 0.5 dy)⟩

/-- Elevation angle in degrees of the highest point of a row seen from a point:
pvfactors/irradiance/models.py lines 876-880 and 887-891. -/
def shadingAngleTo (row : Line) (pt : Pt) : ℝ :=
  A.rad2deg |A.atan (A.div (A.sub row.highest.y pt.y) (A.sub row.highest.x pt.x))|

/-- `calculate_horizon_band_shading`: pvfactors/irradiance/utils.py lines 346-368. -/
def horizonBandShading (shadingAngle horizonBandAngle : ℝ) : ℝ :=
  let percent := if shadingAngle ≥ horizonBandAngle then 100 else 0
  if shadingAngle ≥ 0 ∧ shadingAngle < horizonBandAngle then
    A.div (A.mul 100 shadingAngle) horizonBandAngle
  else percent

/-- `_calculate_horizon_shading_pct_ts` for the back: pvfactors/irradiance/models.py lines 847-902. -/
def horizonShadingPct (q : IrrParams) (p : ArrayParams) (g : StepGeom) (pt : Pt) (pvrowIdx : ℕ) : ℝ :=
  open Classical in
  let left := if pvrowIdx = 0 then 0
    else A.horizonBandShading (A.shadingAngleTo (g.row (pvrowIdx - 1)).full pt) q.horizonBandAngle
  let right := if pvrowIdx = p.nRows - 1 then 0
    else A.horizonBandShading (A.shadingAngleTo (g.row (pvrowIdx + 1)).full pt) q.horizonBandAngle
  if g.rot.deg > 0 then right else left

/-- The parameter `horizon` given to a surface by `HybridPerezOrdered.transform`:
pvfactors/irradiance/models.py lines 649, 660, 676, 689, 702-711, 726-734. -/
def horizonOf (q : IrrParams) (p : ArrayParams) (g : StepGeom) (v : IrrIn) : SurfRef → ℝ
  | .gnd _ _ _ => 0
  | .pv _ .front _ _ => poaHorizonUsed v
  | .pv r .back k sh =>
    A.mul (poaHorizonUsed v)
      (A.sub 1 (A.div (A.horizonShadingPct q p g (A.centroid (g.coords (.pv r .back k sh))) r) 100))

/-- `HybridPerezOrdered.fit` and `transform` at one time step: pvfactors/irradiance/models.py
lines 480-746 and the properties in lines 820-845 (see `PVF.hybridPerezStep`). -/
def hybridLight (q : IrrParams) (p : ArrayParams) (g : StepGeom) (v : IrrIn) : LightTerms :=
  let direct := A.directCats q v
  let circ := A.circumsolarCats q v
  { comp := fun a => [direct.get a, circ.get a, A.horizonOf q p g v a]
    gndShaded := A.add (A.add (A.sub v.dhi circ.groundIllum) circ.groundShaded) direct.groundShaded
    gndIllum := A.ghiUsed v
    pvrowShaded := A.add (A.add (A.sub (A.sub v.poaGlobal direct.frontIllum) circ.frontIllum)
      direct.frontShaded) circ.frontShaded
    pvrowIllum := v.poaGlobal }

end LightArith
end
end PVF
