import Verif.Model.Irradiance
import Mathlib.MeasureTheory.Integral.IntervalIntegral.Basic
import Mathlib.Analysis.SpecialFunctions.ExpDeriv

/-!
# Circumsolar shading (irradiance/utils.py and irradiance/models.py)

The method `_calculate_circumsolar_shading_pct` is not called by the time series code; it is part of
the interface of `HybridPerezOrdered`.
-/

namespace PVF
noncomputable section

/-- `math.erf` (Python standard library, external): the error function. -/
def erf (x : ℝ) : ℝ := 2 / Real.sqrt Real.pi * ∫ t in (0:ℝ)..x, Real.exp (-t ^ 2)

/-- pvfactors/config.py line 37. -/
def SIGMA : ℝ := 1 / Real.sqrt 2

/-- pvfactors/config.py line 38. -/
def N_SIGMA : ℝ := 3

/-- pvfactors/config.py line 39. -/
def GAUSSIAN_DIAMETER : ℝ := 2 * N_SIGMA * SIGMA

/-- `integral_default_gaussian`: pvfactors/irradiance/utils.py lines 211-227. -/
def integralDefaultGaussian (y x : ℝ) : ℝ := 0.5 * (erf x - erf y)

/-- `gaussian_shading`: pvfactors/irradiance/utils.py lines 230-260. -/
def gaussianShading (percentageDistanceCovered : ℝ) : ℝ :=
  if percentageDistanceCovered < 0 then 0
  else if percentageDistanceCovered > 100 then 100
  else
    let y := -N_SIGMA * SIGMA
    let x := y + percentageDistanceCovered / 100 * GAUSSIAN_DIAMETER
    let area := integralDefaultGaussian y x
    let totalGaussianArea := integralDefaultGaussian (-N_SIGMA * SIGMA) (N_SIGMA * SIGMA)
    area / totalGaussianArea * 100

/-- `gaussian`: pvfactors/irradiance/utils.py lines 263-282. -/
def gaussianDensity (x mu sigma : ℝ) : ℝ :=
  1 / (sigma * Real.sqrt (2 * Real.pi)) * Real.exp (-0.5 * ((x - mu) / sigma) ^ 2)

/-- `calculate_circumsolar_shading`: pvfactors/irradiance/utils.py lines 175-208.  `none` stands for
the `PVFactorsError` raised for an unknown model. -/
def circumsolarShading (percentageDistanceCovered : ℝ) (model : String) : Option ℝ :=
  if model = "uniform_disk" then some (uniformDiskShading percentageDistanceCovered)
  else if model = "gaussian" then some (gaussianShading percentageDistanceCovered)
  else none

/-- `_calculate_circumsolar_shading_pct`: pvfactors/irradiance/models.py lines 904-947, given the
centroid of the surface and the highest points of the rows.  `none` stands for an exception: for
`idx_neighbor = None`, which is documented as allowed, the local variable that is returned has no
value; and for an unknown model.  A sun exactly above the axis (horizontal component 0, a division
by zero in the code) is not modelled. -/
def circumsolarShadingPct (circumsolarAngle : ℝ) (circumsolarModel : String) (centroid : Pt)
    (idxNeighbor : Option ℕ) (highestPoint : ℕ → Pt) (solar2dVector : Pt) : Option ℝ :=
  match idxNeighbor with
  | none => none
  | some i =>
    let solar2dElevation := |Real.arctan (solar2dVector.y / solar2dVector.x)| * 180 / Real.pi
    let lowerAngleCircumsolar := solar2dElevation - circumsolarAngle / 2
    let neighborPoint := highestPoint i
    let shadingAngle := |Real.arctan ((neighborPoint.y - centroid.y)
      / (neighborPoint.x - centroid.x))| * 180 / Real.pi
    let percentageCircAngleCovered :=
      (shadingAngle - lowerAngleCircumsolar) / circumsolarAngle * 100
    circumsolarShading percentageCircAngleCovered circumsolarModel

end
end PVF
