import Verif.Spec.RoundedScene
import Verif.Spec.Physical
import Verif.Model.RoundedTrig

/-!
# Inputs for which the computed scene is exact up to small errors
-/

namespace PVF
noncomputable section

/-- The inputs of a time step stay away from the borders at which small errors have large effects: the sun
is above the horizon and not in the plane of the rows, the rows are not horizontal (all with a margin
of `1 / K`), and they look neither along nor against the axis.  Angles between directions and the axis
are at most `G` degrees. -/
structure StepMargin (p : ArrayParams) (u : StepIn) (ε K G : ℝ) : Prop where
  zenith : |u.solarZenith| ≤ 180
  azimuth : |u.solarAzimuth - p.axisAzimuth| ≤ G
  surface : |u.surfaceAzimuth - p.axisAzimuth| ≤ G
  side : ∀ k : ℤ, ε * (G + 360) < |u.surfaceAzimuth - p.axisAzimuth - 180 * k|
  high : 1 ≤ K * cosd u.solarZenith
  tilt : 1 ≤ K * |sind u.surfaceTilt|
  plane : 1 ≤ K * |frontDotSun
    (rotationFromTiltAzimuth u.surfaceAzimuth p.axisAzimuth u.surfaceTilt).deg
    (solar2dVector u.solarZenith u.solarAzimuth p.axisAzimuth)|

/-- The part of these margins that concerns the sun. -/
structure SunMargin (p : ArrayParams) (u : StepIn) (K G : ℝ) : Prop where
  one_le : 1 ≤ K
  zenith : |u.solarZenith| ≤ 180
  azimuth : |u.solarAzimuth - p.axisAzimuth| ≤ G
  high : 1 ≤ K * cosd u.solarZenith
  plane : 1 ≤ K * |frontDotSun
    (rotationFromTiltAzimuth u.surfaceAzimuth p.axisAzimuth u.surfaceTilt).deg
    (solar2dVector u.solarZenith u.solarAzimuth p.axisAzimuth)|

/-- Error of sines and cosines of computed angles. -/
def sineErr (ε G : ℝ) : ℝ := ε * (14 + G / 16)

/-- Error of all values of trigonometric functions. -/
def trigErr (ε K G : ℝ) : ℝ := 24 * sineErr ε G * K ^ 4

end
end PVF
