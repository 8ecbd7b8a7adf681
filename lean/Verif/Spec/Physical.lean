import Verif.Model.PVArray
import Verif.Spec.Shade

/-!
# Physically placed arrays

The conditions under which the two-dimensional geometry makes sense; nothing here refers to view
factors or irradiance.
-/

namespace PVF

/-- Rows have a width and a distance from each other. -/
structure PhysicalArray (p : ArrayParams) : Prop where
  width_pos : 0 < p.width
  gcr_pos : 0 < p.gcr

/-- At this time step: the tilt angle is in [0, 180) degrees, the lower edges of the rows are above
the ground, the sun is neither exactly in the horizon nor exactly in the plane of the rows, and the
shade that neighbouring rows throw on each other, if there is any, is longer than the tolerance
of the package (1e-8 m). -/
structure PhysicalStep (p : ArrayParams) (u : StepIn) : Prop where
  tilt_nonneg : 0 ≤ u.surfaceTilt
  tilt_lt : u.surfaceTilt < 180
  above : p.width / 2 * sind u.surfaceTilt < p.height
  sun_y : (solar2dVector u.solarZenith u.solarAzimuth p.axisAzimuth).y ≠ 0
  sun_front : frontDotSun
    (rotationFromTiltAzimuth u.surfaceAzimuth p.axisAzimuth u.surfaceTilt).deg
    (solar2dVector u.solarZenith u.solarAzimuth p.axisAzimuth) ≠ 0
  shade_ok : ShadeOk p
    (rotationFromTiltAzimuth u.surfaceAzimuth p.axisAzimuth u.surfaceTilt).deg
    (solar2dVector u.solarZenith u.solarAzimuth p.axisAzimuth)

end PVF
