import Verif.Model.Line

/-!
# Rotation of the rows and sun vector (geometry/base.py)
-/

namespace PVF
noncomputable section

/-- A rotation angle in degrees as stored in `rotation_vec`.  `negZero` is only meaningful when
`deg = 0` and says whether the stored float is `-0.0`; it decides the sign of an infinite
ground cut point. -/
structure Rot where
  deg : ℝ
  negZero : Bool

/-- `_get_rotation_from_tilt_azimuth`: pvfactors/geometry/base.py lines 98-126 (one time step).
`np.where(is_pointing_right, tilt, -tilt)` and then `rotation[tilt == 0] = -0.0`. -/
def rotationFromTiltAzimuth (surfaceAzimuth axisAzimuth tilt : ℝ) : Rot :=
  let isPointingRight := pyMod (surfaceAzimuth - axisAzimuth) 360 > 180
  let rotation : Rot := if isPointingRight then ⟨tilt, false⟩ else ⟨-tilt, true⟩
  if tilt = 0 then ⟨0, true⟩ else rotation

/-- `_get_solar_2d_vectors`: pvfactors/geometry/base.py lines 129-159 (one time step). -/
def solar2dVector (solarZenith solarAzimuth axisAzimuth : ℝ) : Pt :=
  ⟨sind solarZenith * cosd (solarAzimuth - axisAzimuth - 90), cosd solarZenith⟩

end
end PVF
