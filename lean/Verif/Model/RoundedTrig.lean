import Verif.Model.Rounded

/-!
# From the inputs to the coordinates with rounding (geometry/base.py, geometry/pvarray.py)

Angles and trigonometric functions are computed with errors, too, in the order in which the code uses
them.
-/

namespace PVF
noncomputable section

/-- Operations and trigonometric functions with relative errors of at most `ε` (numpy, external).
`mod x` is `x % 360.`, whose error is relative to the modulus.  The tangent may have the value for an
argument that is a little different: numbers of 64 bits are never odd multiples of a right angle. -/
structure TrigArith (ε : ℝ) extends Arith ε where
  sin : ℝ → ℝ
  cos : ℝ → ℝ
  tan : ℝ → ℝ
  deg2rad : ℝ → ℝ
  rad2deg : ℝ → ℝ
  mod : ℝ → ℝ
  sin_err : ∀ x, |sin x - Real.sin x| ≤ ε * |Real.sin x|
  cos_err : ∀ x, |cos x - Real.cos x| ≤ ε * |Real.cos x|
  tan_err : ∀ x, ∃ y, |y - x| ≤ ε * |x| ∧ Real.cos y ≠ 0 ∧ |tan x - Real.tan y| ≤ ε * |Real.tan y|
  deg2rad_err : ∀ x, |deg2rad x - PVF.deg2rad x| ≤ ε * |PVF.deg2rad x|
  rad2deg_err : ∀ x, |rad2deg x - PVF.rad2deg x| ≤ ε * |PVF.rad2deg x|
  mod_err : ∀ x, |mod x - pyMod x 360| ≤ ε * 360

namespace TrigArith
variable {ε : ℝ} (A : TrigArith ε)

/-- `pvlib.tools.cosd` (pvlib, external): `np.cos(np.radians(angle))`. -/
def cosd (x : ℝ) : ℝ := A.cos (A.deg2rad x)

/-- `pvlib.tools.sind` (pvlib, external): `np.sin(np.radians(angle))`. -/
def sind (x : ℝ) : ℝ := A.sin (A.deg2rad x)

/-- `_get_rotation_from_tilt_azimuth`: pvfactors/geometry/base.py lines 98-126 (see
`PVF.rotationFromTiltAzimuth`). -/
def rotation (surfaceAzimuth axisAzimuth tilt : ℝ) : Rot :=
  let isPointingRight := A.mod (A.sub surfaceAzimuth axisAzimuth) > 180
  let rotation : Rot := if isPointingRight then ⟨tilt, false⟩ else ⟨-tilt, true⟩
  if tilt = 0 then ⟨0, true⟩ else rotation

/-- `_get_solar_2d_vectors`: pvfactors/geometry/base.py lines 129-159 (see `PVF.solar2dVector`). -/
def sun (solarZenith solarAzimuth axisAzimuth : ℝ) : Pt :=
  ⟨A.mul (A.sind solarZenith) (A.cosd (A.sub (A.sub solarAzimuth axisAzimuth) 90)),
    A.cosd solarZenith⟩

/-- The trigonometric functions of rotation and sun angle: pvfactors/geometry/pvarray.py lines 242-248,
pvfactors/geometry/pvrow.py lines 96-122 and 282-301, pvfactors/geometry/pvground.py lines 97 and
110-122. -/
def trig (rot alpha : ℝ) : Trig where
  cs := A.cosd rot
  sn := A.sind rot
  cs180 := A.cosd (A.add rot 180)
  sn180 := A.sind (A.add rot 180)
  tanSun := A.tan alpha
  tanRot := A.tan (A.deg2rad rot)
  sinTheta := A.sin (A.deg2rad (A.sub 90 rot))
  cosTheta := A.cos (A.deg2rad (A.sub 90 rot))
  tanBeta := A.tan (A.deg2rad (A.add (A.sub 90 rot) (A.rad2deg alpha)))

/-- `OrderedPVArray.fit` at one time step: pvfactors/geometry/pvarray.py lines 130-178 (see
`PVF.fitStep`). -/
def fitStep (p : ArrayParams) (u : StepIn) : StepGeom :=
  let rot := A.rotation u.surfaceAzimuth p.axisAzimuth u.surfaceTilt
  let sun := A.sun u.solarZenith u.solarAzimuth p.axisAzimuth
  A.fitGeom p rot sun (A.trig rot.deg (A.atan2 sun.y sun.x))

end TrigArith
end
end PVF
