import Mathlib.Analysis.SpecialFunctions.Complex.Arg
import Mathlib.Analysis.SpecialFunctions.Trigonometric.Basic

/-!
# Numbers, constants and numpy primitives

Floating point numbers are modelled by real numbers (no rounding, no NaN).
-/

namespace PVF
noncomputable section

/-- `np.deg2rad` (numpy, external): degrees to radians. -/
def deg2rad (x : ℝ) : ℝ := x * Real.pi / 180

/-- `np.rad2deg` (numpy, external): radians to degrees. -/
def rad2deg (x : ℝ) : ℝ := x * 180 / Real.pi

/-- `pvlib.tools.cosd` (pvlib, external), imported in pvrow.py, base.py, vfmethods.py and
aoimethods.py: cosine of an angle in degrees. -/
def cosd (x : ℝ) : ℝ := Real.cos (deg2rad x)

/-- `pvlib.tools.sind` (pvlib, external): sine of an angle in degrees. -/
def sind (x : ℝ) : ℝ := Real.sin (deg2rad x)

/-- `np.arctan2(y, x)` (numpy, external) for finite arguments, as the argument of the complex
number `x + i y`.  Signed zeros of the arguments are not modelled. -/
def arctan2 (y x : ℝ) : ℝ := Complex.arg ⟨x, y⟩

/-- Python and numpy `%` on floats with a positive modulus (external): the result lies in
`[0, b)`. -/
def pyMod (a b : ℝ) : ℝ := a - b * ⌊a / b⌋

/-- `np.clip(x, lo, hi)` (numpy, external): `np.minimum(np.maximum(x, lo), hi)`. -/
def clip (x lo hi : ℝ) : ℝ := min (max x lo) hi

/-- pvfactors/config.py line 32, `DISTANCE_TOLERANCE = 1e-8`. -/
def TOL : ℝ := 1 / 100000000

/-- pvfactors/config.py line 10, `MIN_X_GROUND = - MAX_X_GROUND`. -/
def MIN_X : ℝ := -100

/-- pvfactors/config.py line 9, `MAX_X_GROUND = 1e2`. -/
def MAX_X : ℝ := 100

/-- pvfactors/config.py line 11, `Y_GROUND = 0.` -/
def Y_GROUND : ℝ := 0

/-- pvfactors/config.py line 14, `X_ORIGIN_PVROWS = 0.` -/
def X_ORIGIN : ℝ := 0

/-- Float values that may be infinite (no NaN): only needed for ground cut points, which are
infinite when the PV rows are flat (pvground.py lines 121-123). -/
inductive XR where
  | negInf : XR
  | fin : ℝ → XR
  | posInf : XR

end
end PVF
