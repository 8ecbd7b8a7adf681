import Verif.Model.Irradiance
import Verif.Spec.Light

/-! # Elevation over the plane of the modules -/

namespace PVF

/-- `x` is the angle in degrees, between 0 and 90, between a plane and a direction whose cosine with
the normal of the plane is `c`. -/
def IsElevation (c x : ℝ) : Prop := 0 ≤ x ∧ x ≤ 90 ∧ sind x = |c|

/-- fAOI function of a side. -/
def IrrParams.faoi (q : IrrParams) : RowSide → Option (ℝ → ℝ)
  | .front => q.faoiFront
  | .back => q.faoiBack

/-- Reflectivity of a side. -/
def IrrParams.rhoSide (q : IrrParams) : RowSide → ℝ
  | .front => q.rhoFront
  | .back => q.rhoBack

end PVF
