import Verif.Spec.Sun
import Verif.Model.PVArray

/-! # How much of a side of a row is in the shade of its neighbour -/

namespace PVF

/-- The side of the rows faces to the left: the fronts face left if the rotation is positive. -/
def FacesLeft (rot : ℝ) : RowSide → Prop
  | .front => 0 < rot
  | .back => rot < 0

/-- Another row stands in front of this side of row `i`. -/
def FacesRow (n : ℕ) (rot : ℝ) (i : ℕ) (s : RowSide) : Prop :=
  (FacesLeft rot s → 0 < i) ∧ (¬ FacesLeft rot s → i + 1 < n)

/-- The sun shines on this side (if no row is in between). -/
def FacesSun (rot : ℝ) (sun : Pt) : RowSide → Prop
  | .front => 0 < frontDotSun rot sun
  | .back => frontDotSun rot sun < 0

/-- How far to the side to which `s` faces the sun stands, relative to its height above the
horizon: cotangent of the elevation in the plane perpendicular to the axis, negative if the sun is
on the other side. -/
noncomputable def sunLowness (rot : ℝ) (sun : Pt) (s : RowSide) : ℝ :=
  open Classical in if FacesLeft rot s then - sun.x / sun.y else sun.x / sun.y

/-- The shade that neighbouring rows throw on each other, if there is any, is longer than the
tolerance of the package (1e-8 m).  Seen from the sun a row covers a strip as wide as its width times
the cosine of incidence, and rows are apart by their distance times the height of the sun. -/
def ShadeOk (p : ArrayParams) (rot : ℝ) (sun : Pt) : Prop :=
  p.nRows ≤ 1 ∨ p.width * |frontDotSun rot sun| ≤ p.width / p.gcr * |sun.y| ∨
    p.width / p.gcr * |sun.y| < (p.width - TOL) * |frontDotSun rot sun|

/-- The time step is one with tilted modules, the sun up and not in the plane of the modules. -/
structure ShadeStep (p : ArrayParams) (u : StepIn) : Prop where
  tilt_pos : 0 < u.surfaceTilt
  tilt_lt : u.surfaceTilt < 180
  sun_up : 0 < (fitStep p u).sun.y
  not_edge_on : frontDotSun (fitStep p u).rot.deg (fitStep p u).sun ≠ 0

end PVF
