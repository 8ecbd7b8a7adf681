import Verif.Model.RoundedAoi
import Verif.Model.RoundedIrr
import Verif.Model.AOI

/-!
# Angles of AOI methods with rounding (viewfactors/aoimethods.py)
-/

namespace PVF
noncomputable section

namespace Arith
variable {ε : ℝ} (A : Arith ε)

/-- `np.linalg.norm` of a vector with two components (numpy): root of the sum of squares. -/
def norm (x y : ℝ) : ℝ := A.sqrt (A.add (A.mul x x) (A.mul y y))

/-- `cos_theta` before clipping: pvfactors/viewfactors/aoimethods.py lines 562-567. -/
def cosTheta (u centroid point : Pt) : ℝ :=
  let vx := A.sub point.x centroid.x
  let vy := A.sub point.y centroid.y
  let dotProduct := A.add (A.mul u.x vx) (A.mul u.y vy)
  A.div dotProduct (A.mul (A.norm u.x u.y) (A.norm vx vy))

end Arith

namespace LightArith
variable {ε : ℝ} (A : LightArith ε)

/-- `AOIMethods._calculate_aoi_angles`: pvfactors/viewfactors/aoimethods.py lines 542-572 (see `PVF.aoiAngle`). -/
def aoiAngle (u centroid point : Pt) : ℝ := A.rad2deg (A.acos (clip (A.cosTheta u centroid point) (-1) 1))

/-- `AOIMethods._calculate_aoi_angles_w_obstruction`: pvfactors/viewfactors/aoimethods.py lines 420-466, 596-612 (see
`PVF.aoiAngleObstr`). -/
def aoiAngleObstr (u centroid pointGnd pointObstr : Pt) (gndSurfIsLeft : Bool) : ℝ :=
  let alphaPv := A.angle pointGnd centroid
  let alphaOb := A.angle pointGnd pointObstr
  let isObstructing := if gndSurfIsLeft then alphaPv > alphaOb else alphaPv < alphaOb
  open Classical in
  let point : Pt := ⟨if isObstructing then pointObstr.x else pointGnd.x,
    if isObstructing then pointObstr.y else pointGnd.y⟩
  A.aoiAngle u centroid point

/-- The view factor for the wedge between two points in `AOIMethods._vf_aoi_surface_to_surface`:
pvfactors/viewfactors/aoimethods.py lines 313-325. -/
def vfAoiPoints (T : SumTree) (tab : AoiTable) (u centroid b1 b2 : Pt) : ℝ :=
  A.vfAoiAngles T tab (A.aoiAngle u centroid b1) (A.aoiAngle u centroid b2)

end LightArith
end
end PVF
