import Verif.Model.AOI
import Verif.Model.RoundedTrig

/-!
# View factors with angle-of-incidence losses and rounding (viewfactors/aoimethods.py)
-/

namespace PVF
noncomputable section

/-- `aoi_angles_low`, `aoi_angles_high` and `integrand_front` or `integrand_back` as they were computed:
pvfactors/viewfactors/aoimethods.py lines 61-82 (see `TrigArith.aoiTable`). -/
structure AoiTable where
  low : ℕ → ℝ
  high : ℕ → ℝ
  integrand : ℕ → ℝ

namespace Arith
variable {ε : ℝ} (A : Arith ε)

/-- `_calculate_vf_aoi_wedge_level` with `_calculate_vfaoi_integrand`:
pvfactors/viewfactors/aoimethods.py lines 468-540.  The terms of the sum are added in the order `T`. -/
def vfAoiWedge (T : SumTree) (tab : AoiTable) (lowAngle highAngle : ℝ) : ℝ :=
  open Classical in
  let total := A.sum (fun k =>
    if lowAngle ≤ tab.high k ∧ highAngle > tab.low k then tab.integrand k else 0) T
  if |A.sub highAngle lowAngle| < TOL then 0 else total

/-- The wedge between two angles in any order: pvfactors/viewfactors/aoimethods.py lines 317-323,
399-404. -/
def vfAoiAngles (T : SumTree) (tab : AoiTable) (angle1 angle2 : ℝ) : ℝ :=
  A.vfAoiWedge T tab (if angle1 < angle2 then angle1 else angle2) (if angle1 < angle2 then angle2 else angle1)

/-- `aoi_angles[k]`: pvfactors/viewfactors/aoimethods.py lines 61, 628.  `np.linspace(0., 180., num=n + 1)` (numpy)
multiplies `k` with the step and adds the start; its last entry is not used. -/
def aoiAngles (n k : ℕ) : ℝ := A.add (A.mul k (A.div 180 n)) 0

/-- `interval`: pvfactors/viewfactors/aoimethods.py lines 63, 630. -/
def aoiStep (n : ℕ) : ℝ := A.sub (A.aoiAngles n 1) (A.aoiAngles n 0)

/-- `aoi_angles_middle[k]`: pvfactors/viewfactors/aoimethods.py lines 67, 634. -/
def aoiMid (n k : ℕ) : ℝ := A.add (A.aoiAngles n k) (A.div (A.aoiStep n) 2)

end Arith

namespace TrigArith
variable {ε : ℝ} (A : TrigArith ε)

/-- `AOIMethods._vf`: pvfactors/viewfactors/aoimethods.py lines 574-594. -/
def vfBand (aoi1 aoi2 : ℝ) : ℝ := A.mul 0.5 |A.sub (A.cosd aoi1) (A.cosd aoi2)|

/-- The table for the computed fAOI function `f` in `AOIMethods.fit` and `rho_from_faoi_fn`:
pvfactors/viewfactors/aoimethods.py lines 61-75, 628-641. -/
def aoiTable (f : ℝ → ℝ) (n : ℕ) : AoiTable where
  low := A.aoiAngles n
  high k := A.add (A.aoiAngles n k) (A.aoiStep n)
  integrand k := A.mul (f (A.aoiMid n k))
    (A.vfBand (A.aoiAngles n k) (A.add (A.aoiAngles n k) (A.aoiStep n)))

/-- `AOIMethods.rho_from_faoi_fn`: pvfactors/viewfactors/aoimethods.py lines 614-644. -/
def rhoFromFaoi (T : SumTree) (f : ℝ → ℝ) (n : ℕ) : ℝ := A.sub 1 (A.sum (A.aoiTable f n).integrand T)

end TrigArith
end
end PVF
