import Verif.Spec.Moved
import Verif.Model.Rounded

/-!
# How exact the computed scene is
-/

namespace PVF
noncomputable section

/-- The computed values of trigonometric functions have errors of at most `η` (of the reciprocal for
tangents that are used as divisors); the exact tangents and cotangents are at most `K`. -/
structure TrigNear (rot alpha : ℝ) (T : Trig) (η K : ℝ) : Prop where
  cs : |T.cs - cosd rot| ≤ η
  sn : |T.sn - sind rot| ≤ η
  cs180 : |T.cs180 - cosd (rot + 180)| ≤ η
  sn180 : |T.sn180 - sind (rot + 180)| ≤ η
  tanSun : T.tanSun ≠ 0
  cotSun : |1 / T.tanSun - Real.cos alpha / Real.sin alpha| ≤ η
  tanRot : T.tanRot ≠ 0
  cotRot : |1 / T.tanRot - cosd rot / sind rot| ≤ η
  sinTheta : |T.sinTheta - Real.sin (deg2rad (90 - rot))| ≤ η
  cosTheta : |T.cosTheta - Real.cos (deg2rad (90 - rot))| ≤ η
  tanBeta : |T.tanBeta - Real.tan (deg2rad (90 - rot + rad2deg alpha))| ≤ η
  cotSun_le : |Real.cos alpha / Real.sin alpha| ≤ K
  cotRot_le : |cosd rot / sind rot| ≤ K
  tanBeta_le : |Real.tan (deg2rad (90 - rot + rad2deg alpha))| ≤ K

/-- Width, height, distance and places of the rows are at most `B`. -/
structure ArraySize (p : ArrayParams) (B : ℝ) : Prop where
  width_pos : 0 < p.width
  width : p.width ≤ B
  gcr_pos : 0 < p.gcr
  height : |p.height| ≤ B
  distance : p.distance ≤ B
  place : ∀ r < p.nRows, r * p.distance ≤ B

/-- Error of the coordinates of ends of rows and segments. -/
def endErr (ε η B : ℝ) : ℝ := (grow ε ^ 5 - 1) * (B * (3 / 2 * (1 + η) + 1)) + 3 / 2 * B * η

/-- Error of shaded lengths. -/
def shadeErr (ε η B K : ℝ) : ℝ :=
  (grow ε ^ 5 - 1) * (B * (1 + (1 + η) * (1 + K + η))) + B * (η * (2 + K + η))

/-- Error of the places of shadows and cut points. -/
def groundErr (ε η B K : ℝ) : ℝ :=
  (grow ε ^ 3 - 1) * ((3 / 2 * B + endErr ε η B) * (1 + K + η))
    + endErr ε η B * (1 + K + η) + 3 / 2 * B * η

/-- Error of all coordinates, for rows whose tilt has the sine `s`. -/
def sceneErr (ε η B K s : ℝ) : ℝ :=
  2 * (endErr ε η B + shadeErr ε η B K) * (1 + 1 / s) + groundErr ε η B K

end
end PVF
