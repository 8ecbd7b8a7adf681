import Verif.Spec.RoundedTrig

/-!
# Horizontal rows with rounding
-/

namespace PVF

/-- Results of operations have the same order as exact results; rounding to the nearest number has this
property. -/
structure Arith.Ordered {ε : ℝ} (A : Arith ε) : Prop where
  add : ∀ x y z, x ≤ y → A.add x z ≤ A.add y z
  sub : ∀ x y z, x ≤ y → A.sub z y ≤ A.sub z x
  mul_left : ∀ x y z, 0 ≤ z → x ≤ y → A.mul x z ≤ A.mul y z
  mul_right : ∀ x y z, 0 ≤ z → x ≤ y → A.mul z x ≤ A.mul z y

/-- Horizontal rows, and the sun is above the horizon by a margin. -/
structure FlatMargin (p : ArrayParams) (u : StepIn) (K G : ℝ) : Prop where
  flat : u.surfaceTilt = 0
  zenith : |u.solarZenith| ≤ 180
  azimuth : |u.solarAzimuth - p.axisAzimuth| ≤ G
  high : 1 ≤ K * cosd u.solarZenith

end PVF
