import Verif.Spec.Shape
import Verif.Model.Fast
import Verif.Model.State

/-!
# Mornings and afternoons

A scene in a mirror that stands upright along the axis of the rows: rows are counted from the other
end, and sun and modules are as far from the axis on the other side.
-/

namespace PVF

/-- The light of a time step in the mirror: azimuths count from the axis in the other direction,
everything else is the same. -/
structure MirroredIn (axis : ℝ) (v v' : IrrIn) : Prop where
  sun : ∃ k : ℤ, v'.solarAzimuth - axis = -(v.solarAzimuth - axis) + 360 * k
  surface : ∃ k : ℤ, v'.surfaceAzimuth - axis = -(v.surfaceAzimuth - axis) + 360 * k
  rest : v' = { v with solarAzimuth := v'.solarAzimuth, surfaceAzimuth := v'.surfaceAzimuth }

/-- The modules are not flat and do not face along the axis of the rows. -/
structure Across (p : ArrayParams) (u : StepIn) : Prop where
  tilted : 0 < u.surfaceTilt
  across : sind (u.surfaceAzimuth - p.axisAzimuth) ≠ 0

/-- The back of row `r` looks at another row, or there is only one row. -/
def RowBehind (p : ArrayParams) (g : StepGeom) (r : ℕ) : Prop :=
  p.nRows = 1 ∨ if 0 < g.rot.deg then r + 1 < p.nRows else 0 < r

/-- All shadows lie within the ground of the scene, and so do their mirror images about the middle
of the array. -/
def ShadowsInside (p : ArrayParams) (g : StepGeom) : Prop :=
  ∀ i < p.nRows, ∀ x, x = (g.ground.shadowXs i).1 ∨ x = (g.ground.shadowXs i).2 →
    (MIN_X ≤ x ∧ x ≤ MAX_X) ∧
    MIN_X ≤ (p.nRows - 1) * p.distance - x ∧ (p.nRows - 1) * p.distance - x ≤ MAX_X

/-- The same view factors, apart from the list of shadows. -/
structure SameView (v v' : FastVF) : Prop where
  gndShaded : v'.toGndShaded = v.toGndShaded
  gndIllum : v'.toGndIllum = v.toGndIllum
  gndTotal : v'.toGndTotal = v.toGndTotal
  pvrowTotal : v'.toPvrowTotal = v.toPvrowTotal
  pvrowShaded : v'.toPvrowShaded = v.toPvrowShaded
  pvrowIllum : v'.toPvrowIllum = v.toPvrowIllum
  sky : v'.toSky = v.toSky

/-- The same results of fast mode, apart from the list of shadows. -/
structure SameFast (f f' : FastOut) : Prop where
  skyTerm : f'.skyTerm = f.skyTerm
  qinc : f'.qinc = f.qinc
  reflectionGndShaded : f'.reflectionGndShaded = f.reflectionGndShaded
  reflectionGndIllum : f'.reflectionGndIllum = f.reflectionGndIllum
  reflectionPvrowShaded : f'.reflectionPvrowShaded = f.reflectionPvrowShaded
  reflectionPvrowIllum : f'.reflectionPvrowIllum = f.reflectionPvrowIllum
  isotropic : f'.isotropic = f.isotropic
  reflection : f'.reflection = f.reflection
  viewFactors : SameView f.viewFactors f'.viewFactors

end PVF
