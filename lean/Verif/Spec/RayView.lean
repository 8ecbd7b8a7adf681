import Verif.Spec.Geometry
import Mathlib.MeasureTheory.Integral.IntervalIntegral.Basic
import Mathlib.Analysis.SpecialFunctions.Trigonometric.Deriv
import Mathlib.MeasureTheory.Measure.Lebesgue.Basic

/-!
# View factors by rays

The view factor from one surface to another is the share of the light leaving the first surface
that arrives at the second one, if light leaves every point of the first surface equally and in
proportion to the cosine of the angle with the normal.  Nothing here refers to strings, to the
package or to the model of its view factors.
-/

namespace PVF
noncomputable section

/-- Point reached from `X` in direction `d`. -/
def along (X d : Pt) (l : ℝ) : Pt := ⟨X.x + l * d.x, X.y + l * d.y⟩

/-- The ray from `X` in direction `d` arrives at `target` from the side to which `m` points, and no
point of a solid is on the way. -/
def Arrives (solid target : Pt → Prop) (m X d : Pt) : Prop :=
  d.x * m.x + d.y * m.y < 0 ∧
    ∃ l > 0, target (along X d l) ∧ ∀ k, 0 < k → k < l → ¬ solid (along X d k)

/-- The ray from `X` in direction `d` meets no solid. -/
def Escapes (solid : Pt → Prop) (X d : Pt) : Prop := ∀ l > 0, ¬ solid (along X d l)

/-- The unit vector `n` turned clockwise by the angle `a`. -/
def turn (n : Pt) (a : ℝ) : Pt :=
  ⟨Real.cos a * n.x + Real.sin a * n.y, Real.cos a * n.y - Real.sin a * n.x⟩

open Classical in
/-- Share of the light leaving a point of a surface with normal `n` whose direction satisfies `Q`:
in the plane, the density of directions is half the cosine of the angle with the normal. -/
def lightShare (n : Pt) (Q : Pt → Prop) : ℝ :=
  1 / 2 * ∫ a in (-(Real.pi / 2))..(Real.pi / 2), if Q (turn n a) then Real.cos a else 0

/-- Mean over the points `X` of the line `A` of the share of light whose direction satisfies `Q X`. -/
def meanShare (A : Line) (n : Pt) (Q : Pt → Pt → Prop) : ℝ :=
  ∫ s in (0:ℝ)..1, lightShare n (Q (lerp A.b1 A.b2 s))

end
end PVF
