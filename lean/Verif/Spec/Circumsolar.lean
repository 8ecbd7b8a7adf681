import Mathlib.MeasureTheory.Measure.Lebesgue.Basic
import Mathlib.MeasureTheory.Integral.IntervalIntegral.Basic
import Mathlib.Analysis.SpecialFunctions.ExpDeriv

/-!
# The circumsolar disk

Light shares of a disk that is covered from one side.  Nothing here refers to the package.
-/

namespace PVF
noncomputable section
open MeasureTheory

/-- The part of the unit disk that is covered, in percent of the area of the disk, if the disk is
covered from one side up to `x` percent of its diameter. -/
def coveredArea (x : ℝ) : ℝ :=
  100 * ((volume {P : ℝ × ℝ | P.1 ^ 2 + P.2 ^ 2 < 1 ∧ P.1 < -1 + 2 * (x / 100)}).toReal
    / (volume {P : ℝ × ℝ | P.1 ^ 2 + P.2 ^ 2 < 1}).toReal)

/-- The part of the light of a section through the disk that is covered, in percent, if its
brightness falls off from the middle like a normal distribution with standard deviation `σ`, the
section reaches to three standard deviations on both sides, and it is covered from one side up to
`x` percent of its length. -/
def coveredBell (σ x : ℝ) : ℝ :=
  100 * ((∫ t in (-3 * σ)..(-3 * σ + 6 * σ * (x / 100)), Real.exp (-(t / σ) ^ 2 / 2))
    / ∫ t in (-3 * σ)..(3 * σ), Real.exp (-(t / σ) ^ 2 / 2))

end
end PVF
