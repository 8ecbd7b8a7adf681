import Verif.Model.RoundedAoi
import Verif.Spec.RoundedTrig
import Verif.Lemmas.Rounded

/-!
# Tables of AOI losses with rounding
-/

namespace PVF

/-- The numbers in a table are right up to `τ` (angles) and `κ` (integrand): the sections have ends at multiples
of `180 / n` degrees. -/
structure TableNear (tab : AoiTable) (f : ℝ → ℝ) (n : ℕ) (τ κ : ℝ) : Prop where
  low : ∀ k < n, |tab.low k - k * (180 / n)| ≤ τ
  high : ∀ k < n, |tab.high k - (k + 1) * (180 / n)| ≤ τ
  integrand : ∀ k < n, |tab.integrand k - f ((k + 1 / 2) * (180 / n))
    * ((cosd (k * (180 / n)) - cosd ((k + 1) * (180 / n))) / 2)| ≤ κ

/-- Bound of the errors of cosines of angles up to 180 degrees. -/
noncomputable def cosineErr (ε : ℝ) : ℝ := ε + (grow ε ^ 6 - 1) * Real.pi

/-- Bound of the errors of view factors of sections. -/
noncomputable def bandErr (ε : ℝ) : ℝ :=
  let σ := 2 * cosineErr ε + ε * (2 + 2 * cosineErr ε)
  σ / 2 + ε * (1 + σ / 2)

/-- Bound of the errors of the integrand for a function that is at most `d` and has errors `φ`. -/
noncomputable def integrandErr (ε d φ : ℝ) : ℝ := ε * ((d + φ) * (1 + bandErr ε)) + ((d + φ) * bandErr ε + φ)

end PVF
