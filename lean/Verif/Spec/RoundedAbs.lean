import Verif.Spec.RoundedWeighted

/-!
# Absorbed light with rounding
-/

namespace PVF
noncomputable section

/-- Bound of the error of absorbed light that is a sum over `n` surfaces and the sky, if view factors of a
surface add up to at most `S`, radiosities are at most `M`, the part that comes directly from the sky is at
most `Q` and has an error of `H'`, and the rest has an error of `e`. -/
def absorbedErr (n : ℕ) (ε S M Q H' e : ℝ) : ℝ := (grow ε ^ (n + 5) - 1) * (S * M + Q + H') + e + H'

end
end PVF
