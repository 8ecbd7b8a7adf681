import Verif.Spec.RoundedFlat

/-!
# Averages with rounding
-/

namespace PVF
noncomputable section

/-- Bound of the error of an average over `n` surfaces of total length `L`, computed with `k` roundings, if
lengths have errors of `σ`, values are at most `V` and have errors of `e`. -/
def averageErr (k n : ℕ) (ε L σ V e : ℝ) : ℝ :=
  (grow ε ^ k - 1) * (V + e) + e + 2 * n * σ * V / (L - n * σ)

/-- Bound of the error of a sum over `n` surfaces of total length `L`, weighted with their lengths, that is
divided by a total length which does not come from the same surfaces and has an error of `n * σ`. -/
def groundMeanErr (k n : ℕ) (ε L σ V e : ℝ) : ℝ :=
  (grow ε ^ k - 1) * ((V + e) * ((L + n * σ) / (L - n * σ))) + e + 2 * n * σ * (2 * V + e) / (L - n * σ)

end
end PVF
