import Verif.Spec.RoundedAbs

/-!
# Solution of the linear system with rounding
-/

namespace PVF
noncomputable section

/-- `X` is an inverse of the matrix `a` with `n` rows, up to errors of `δ` in the entries of the product. -/
def NearlyInverse (n : ℕ) (a X : ℕ → ℕ → ℝ) (δ : ℝ) : Prop :=
  ∀ i < n, ∀ k < n, |∑ j ∈ Finset.range n, a i j * X j k - (if i = k then 1 else 0)| ≤ δ

/-- Bound of the residuals of a system with `n` equations, if the inverse is right up to `δ`, the right-hand
sides are at most `I` and the absolute values in rows of the matrix and of the inverse add up to at most `L`
and `Y`. -/
def systemErr (n : ℕ) (ε I Y L δ : ℝ) : ℝ :=
  n * δ * I + (1 + ε) * L * ((grow ε ^ (n + 1) - 1) * (Y * I)) + ε * L * (grow ε ^ (n + 1) * (Y * I))

end
end PVF
