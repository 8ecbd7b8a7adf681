import Verif.Spec.Pieces
import Verif.Spec.Shade

/-!
# How much rows see of each other
-/

namespace PVF

/-- View factor from a whole side of a row to a whole side of a row: all its shaded and illuminated
surfaces, weighted with their lengths. -/
noncomputable def sideView (p : ArrayParams) (u : StepIn) (F : ℕ → ℕ → ℝ) (r : ℕ) (s : RowSide)
    (r' : ℕ) (s' : RowSide) : ℝ :=
  (exchange p u F (.side r s true) (.side r' s' true)
    + exchange p u F (.side r s true) (.side r' s' false)
    + exchange p u F (.side r s false) (.side r' s' true)
    + exchange p u F (.side r s false) (.side r' s' false)) / p.width

/-- The two sides belong to neighbouring rows and face each other. -/
def RowsFacing (n : ℕ) (rot : ℝ) (r : ℕ) (s : RowSide) (r' : ℕ) (s' : RowSide) : Prop :=
  s ≠ s' ∧ ((FacesLeft rot s ∧ r = r' + 1 ∧ r < n) ∨ (FacesLeft rot s' ∧ r' = r + 1 ∧ r' < n))

/-- Textbook view factor between two equal parallel strips of width `w`, each at an angle with
cosine `c` to the line of length `d` that joins them: crossed minus uncrossed strings. -/
noncomputable def parallelStrips (w d c : ℝ) : ℝ :=
  (Real.sqrt (d ^ 2 + w ^ 2 + 2 * d * w * c) + Real.sqrt (d ^ 2 + w ^ 2 - 2 * d * w * c) - 2 * d)
    / (2 * w)

end PVF
