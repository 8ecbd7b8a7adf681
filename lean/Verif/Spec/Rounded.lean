import Verif.Spec.Radiosity

/-!
# Sizes that decide how large rounding errors can become
-/

namespace PVF
noncomputable section

/-- A number with a relative error of at most `ε` differs from the exact one by at most this factor
(in both directions). -/
def grow (ε : ℝ) : ℝ := 1 / (1 - ε)

/-- Sizes of a scene: no two points that matter are more than `D` apart, and no surface is shorter
than `w` unless it is so short that it counts as empty. -/
structure SceneSize (p : ArrayParams) (g : StepGeom) (emp : SurfRef → Prop) (D w : ℝ) : Prop where
  tol : 2 * TOL ≤ w
  size : w ≤ D
  long : ∀ a ∈ surfaces p, 2 * (g.coords a).length ≤ TOL ∨ w ≤ (g.coords a).length
  near : ∀ a ∈ surfaces p, ∀ b ∈ surfaces p, ¬ emp a → ¬ emp b →
    ∀ x, x = (g.coords a).b1 ∨ x = (g.coords a).b2 →
    ∀ y, y = (g.coords b).b1 ∨ y = (g.coords b).b2 → distPt x y ≤ D
  near_low : ∀ a ∈ surfaces p, ¬ emp a → ∀ x, x = (g.coords a).b1 ∨ x = (g.coords a).b2 →
    ∀ r < p.nRows, distPt x (g.row r).full.lowest ≤ D

/-- The lower edges of all rows are equally high, up to an error of `σ`, and by at least `c` above the
ground. -/
structure RowsAbove (p : ArrayParams) (g : StepGeom) (c σ : ℝ) : Prop where
  slack : 0 ≤ σ
  clear : σ < c
  low : ∀ r s k sh, SurfRef.pv r s k sh ∈ surfaces p → ∀ x, x = (g.coords (.pv r s k sh)).b1 ∨
    x = (g.coords (.pv r s k sh)).b2 → ∀ r' < p.nRows, (g.row r').full.lowest.y ≤ x.y + σ
  above : ∀ sh e z, SurfRef.gnd sh e z ∈ surfaces p → ∀ x, x = (g.coords (.gnd sh e z)).b1 ∨
    x = (g.coords (.gnd sh e z)).b2 → ∀ r < p.nRows, x.y + c ≤ (g.row r).full.lowest.y

/-- Bound of the errors of view factors from rows to other surfaces. -/
def rowBound (ε D w c σ : ℝ) : ℝ :=
  (grow ε ^ 12 - 1) * (4 * D / w) + (grow ε - 1) * (40 * D ^ 2 / ((c - σ) * w))
    + 4 * σ * D / (c * w)

/-- Bound of the errors of all view factors between surfaces. -/
def entryBound (ε D w c σ : ℝ) : ℝ :=
  ((grow ε ^ 8 - 1) * (4 * D / w) + grow ε ^ 8 * rowBound ε D w c σ) * (D / w)

/-- Bound of the sum of all errors in a row of the matrix, for `n` surfaces. -/
def matrixBound (n : ℕ) (ε D w c σ : ℝ) : ℝ :=
  2 * n * entryBound ε D w c σ + (grow ε ^ (n + 1) - 1) * (2 + n * entryBound ε D w c σ)

/-- `q0`, `qinc` and the luminance `sky'` of the sky solve the radiosity equations with the view
factors `F` and the light `e` coming directly from the sky up to small residuals: `η₁` for what
arrives, `η₂` for what is sent out and `η₃` for what comes directly from the sky.  Numbers are at
most `M`. -/
structure NearlySolved (p : ArrayParams) (F : ℕ → ℕ → ℝ) (e rho : SurfRef → ℝ) (sky : ℝ)
    (e' q0 qinc : SurfRef → ℝ) (sky' η₁ η₂ η₃ M : ℝ) : Prop where
  direct : ∀ a ∈ surfaces p, |e' a - e a| ≤ η₃
  sky : |sky' - sky| ≤ η₂
  arriving : ∀ a ∈ surfaces p, |qinc a
    - (e' a + ∑ b ∈ surfaces p, vfBetween p F a b * q0 b + vfToSky p F a * sky')| ≤ η₁
  sent : ∀ a ∈ surfaces p, |q0 a - rho a * qinc a| ≤ η₂
  size : (∀ a ∈ surfaces p, |q0 a| ≤ M) ∧ |sky'| ≤ M

end
end PVF
