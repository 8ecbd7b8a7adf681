import Verif.Spec.Rounded

/-!
# Scenes with slightly different coordinates
-/

namespace PVF
noncomputable section

/-- The coordinates `g'` are those of `g` up to distances of `τ`.  In both the rows are tilted to the
same side, and the same end of a surface counts as the higher one (or both ends are close together). -/
structure CoordsNear (p : ArrayParams) (g g' : StepGeom) (τ : ℝ) : Prop where
  tilt : 0 < g'.rot.deg ↔ 0 < g.rot.deg
  ends : ∀ a ∈ surfaces p, distPt (g.coords a).b1 (g'.coords a).b1 ≤ τ ∧
    distPt (g.coords a).b2 (g'.coords a).b2 ≤ τ
  high : ∀ r s k sh, SurfRef.pv r s k sh ∈ surfaces p →
    distPt (g.coords (.pv r s k sh)).highest (g'.coords (.pv r s k sh)).highest ≤ τ ∧
    distPt (g.coords (.pv r s k sh)).lowest (g'.coords (.pv r s k sh)).lowest ≤ τ
  edge : ∀ r < p.nRows, distPt (g.row r).full.lowest (g'.row r).full.lowest ≤ τ

/-- Bound of the change of view factors from rows to other surfaces when coordinates change by at most
`τ`. -/
def rowMove (D w c σ τ : ℝ) : ℝ := 16 * D * τ / w ^ 2 + 4 * σ * D / (c * w)

/-- Bound of the change of view factors when coordinates change by at most `τ`. -/
def entryMove (D w c σ τ : ℝ) : ℝ := 32 * D ^ 2 * τ / w ^ 3 + 4 * σ * D ^ 2 / (c * w ^ 2)

end
end PVF
