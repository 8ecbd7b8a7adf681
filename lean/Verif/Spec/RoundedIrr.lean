import Verif.Spec.RoundedFast
import Verif.Model.RoundedIrr

/-!
# How exact irradiance models are
-/

namespace PVF
noncomputable section

/-- The terms of an irradiance model that depend on computations. -/
def IrrStep.light (s : IrrStep) : LightTerms where
  comp := s.comp
  gndShaded := s.gndShaded
  gndIllum := s.gndIllum
  pvrowShaded := s.pvrowShaded
  pvrowIllum := s.pvrowIllum

/-- All terms of `t'` are close to those of `t`, for a set of surfaces. -/
structure TermsNear (surf : Finset SurfRef) (E : ℝ) (t' t : LightTerms) : Prop where
  comp : ∀ a ∈ surf, List.Forall₂ (fun x' x => |x' - x| ≤ E) (t'.comp a) (t.comp a)
  gndShaded : |t'.gndShaded - t.gndShaded| ≤ E
  gndIllum : |t'.gndIllum - t.gndIllum| ≤ E
  pvrowShaded : |t'.pvrowShaded - t.pvrowShaded| ≤ E
  pvrowIllum : t'.pvrowIllum = t.pvrowIllum

/-- Inputs of an irradiance model: the computed cosine of the angle of incidence is in the domain of
`arccos`, angles have the usual sizes, and the shares of light that pass the rows are shares. -/
structure LightInput {ε : ℝ} (A : LightArith ε) (q : IrrParams) (v : IrrIn) (G : ℝ) : Prop where
  zenith : |v.solarZenith| ≤ 180
  tilt : |v.surfaceTilt| ≤ 180
  azimuth : |v.solarAzimuth - v.surfaceAzimuth| ≤ G
  domain : |A.aoiProjection v.surfaceTilt v.surfaceAzimuth v.solarZenith v.solarAzimuth| ≤ 1
  spacing : 0 ≤ q.moduleSpacingRatio ∧ q.moduleSpacingRatio ≤ 1
  transparency : 0 ≤ q.moduleTransparency ∧ q.moduleTransparency ≤ 1

/-- An irradiance model with other terms. -/
def IrrStep.withLight (s : IrrStep) (t : LightTerms) : IrrStep :=
  { s with
    comp := t.comp
    gndShaded := t.gndShaded
    gndIllum := t.gndIllum
    pvrowShaded := t.pvrowShaded
    pvrowIllum := t.pvrowIllum }

/-- Error of the share of the horizon band that is not hidden by a row of width `w` at a horizontal
distance of at least `m`, for points with errors of `δ` and a band of `b` degrees. -/
def horizonErr (ε δ w m b : ℝ) : ℝ := 250 * (1 + w / m) * (δ / m + 4 * ε) / b + 9 * ε

/-- Error of a sum of `n` numbers with errors of `E` whose absolute values have the sum `l`. -/
def termSumErr (n : ℕ) (ε E l : ℝ) : ℝ := n * E + (grow ε ^ n - 1) * (l + n * E)

end
end PVF
