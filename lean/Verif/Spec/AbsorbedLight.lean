import Verif.Spec.Absorbed
import Verif.Spec.Elevation
import Verif.Spec.Principles

/-!
# The light that a PV surface absorbs, from first principles

If the fraction of light that is not reflected depends on the angle between the ray and the surface.
-/

namespace PVF
noncomputable section

/-- Light that arrives at the middle of surface `a` and is not reflected, by rays: of light `x` that
arrives at the other surfaces and is reflected there, and of the sky of luminance `sky`.  `e` is what
is kept of other light. -/
def keptLight (f : ℝ → ℝ) (p : ArrayParams) (g : StepGeom) (e : ℝ) (rho : SurfRef → ℝ) (sky : ℝ)
    (x : SurfRef → ℝ) (a : SurfRef) : ℝ :=
  e + ∑ b ∈ surfaces p, rayKept f p g a b * (rho b * x b) + rayKeptSky f p g a * sky

open Classical in
/-- All light that is sent out by the sky and by the surfaces that are not points. -/
def sentLight (p : ArrayParams) (g : StepGeom) (rho : SurfRef → ℝ) (sky : ℝ) (x : SurfRef → ℝ) : ℝ :=
  (∑ b ∈ surfaces p, if (g.coords b).length = 0 then 0 else |rho b * x b|) + |sky|

/-- The fAOI function `f` is continuous, at most `d`, and changes by at most `w` over half of one of
`n` sections. -/
structure SmoothFaoi (f : ℝ → ℝ) (n : ℕ) (d w : ℝ) : Prop where
  continuous : ContinuousOn f (Set.Icc 0 180)
  bound : ∀ x, 0 ≤ x → x ≤ 180 → |f x| ≤ d
  change : ∀ x y : ℝ, 0 ≤ x → x ≤ 180 → 0 ≤ y → y ≤ 180 → |x - y| ≤ 90 / n → |f x - f y| ≤ w

end
end PVF
