import Verif.Spec.Radiosity

/-!
# Light followed from reflection to reflection
-/

namespace PVF

/-- Light arriving at a surface after exactly `k` reflections: without any it is the light `e` that
comes directly from the sky and what the isotropic sky of luminance `sky` sends; with one more it is
what all surfaces reflect of the light that has arrived there after one less. -/
noncomputable def arriving (p : ArrayParams) (F : ℕ → ℕ → ℝ) (e rho : SurfRef → ℝ) (sky : ℝ) :
    ℕ → SurfRef → ℝ
  | 0, a => e a + vfToSky p F a * sky
  | k + 1, a => ∑ b ∈ surfaces p, vfBetween p F a b * (rho b * arriving p F e rho sky k b)

end PVF
