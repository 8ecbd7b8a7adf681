import Verif.Model.VF
import Verif.Model.Irradiance

/-!
# Radiosity specification

Every surface sends out the light it reflects; what arrives at a surface is what the sky sends
directly (direct, circumsolar, horizon light), what other surfaces send out and the isotropic sky.
-/

namespace PVF

/-- The set of all surfaces of the array. -/
def surfaces (p : ArrayParams) : Finset SurfRef := (allRefs p).toFinset

/-- View factor from surface `a` to surface `b` in a matrix that is ordered by surface index. -/
noncomputable def vfBetween (p : ArrayParams) (F : ℕ → ℕ → ℝ) (a b : SurfRef) : ℝ :=
  F (surfIndex p a) (surfIndex p b)

/-- View factor from a surface to the sky (last column). -/
noncomputable def vfToSky (p : ArrayParams) (F : ℕ → ℕ → ℝ) (a : SurfRef) : ℝ :=
  F (surfIndex p a) (nTsSurfaces p)

/-- `q0` (sent out) and `qinc` (arriving) balance the light for the view factors `F`, light `e`
coming directly from the sky, reflectivities `rho` and luminance `sky` of the isotropic sky. -/
structure RadiosityBalance (p : ArrayParams) (F : ℕ → ℕ → ℝ) (e rho : SurfRef → ℝ) (sky : ℝ)
    (q0 qinc : SurfRef → ℝ) : Prop where
  arriving : ∀ a ∈ surfaces p,
    qinc a = e a + ∑ b ∈ surfaces p, vfBetween p F a b * q0 b + vfToSky p F a * sky
  sent : ∀ a ∈ surfaces p, q0 a = rho a * qinc a

/-- View factors are not negative and those of a surface add up to at most one. -/
structure ViewFactorsOk (p : ArrayParams) (F : ℕ → ℕ → ℝ) : Prop where
  nonneg : ∀ a ∈ surfaces p, ∀ b ∈ surfaces p, 0 ≤ vfBetween p F a b
  nonneg_sky : ∀ a ∈ surfaces p, 0 ≤ vfToSky p F a
  sum_le : ∀ a ∈ surfaces p, ∑ b ∈ surfaces p, vfBetween p F a b + vfToSky p F a ≤ 1

/-- Reflectivities are fractions strictly between 0 and 1. -/
def ReflectivitiesOk (p : ArrayParams) (s : IrrStep) : Prop :=
  ∀ a ∈ surfaces p, 0 < s.rho a ∧ s.rho a < 1

/-- The parameter `inv_rho` is the inverse of the parameter `rho`, which is not zero. -/
def InverseOk (p : ArrayParams) (s : IrrStep) : Prop :=
  ∀ a ∈ surfaces p, s.rho a ≠ 0 ∧ s.invRho a = 1 / s.rho a

end PVF
