import Verif.Model.RoundedIrr
import Verif.Model.RoundedWeighted

/-!
# Absorbed light of full mode with rounding (viewfactors/calculator.py, engine.py, irradiance/models.py)

Without AOI methods, i.e. all reflection losses are diffuse.
-/

namespace PVF
noncomputable section
namespace Arith

variable {ε : ℝ} (A : Arith ε)

/-- `faoi_diffuse * vf_aoi_matrix`: pvfactors/viewfactors/calculator.py lines 164-165, for the entries of
the row of a surface with reflectivity `rho`. -/
def diffuseAoi (rho : ℝ) (vf : ℕ → ℕ → ℝ) (i j : ℕ) : ℝ := A.mul (A.sub 1 rho) (vf i j)

/-- `qabs` of full mode for view factors `vf`, radiosities `q0` of the surfaces and `sky` of the sky and the
absorbed part `irrAbs` of the light from the sky: pvfactors/engine.py lines 248-252.  The terms of
`np.einsum` are added in the order `T`. -/
def fullAbsorbed (T : SumTree) (p : ArrayParams) (rho : SurfRef → ℝ) (vf : ℕ → ℕ → ℝ) (q0 : SurfRef → ℝ)
    (sky : ℝ) (irrAbs : SurfRef → ℝ) (a : SurfRef) : ℝ :=
  A.add (A.sum (fun j => A.mul (A.diffuseAoi (rho a) vf (surfIndex p a) j)
    (withSky p q0 sky (Fin.ofNat (nTsSurfaces p + 1) j))) T) (irrAbs a)

/-- `direct_absorbed` of ground surfaces in the isotropic model: pvfactors/irradiance/models.py lines 205-218
and 388. -/
def absorbedGround (albedo direct : ℝ) : ℝ := A.mul (A.sub 1 albedo) direct

/-- `direct_absorbed` of row surfaces in the isotropic model without AOI functions:
pvfactors/irradiance/models.py lines 220-252, 376-379 and 382-385 (the factor `1` is an entry of
`np.ones_like`). -/
def absorbedRow (rho direct : ℝ) : ℝ := A.mul (A.mul (A.sub 1 rho) 1) direct

/-- Absorbed components of the isotropic model for its computed components: pvfactors/irradiance/models.py
lines 205-252. -/
def isotropicAbs (rho : ℝ) (comp : List ℝ) : SurfRef → List ℝ
  | .gnd _ _ _ => comp.map (A.absorbedGround rho)
  | .pv _ _ _ _ => comp.map (A.absorbedRow rho)

end Arith

namespace LightArith
variable {ε : ℝ} (A : LightArith ε)

/-- `horizon_absorbed` of a surface with reflectivity `rho` in the hybrid model without AOI functions:
pvfactors/irradiance/models.py lines 656, 667, 684-685, 697-698, 721-723, 744-746 and 1051-1054, 1066-1069. -/
def horizonAbs (q : IrrParams) (p : ArrayParams) (g : StepGeom) (v : IrrIn) (rho : ℝ) : SurfRef → ℝ
  | .gnd _ _ _ => 0
  | .pv _ .front _ _ => A.absorbedRow rho (poaHorizonUsed v)
  | .pv r .back k sh => A.mul (A.absorbedRow rho (poaHorizonUsed v))
      (A.sub 1 (A.div (A.horizonShadingPct q p g (A.centroid (g.coords (.pv r .back k sh))) r) 100))

/-- Absorbed components of the hybrid model without AOI functions on a surface with reflectivity `rho`:
pvfactors/irradiance/models.py lines 645-746. -/
def hybridAbs (q : IrrParams) (p : ArrayParams) (g : StepGeom) (v : IrrIn) (rho : ℝ) (a : SurfRef) : List ℝ :=
  A.isotropicAbs rho [(A.directCats q v).get a, (A.circumsolarCats q v).get a] a
    ++ [A.horizonAbs q p g v rho a]

end LightArith
end
end PVF
