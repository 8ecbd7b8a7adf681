import Verif.Model.RoundedAbs

/-!
# Solution of the linear system of full mode with rounding (engine.py)

The inverse that `np.linalg.inv` returns is a parameter (external).
-/

namespace PVF
noncomputable section
namespace Arith

variable {ε : ℝ} (A : Arith ε)

/-- `invrho_ts_diag` at one time step: pvfactors/engine.py lines 211-217. -/
def invRhoDiag (p : ArrayParams) (s : IrrStep) (i j : ℕ) : ℝ :=
  if i = j then invRhoVec p s (Fin.ofNat _ i) else 0

/-- `a_mat` at one time step: pvfactors/engine.py lines 218-220. -/
def aMat (p : ArrayParams) (s : IrrStep) (vf : ℕ → ℕ → ℝ) (i j : ℕ) : ℝ :=
  A.sub (invRhoDiag p s i j) (vf i j)

/-- `q0` for the inverse `X`, light `e` of the surfaces and `sky` of the sky: pvfactors/engine.py
lines 224-226.  The terms of `np.einsum` are added in the order `T`. -/
def fullQ0 (T : SumTree) (p : ArrayParams) (X : ℕ → ℕ → ℝ) (e : SurfRef → ℝ) (sky : ℝ) (j : ℕ) : ℝ :=
  A.sum (fun k => A.mul (X j k) (withSky p e sky (Fin.ofNat _ k))) T

/-- `qinc`: pvfactors/engine.py lines 227-229. -/
def fullQinc (T : SumTree) (p : ArrayParams) (s : IrrStep) (q0 : ℕ → ℝ) (j : ℕ) : ℝ :=
  A.sum (fun k => A.mul (invRhoDiag p s j k) (q0 k)) T

/-- `qabs` for AOI view factors `vf`, radiosities `q0` of the surfaces and `sky` of the sky and the absorbed
part `irrAbs` of the light from the sky: pvfactors/engine.py lines 248-252. -/
def absorbedOf (T : SumTree) (p : ArrayParams) (vf : ℕ → ℕ → ℝ) (q0 : SurfRef → ℝ) (sky : ℝ)
    (irrAbs : SurfRef → ℝ) (a : SurfRef) : ℝ :=
  A.add (A.sum (fun j => A.mul (vf (surfIndex p a) j)
    (withSky p q0 sky (Fin.ofNat (nTsSurfaces p + 1) j))) T) (irrAbs a)

end Arith
end
end PVF
