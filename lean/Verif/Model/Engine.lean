import Verif.Model.VF
import Verif.Model.Irradiance
import Mathlib.LinearAlgebra.Matrix.NonsingularInverse

/-!
# Full mode of the engine (engine.py)
-/

namespace PVF
noncomputable section

/-- A vector over `pvarray.all_ts_surfaces` (in list order) followed by a value for the sky:
the lists built by `get_ts_modeling_vectors` (pvfactors/irradiance/base.py lines 83-92) and extended
by `get_full_ts_modeling_vectors` (pvfactors/irradiance/models.py lines 318-325, 811-818). -/
def withSky (p : ArrayParams) (f : SurfRef → ℝ) (sky : ℝ) (i : Fin (nTsSurfaces p + 1)) : ℝ :=
  if (i : ℕ) = nTsSurfaces p then sky else ((allRefs p)[(i : ℕ)]?.map f).getD 0

/-- `irradiance_mat` at one time step: pvfactors/irradiance/base.py lines 84-87 and
pvfactors/irradiance/models.py lines 319, 812. -/
def irradianceVec (p : ArrayParams) (s : IrrStep) : Fin (nTsSurfaces p + 1) → ℝ :=
  withSky p (fun a => sumComponents (s.comp a)) s.sky

/-- `rho_mat` at one time step: pvfactors/irradiance/base.py line 89 and
pvfactors/irradiance/models.py lines 321, 814. -/
def rhoVec (p : ArrayParams) (s : IrrStep) : Fin (nTsSurfaces p + 1) → ℝ :=
  withSky p s.rho SKY_REFLECTIVITY_DUMMY

/-- `invrho_mat` at one time step: pvfactors/irradiance/base.py line 88 and
pvfactors/irradiance/models.py lines 322, 815. -/
def invRhoVec (p : ArrayParams) (s : IrrStep) : Fin (nTsSurfaces p + 1) → ℝ :=
  withSky p s.invRho SKY_REFLECTIVITY_DUMMY

/-- The view factor matrix as a square matrix. -/
def vfMat (n : ℕ) (vf : ℕ → ℕ → ℝ) : Matrix (Fin n) (Fin n) ℝ := fun i j => vf i j

/-- `a_mat` at one time step: pvfactors/engine.py lines 213-220. -/
def aMat (p : ArrayParams) (s : IrrStep) (vf : ℕ → ℕ → ℝ) :
    Matrix (Fin (nTsSurfaces p + 1)) (Fin (nTsSurfaces p + 1)) ℝ :=
  Matrix.diagonal (invRhoVec p s) - vfMat _ vf

/-- `VFCalculator.build_ts_vf_aoi_matrix` at one time step:
pvfactors/viewfactors/calculator.py lines 116-181, with the argument `rho_ts_tiled`
(pvfactors/engine.py lines 239-240, whose entry `[i, j, t]` is `rho_mat[i, t]`).
`vf` is `self.vf_matrix`, saved by `build_ts_vf_matrix` (line 112).  `aoi` is `none` if there are no
AOI methods and else the list of assignments that they make (lines 168-176); these are made in the
array `self.vf_matrix` itself (line 156).  The result is the AOI matrix and the matrix that is now
stored as `vf_matrix` (the same array as `pvarray.ts_vf_matrix`, pvfactors/engine.py line 205). -/
def buildVfAoi (rho : ℕ → ℝ) (vf : ℕ → ℕ → ℝ) (aoi : Option (List Asg)) :
    (ℕ → ℕ → ℝ) × (ℕ → ℕ → ℝ) :=
  match aoi with
  | none => (fun i j => (1 - rho i) * vf i j, vf)
  | some asg => (applyAsg vf asg, applyAsg vf asg)

/-- What `run_full_mode` computes at one time step and what it stores. -/
structure FullOut where
  q0 : SurfRef → ℝ
  qinc : SurfRef → ℝ
  isotropic : SurfRef → ℝ
  reflection : SurfRef → ℝ
  qabs : SurfRef → ℝ
  /-- radiosity of the sky (last entry of `q0`) -/
  q0Sky : ℝ
  /-- `pvarray.ts_vf_matrix` and `pvarray.ts_vf_aoi_matrix` when the call returns -/
  vf : ℕ → ℕ → ℝ
  vfAoi : ℕ → ℕ → ℝ

/-- One time step of `PVEngine.run_full_mode`, if the system can be inverted:
pvfactors/engine.py lines 197-261.  The loop in lines 255-261 writes entry `idx_surf` to the
surface in position `idx_surf` of `all_ts_surfaces`, which is the loop that defines `surfIndex`. -/
def fullStep (p : ArrayParams) (s : IrrStep) (vf : ℕ → ℕ → ℝ) (aoi : Option (List Asg)) :
    FullOut :=
  let n := nTsSurfaces p
  let sky : Fin (n + 1) := Fin.last n
  let irr := irradianceVec p s
  let q0 := (aMat p s vf)⁻¹.mulVec irr
  let qinc := (Matrix.diagonal (invRhoVec p s)).mulVec q0
  let isotropic := fun i : Fin (n + 1) => vf i n * irr sky
  let reflection := fun i => qinc i - irr i - isotropic i
  let rho := fun i : ℕ => rhoVec p s (Fin.ofNat (n + 1) i)
  let aoiMats := buildVfAoi rho vf aoi
  let qabs := fun i : Fin (n + 1) =>
    (vfMat (n + 1) aoiMats.1).mulVec q0 i
      + withSky p (fun a => sumComponents (s.compAbs a)) 0 i
  let idx := fun a => Fin.ofNat (n + 1) (surfIndex p a)
  { q0 := fun a => q0 (idx a), qinc := fun a => qinc (idx a)
    isotropic := fun a => isotropic (idx a), reflection := fun a => reflection (idx a)
    qabs := fun a => qabs (idx a), q0Sky := q0 sky
    vf := aoiMats.2, vfAoi := aoiMats.1 }

/-- `PVEngine.run_full_mode` on a fitted time series: pvfactors/engine.py lines 177-265.
`np.linalg.inv` (line 223) raises an error if the matrix of any time step is singular: `none`. -/
def runFullMode {ι : Type*} [Fintype ι] (p : ArrayParams) (u : ι → StepIn) (s : ι → IrrStep)
    (aoi : ι → Option (List Asg)) : Option (ι → FullOut) :=
  open Classical in
  if ∀ t, IsUnit (aMat p (s t) (tsVfMatrix p u t)).det then
    some fun t => fullStep p (s t) (tsVfMatrix p u t) (aoi t)
  else none

end
end PVF
