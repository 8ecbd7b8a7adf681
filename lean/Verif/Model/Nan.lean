import Verif.Model.Engine
import Verif.Model.AOI

/-!
# Time series with missing values (engine.py, geometry/timeseries.py)

All calculations act on each time step alone, so that a missing value (NaN) at one step gives missing
values at this step; only `TsSurface.is_empty` and the check of `np.linalg.inv` look at several steps.
-/

namespace PVF
noncomputable section

/-- Inputs of a fitted time series, `none` where some value of the step is missing.  Which lengths of
surfaces are still numbers at such a step depends on which values are missing: `len t a` is what
`np.nansum` adds for surface `a` at step `t` (0 if the length is missing), `skyLen t k` the same for
`dummy_sky_surfaces[k]`. -/
structure NanSeries (ι : Type*) where
  u : ι → Option StepIn
  len : ι → SurfRef → ℝ
  len_nonneg : ∀ t a, 0 ≤ len t a
  skyLen : ι → ℕ → ℝ
  skyLen_nonneg : ∀ t k, 0 ≤ skyLen t k

variable {ι : Type*} [Fintype ι]

/-- `TsSurface.is_empty` of a surface of the array: pvfactors/geometry/timeseries.py lines 252-256
(`np.nansum(self.length) < DISTANCE_TOLERANCE`). -/
def NanSeries.isEmpty (x : NanSeries ι) (p : ArrayParams) (a : SurfRef) : Prop :=
  ∑ t, (match x.u t with
    | some u => ((fitStep p u).coords a).length
    | none => x.len t a) < TOL

/-- `TsSurface.is_empty` of `dummy_sky_surfaces[k]`. -/
def NanSeries.skyEmpty (x : NanSeries ι) (p : ArrayParams) (k : ℕ) : Prop :=
  ∑ t, (match x.u t with
    | some u => (dummySky p (fitStep p u) k).length
    | none => x.skyLen t k) < TOL

/-- The view factor matrix at a step with the values `u`. -/
def NanSeries.vf (x : NanSeries ι) (p : ArrayParams) (u : StepIn) : ℕ → ℕ → ℝ :=
  vfMatrix p (fitStep p u) (x.isEmpty p)

open Classical in
/-- `PVEngine.run_full_mode`: pvfactors/engine.py lines 177-265.  `np.linalg.inv` (line 223, numpy,
external) raises an error for a singular matrix and gives missing values, without an error, for a matrix
with missing values.  The result has `none` at steps with missing inputs. -/
def NanSeries.runFullMode (x : NanSeries ι) (p : ArrayParams) (s : ι → Option IrrStep)
    (m : Option AOIMethods) : Option (ι → Option FullOut) :=
  if ∀ t u y, x.u t = some u → s t = some y → IsUnit (aMat p y (x.vf p u)).det then
    some fun t => (x.u t).bind fun u => (s t).map fun y => fullStep p y (x.vf p u)
      (m.map fun m => asgAoi m p (fitStep p u) (x.isEmpty p) (x.skyEmpty p))
  else none

end
end PVF
