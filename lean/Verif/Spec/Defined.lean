import Verif.Model.AOI
import Verif.Model.Irradiance

/-!
# Defined arithmetic

Every division, tangent and inverse function of the package that could meet an argument outside its
domain at a time step, with its place in the source.  Numpy does not stop there but continues with
infinite or missing values, and the real numbers of the model continue with 0, so that the results of the
package and of the model mean something only where these conditions hold.
-/

namespace PVF
noncomputable section

/-- Arithmetic of `OrderedPVArray.fit` at one time step. -/
structure GeometryDefined (p : ArrayParams) (u : StepIn) : Prop where
  /-- `pvrow_width / gcr`: pvfactors/geometry/pvarray.py line 54 -/
  gcr : p.gcr ≠ 0
  /-- `width / cut`: pvfactors/geometry/pvrow.py line 279 -/
  cut : ∀ i < p.nRows, ∀ s, (p.nSeg i s : ℝ) ≠ 0
  /-- `np.tan(beta_rad)`: pvfactors/geometry/pvarray.py line 248 -/
  beta : Real.cos (deg2rad (90 - (fitStep p u).rot.deg + rad2deg (fitStep p u).alpha)) ≠ 0
  /-- `/ np.tan(alpha_vec)`: pvfactors/geometry/pvground.py lines 110-111 -/
  alpha : Real.sin (fitStep p u).alpha ≠ 0
  /-- `/ np.tan(rotation_vec)`: pvfactors/geometry/pvground.py line 121; flat rows are meant to give an
  infinite cut point -/
  rotation : (fitStep p u).rot.deg ≠ 0 → sind (fitStep p u).rot.deg ≠ 0

/-- Points to which the AOI methods measure angles from surfaces of row `r`. -/
inductive AoiPoint (p : ArrayParams) (g : StepGeom) (r : ℕ) : Pt → Prop
  /-- ends of ground surfaces: pvfactors/viewfactors/aoimethods.py lines 382-397 -/
  | ground (a : SurfRef) (ha : a ∈ groundRefs p) (q : Pt)
      (hq : q = (g.coords a).b1 ∨ q = (g.coords a).b2) : AoiPoint p g r q
  /-- ends of surfaces of a neighbouring row: lines 306-314 -/
  | row (r' : ℕ) (s : RowSide) (k : ℕ) (sh : Bool) (hr' : r' < p.nRows) (hk : k < p.nSeg r' s)
      (hn : r' = r + 1 ∨ r = r' + 1) (q : Pt)
      (hq : q = (g.coords (.pv r' s k sh)).b1 ∨ q = (g.coords (.pv r' s k sh)).b2) : AoiPoint p g r q
  /-- lowest points of neighbouring rows: lines 382-397 -/
  | obstruction (r' : ℕ) (hr' : r' < p.nRows) (hn : r' = r + 1 ∨ r = r' + 1) :
      AoiPoint p g r (g.row r').full.lowest
  /-- ends of the dummy sky surfaces: lines 104-124 -/
  | sky (r' : ℕ) (hr' : r' < p.nRows) : AoiPoint p g r (g.row r').full.highest
  | skyEnd (x : ℝ) (hx : x = -100 ∨ x = 100) : AoiPoint p g r ⟨x, 0⟩

/-- Arithmetic of the angles of incidence at one time step. -/
structure AnglesDefined (p : ArrayParams) (g : StepGeom) (nSections : ℕ) : Prop where
  /-- the width of a section, pvfactors/viewfactors/aoimethods.py lines 62-64 -/
  sections : (nSections : ℝ) ≠ 0
  /-- `dot_product / (u_norm * v_norm)`: pvfactors/viewfactors/aoimethods.py line 567.  Values of shorter
  surfaces are replaced by 0 (lines 324-326, 405-407). -/
  angle : ∀ r s k sh, SurfRef.pv r s k sh ∈ allRefs p → TOL ≤ (g.coords (.pv r s k sh)).length →
    ∀ q, AoiPoint p g r q →
    Real.sqrt ((g.uVec r s).x ^ 2 + (g.uVec r s).y ^ 2)
      * Real.sqrt ((q.x - (g.coords (.pv r s k sh)).centroid.x) ^ 2
        + (q.y - (g.coords (.pv r s k sh)).centroid.y) ^ 2) ≠ 0

/-- Arithmetic of the irradiance models at one time step. -/
structure IrradianceDefined (q : IrrParams) (p : ArrayParams) (g : StepGeom) (v : IrrIn) : Prop where
  /-- `1. / rho_front` and the like: pvfactors/irradiance/models.py lines 200-215, 641-662 -/
  rhoFront : q.rhoFront ≠ 0
  rhoBack : q.rhoBack ≠ 0
  albedo : v.albedo ≠ 0
  /-- `cosd(aoi_back_pvrow) / cosd(solar_zenith)`: pvfactors/irradiance/models.py line 1009 -/
  zenith : cosd v.solarZenith ≠ 0
  /-- `100. * shading_angle / horizon_band_angle`: pvfactors/irradiance/utils.py line 367 -/
  band : q.horizonBandAngle ≠ 0
  /-- `/ (high_pt_left.x - ts_point_coords.x)` and the same on the right:
  pvfactors/irradiance/models.py lines 880, 891 -/
  neighbour : ∀ r s k sh, SurfRef.pv r s k sh ∈ allRefs p → ∀ r' < p.nRows, r' = r + 1 ∨ r = r' + 1 →
    (g.row r').full.highest.x - (g.coords (.pv r s k sh)).centroid.x ≠ 0

/-- Arithmetic of `perez_diffuse_luminance` for one row of inputs. -/
structure PerezDefined (r : PerezIn) : Prop where
  /-- `a / b`: pvfactors/irradiance/utils.py line 108 -/
  zenith : max (cosd r.solarZenith) (cosd 85) ≠ 0
  /-- `components['isotropic'] / vf_perez['vf_isotropic']`: pvfactors/irradiance/utils.py line 119 -/
  isotropic : (1 + cosd r.surfaceTilt) / 2 ≠ 0
  /-- `components['circumsolar'] / vf_perez['vf_circumsolar']`: pvfactors/irradiance/utils.py line 118 -/
  circumsolar : max (aoiProjection r.surfaceTilt r.surfaceAzimuth r.solarZenith r.solarAzimuth) 0
    / max (cosd r.solarZenith) (cosd 85) ≠ 0

/-- Denominators of averages (`get_param_weighted`) at one time step: pvfactors/geometry/pvrow.py
lines 432 and 605, pvfactors/geometry/pvground.py line 367. -/
structure MeansDefined (p : ArrayParams) (g : StepGeom) : Prop where
  side : ∀ i < p.nRows, ∀ s, sideLength (g.side i s) ≠ 0
  segment : ∀ i < p.nRows, ∀ s, ∀ seg ∈ g.side i s, seg.length ≠ 0
  ground : g.ground.length ≠ 0

end
end PVF
