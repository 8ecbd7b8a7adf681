import Verif.Model.VF
import Verif.Model.Irradiance
import Mathlib.Analysis.SpecialFunctions.Trigonometric.Inverse

/-!
# View factors with angle-of-incidence losses (viewfactors/aoimethods.py)

An fAOI function takes an angle in degrees, measured from the surface (0 to 180), and returns the
fraction of light that is not reflected.  The code applies it to numpy arrays; here it is applied
element by element.
-/

namespace PVF
noncomputable section

/-- `AOIMethods._vf`: pvfactors/viewfactors/aoimethods.py lines 574-594. -/
def vfBand (aoi1 aoi2 : ℝ) : ℝ := 0.5 * |cosd aoi1 - cosd aoi2|

/-- `self.interval`: pvfactors/viewfactors/aoimethods.py lines 62-64, 628-630
(`np.linspace(0, 180, num=n + 1)` has the entries `k * 180 / n`). -/
def aoiInterval (n : ℕ) : ℝ := 180 / n

/-- `aoi_angles_low[k]`: pvfactors/viewfactors/aoimethods.py lines 66, 632. -/
def aoiLow (n k : ℕ) : ℝ := k * aoiInterval n

/-- `aoi_angles_high[k]`: pvfactors/viewfactors/aoimethods.py lines 67, 633. -/
def aoiHigh (n k : ℕ) : ℝ := aoiLow n k + aoiInterval n

/-- `aoi_angles_middle[k]`: pvfactors/viewfactors/aoimethods.py lines 68, 634. -/
def aoiMiddle (n k : ℕ) : ℝ := aoiLow n k + aoiInterval n / 2

/-- `integrand_front[k]` or `integrand_back[k]`: pvfactors/viewfactors/aoimethods.py lines 70-76,
636-643. -/
def aoiIntegrand (f : ℝ → ℝ) (n k : ℕ) : ℝ := f (aoiMiddle n k) * vfBand (aoiLow n k) (aoiHigh n k)

/-- `AOIMethods.rho_from_faoi_fn`: pvfactors/viewfactors/aoimethods.py lines 614-644. -/
def rhoFromFaoi (f : ℝ → ℝ) (n : ℕ) : ℝ := 1 - ∑ k ∈ Finset.range n, aoiIntegrand f n k

/-- `_calculate_vf_aoi_wedge_level` with `_calculate_vfaoi_integrand`:
pvfactors/viewfactors/aoimethods.py lines 468-540. -/
def vfAoiWedge (f : ℝ → ℝ) (n : ℕ) (lowAngle highAngle : ℝ) : ℝ :=
  open Classical in
  let total := ∑ k ∈ Finset.range n,
    if lowAngle ≤ aoiHigh n k ∧ highAngle > aoiLow n k then aoiIntegrand f n k else 0
  if |highAngle - lowAngle| < TOL then 0 else total

/-- `n_vector` of the sides of a row: pvfactors/geometry/pvrow.py lines 78-91. -/
def sideNormal (full : Line) : RowSide → Pt
  | .front => ⟨-(full.b2.y - full.b1.y), full.b2.x - full.b1.x⟩
  | .back => ⟨full.b2.y - full.b1.y, -(full.b2.x - full.b1.x)⟩

/-- `TsSurface.u_vector`: pvfactors/geometry/timeseries.py lines 245-250. -/
def uVector (n : Pt) : Pt := ⟨-n.y, n.x⟩

/-- `AOIMethods._calculate_aoi_angles`: pvfactors/viewfactors/aoimethods.py lines 542-572.
A zero vector (NaN in numpy) gives the angle of cosine 0 here. -/
def aoiAngle (u centroid point : Pt) : ℝ :=
  let vx := point.x - centroid.x
  let vy := point.y - centroid.y
  let dotProduct := u.x * vx + u.y * vy
  let uNorm := Real.sqrt (u.x ^ 2 + u.y ^ 2)
  let vNorm := Real.sqrt (vx ^ 2 + vy ^ 2)
  rad2deg (Real.arccos (clip (dotProduct / (uNorm * vNorm)) (-1) 1))

/-- `AOIMethods._calculate_aoi_angles_w_obstruction` (the branch `point_obstr is None` is never
taken by the callers): pvfactors/viewfactors/aoimethods.py lines 420-466. -/
def aoiAngleObstr (u centroid pointGnd pointObstr : Pt) (gndSurfIsLeft : Bool) : ℝ :=
  let alphaPv := angleX pointGnd centroid
  let alphaOb := angleX pointGnd pointObstr
  let isObstructing := if gndSurfIsLeft then alphaPv > alphaOb else alphaPv < alphaOb
  open Classical in
  let point : Pt := ⟨if isObstructing then pointObstr.x else pointGnd.x,
    if isObstructing then pointObstr.y else pointGnd.y⟩
  aoiAngle u centroid point

/-- The wedge between two angles in any order: pvfactors/viewfactors/aoimethods.py lines 317-323,
399-404. -/
def vfAoiAngles (f : ℝ → ℝ) (n : ℕ) (angle1 angle2 : ℝ) : ℝ :=
  vfAoiWedge f n (if angle1 < angle2 then angle1 else angle2)
    (if angle1 < angle2 then angle2 else angle1)

/-- `AOIMethods._vf_aoi_surface_to_surface` at one time step:
pvfactors/viewfactors/aoimethods.py lines 278-328.  `emp1`, `emp2` are the `is_empty` flags. -/
def vfAoiSurfSurf (f : ℝ → ℝ) (n : ℕ) (u : Pt) (surf1 surf2 : Line) (emp1 emp2 : Prop) : ℝ :=
  open Classical in
  if emp1 ∨ emp2 then 0 else
    let raw := vfAoiAngles f n (aoiAngle u surf1.centroid surf2.b1)
      (aoiAngle u surf1.centroid surf2.b2)
    if surf1.length < TOL ∨ surf2.length < TOL then 0 else raw

/-- `AOIMethods._vf_aoi_pvrow_surf_to_gnd_surf_obstruction` at one time step:
pvfactors/viewfactors/aoimethods.py lines 330-418. -/
def vfAoiPvGnd (f : ℝ → ℝ) (n : ℕ) (u : Pt) (pvSurf : Line) (pvrowIdx nRows : ℕ)
    (tiltedToLeft : Prop) (full : ℕ → Line) (gndSurf : Line) (isBack isLeft : Bool)
    (emp1 emp2 : Prop) : ℝ :=
  open Classical in
  if emp1 ∨ emp2 then 0 else
    let noObstruction := (isLeft ∧ pvrowIdx = 0) ∨ (¬ isLeft ∧ pvrowIdx = nRows - 1)
    let idxObstr := if isLeft then pvrowIdx - 1 else pvrowIdx + 1
    let angle := fun pt : Pt =>
      if noObstruction then aoiAngle u pvSurf.centroid pt
      else aoiAngleObstr u pvSurf.centroid pt (full idxObstr).lowest isLeft
    let raw0 := vfAoiAngles f n (angle gndSurf.b1) (angle gndSurf.b2)
    let raw := if pvSurf.length < TOL ∨ gndSurf.length < TOL then 0 else raw0
    if isLeft then
      (if isBack then (if tiltedToLeft then 0 else raw) else (if tiltedToLeft then raw else 0))
    else
      (if isBack then (if tiltedToLeft then raw else 0) else (if tiltedToLeft then 0 else raw))

/-- The AOI methods of a calculator: pvfactors/viewfactors/aoimethods.py lines 14-50. -/
structure AOIMethods where
  faoiFront : ℝ → ℝ
  faoiBack : ℝ → ℝ
  nSections : ℕ

/-- The fAOI function of a side (`is_back`). -/
def AOIMethods.faoi (m : AOIMethods) (isBack : Bool) : ℝ → ℝ :=
  if isBack then m.faoiBack else m.faoiFront

/-- `u_vector` of the surfaces on a side of row `r`. -/
def StepGeom.uVec (g : StepGeom) (r : ℕ) (side : RowSide) : Pt :=
  uVector (sideNormal (g.row r).full side)

/-- `AOIMethods.vf_aoi_pvrow_to_gnd`: pvfactors/viewfactors/aoimethods.py lines 205-276. -/
def asgAoiPvGnd (m : AOIMethods) (p : ArrayParams) (g : StepGeom) (emp : SurfRef → Prop) :
    List Asg :=
  let surf (r : ℕ) (isBack isLeft : Bool) (a : SurfRef) : List Asg :=
    (gndRefsSide p isLeft r).map fun b =>
      ⟨surfIndex p a, surfIndex p b,
        vfAoiPvGnd (m.faoi isBack) m.nSections (g.uVec r (if isBack then .back else .front))
          (g.coords a) r p.nRows (g.rot.deg > 0) (fun k => (g.row k).full) (g.coords b)
          isBack isLeft (emp a) (emp b)⟩
  (List.range p.nRows).flatMap fun r =>
    (sideRefs p r .front).flatMap (fun a => surf r false true a ++ surf r false false a)
    ++ (sideRefs p r .back).flatMap (fun a => surf r true true a ++ surf r true false a)

/-- `AOIMethods.vf_aoi_pvrow_to_pvrow`: pvfactors/viewfactors/aoimethods.py lines 151-203. -/
def asgAoiPvPv (m : AOIMethods) (p : ArrayParams) (g : StepGeom) (emp : SurfRef → Prop) :
    List Asg :=
  open Classical in
  let vf (isBack : Bool) (r : ℕ) (a b : SurfRef) : ℝ :=
    vfAoiSurfSurf (m.faoi isBack) m.nSections (g.uVec r (if isBack then .back else .front))
      (g.coords a) (g.coords b) (emp a) (emp b)
  (List.range (p.nRows - 1)).flatMap fun r =>
    ((sideRefs p r .front).flatMap fun a => (sideRefs p (r + 1) .back).flatMap fun b =>
      [⟨surfIndex p a, surfIndex p b, if g.rot.deg > 0 then 0 else vf false r a b⟩,
       ⟨surfIndex p b, surfIndex p a, if g.rot.deg > 0 then 0 else vf true (r + 1) b a⟩])
    ++ ((sideRefs p r .back).flatMap fun a => (sideRefs p (r + 1) .front).flatMap fun b =>
      [⟨surfIndex p a, surfIndex p b, if g.rot.deg > 0 then vf true r a b else 0⟩,
       ⟨surfIndex p b, surfIndex p a, if g.rot.deg > 0 then vf false (r + 1) b a else 0⟩])

/-- `dummy_sky_surfaces[k]`: pvfactors/viewfactors/aoimethods.py lines 104-124. -/
def dummySky (p : ArrayParams) (g : StepGeom) (k : ℕ) : Line :=
  if k = 0 then ⟨⟨MIN_X, Y_GROUND⟩, (g.row 0).full.highest⟩
  else if k = p.nRows then ⟨(g.row (p.nRows - 1)).full.highest, ⟨MAX_X, Y_GROUND⟩⟩
  else ⟨(g.row (k - 1)).full.highest, (g.row k).full.highest⟩

/-- `AOIMethods.vf_aoi_pvrow_to_sky`: pvfactors/viewfactors/aoimethods.py lines 84-149.
`skyEmp k` is the `is_empty` flag of `dummy_sky_surfaces[k]`. -/
def asgAoiSky (m : AOIMethods) (p : ArrayParams) (g : StepGeom) (emp : SurfRef → Prop)
    (skyEmp : ℕ → Prop) : List Asg :=
  open Classical in
  let vf (isBack : Bool) (r k : ℕ) (a : SurfRef) : ℝ :=
    vfAoiSurfSurf (m.faoi isBack) m.nSections (g.uVec r (if isBack then .back else .front))
      (g.coords a) (dummySky p g k) (emp a) (skyEmp k)
  (List.range p.nRows).flatMap fun r =>
    ((sideRefs p r .front).map fun a => ⟨surfIndex p a, nTsSurfaces p,
      if g.rot.deg > 0 then vf false r r a else vf false r (r + 1) a⟩)
    ++ ((sideRefs p r .back).map fun a => ⟨surfIndex p a, nTsSurfaces p,
      if g.rot.deg > 0 then vf true r (r + 1) a else vf true r r a⟩)

/-- The assignments made by the AOI methods in `build_ts_vf_aoi_matrix`, in order:
pvfactors/viewfactors/calculator.py lines 167-176. -/
def asgAoi (m : AOIMethods) (p : ArrayParams) (g : StepGeom) (emp : SurfRef → Prop)
    (skyEmp : ℕ → Prop) : List Asg :=
  asgAoiPvGnd m p g emp ++ asgAoiPvPv m p g emp ++ asgAoiSky m p g emp skyEmp

/-- `asgAoi` for a fitted time series; `is_empty` of the dummy sky surfaces is, as for every
timeseries surface, a property of the whole time series (pvfactors/geometry/timeseries.py
lines 252-256). -/
def asgAoiTs {ι : Type*} [Fintype ι] (m : AOIMethods) (p : ArrayParams) (u : ι → StepIn) (t : ι) :
    List Asg :=
  asgAoi m p (fitStep p (u t)) (isEmptyTs fun t => fitStep p (u t))
    (fun k => ∑ t, (dummySky p (fitStep p (u t)) k).length < TOL)

/-- The fAOI functions and sections given to `VFCalculator.__init__`, and the AOI methods that it
creates: pvfactors/viewfactors/calculator.py lines 18-53.  `none` if either function is missing. -/
def calculatorAoiMethods (faoiFront faoiBack : Option (ℝ → ℝ)) (n : ℕ) : Option AOIMethods :=
  match faoiFront, faoiBack with
  | some f, some b => some ⟨f, b, n⟩
  | _, _ => none

/-- pvfactors/config.py line 15, `DEFAULT_RHO_FRONT = 0.01`. -/
def DEFAULT_RHO_FRONT : ℝ := 1 / 100

/-- pvfactors/config.py line 16, `DEFAULT_RHO_BACK = 0.03`. -/
def DEFAULT_RHO_BACK : ℝ := 3 / 100

/-- Reflectivities set by `PVEngine.with_rho_initialization`: pvfactors/engine.py lines 89-102 (the
reflectivities of the irradiance model, `none` if not given, become the result).  `none` means that
the call raises an AttributeError because `vf_aoi_methods` is `None`. -/
def rhoInitialization (aoi : Option AOIMethods) (rhoFront rhoBack : Option ℝ) : Option (ℝ × ℝ) :=
  aoi.map fun m =>
    (initializeRho rhoFront (some (rhoFromFaoi (m.faoi false) m.nSections)) DEFAULT_RHO_FRONT,
     initializeRho rhoBack (some (rhoFromFaoi (m.faoi true) m.nSections)) DEFAULT_RHO_BACK)

end
end PVF
