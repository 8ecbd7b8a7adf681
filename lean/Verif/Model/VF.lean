import Verif.Model.PVArray

/-!
# View factors (viewfactors/vfmethods.py, viewfactors/calculator.py)
-/

namespace PVF
noncomputable section

/-- `VFTsMethods._distance`: pvfactors/viewfactors/vfmethods.py lines 613-629. -/
def distPt (p q : Pt) : ℝ := Real.sqrt ((q.y - p.y) ^ 2 + (q.x - p.x) ^ 2)

/-- `VFTsMethods._angle_with_x_axis`: pvfactors/viewfactors/vfmethods.py lines 631-647. -/
def angleX (p q : Pt) : ℝ := arctan2 (q.y - p.y) (q.x - p.x)

/-- `VFTsMethods._hottel_string_length` with an obstruction point (the branch `pt_obstr is None` is
never taken by the callers): pvfactors/viewfactors/vfmethods.py lines 537-580. -/
def hottelString (ptPv ptGnd ptObstr : Pt) (shadowIsLeft : Bool) : ℝ :=
  let lPv := distPt ptPv ptGnd
  let alphaPv := angleX ptGnd ptPv
  let alphaOb := angleX ptGnd ptObstr
  let lObstr := distPt ptGnd ptObstr + distPt ptObstr ptPv
  if shadowIsLeft then (if alphaPv > alphaOb then lObstr else lPv)
  else (if alphaPv < alphaOb then lObstr else lPv)

/-- `VFTsMethods._vf_hottel_gnd_surf`: pvfactors/viewfactors/vfmethods.py lines 473-535.
The division is only used when the width is larger than the tolerance. -/
def vfHottelGnd (high low left right obstr : Pt) (width : ℝ) (shadowIsLeft : Bool) : ℝ :=
  let l1 := if shadowIsLeft then hottelString high left obstr shadowIsLeft
    else hottelString high right obstr shadowIsLeft
  let l2 := if shadowIsLeft then hottelString low right obstr shadowIsLeft
    else hottelString low left obstr shadowIsLeft
  let d1 := if shadowIsLeft then hottelString high right obstr shadowIsLeft
    else hottelString high left obstr shadowIsLeft
  let d2 := if shadowIsLeft then hottelString low left obstr shadowIsLeft
    else hottelString low right obstr shadowIsLeft
  if width > TOL then (d1 + d2 - l1 - l2) / (2 * width) else 0

/-- `VFTsMethods._vf_surface_to_surface`: pvfactors/viewfactors/vfmethods.py lines 582-611. -/
def vfSurfSurf (l1 l2 : Line) (width1 : ℝ) : ℝ :=
  let length1 := distPt l1.b1 l2.b1
  let length2 := distPt l1.b2 l2.b2
  let length3 := distPt l1.b1 l2.b2
  let length4 := distPt l1.b2 l2.b1
  let sum1 := length1 + length2
  let sum2 := length3 + length4
  if width1 > TOL then |sum2 - sum1| / (2 * width1) else 0

/-- `VFTsMethods.vf_pvrow_surf_to_gnd_surf_obstruction_hottel`:
pvfactors/viewfactors/vfmethods.py lines 105-183.  Returns the view factors from the PV surface to
the ground surface and back. -/
def vfPvGnd (pvSurf : Line) (pvrowIdx nRows : ℕ) (tiltedToLeft : Prop) (full : ℕ → Line)
    (gndSurf : Line) (pvLength : ℝ) (isBack isLeft : Bool) : ℝ × ℝ :=
  open Classical in
  let noObstruction := (isLeft ∧ pvrowIdx = 0) ∨ (¬ isLeft ∧ pvrowIdx = nRows - 1)
  let vf0 :=
    if noObstruction then vfSurfSurf pvSurf gndSurf pvLength
    else
      let idxObstr := if isLeft then pvrowIdx - 1 else pvrowIdx + 1
      vfHottelGnd pvSurf.highest pvSurf.lowest gndSurf.b1 gndSurf.b2 (full idxObstr).lowest
        pvLength isLeft
  let vf :=
    if isLeft then
      (if isBack then (if tiltedToLeft then 0 else vf0) else (if tiltedToLeft then vf0 else 0))
    else
      (if isBack then (if tiltedToLeft then vf0 else 0) else (if tiltedToLeft then 0 else vf0))
  (vf, if gndSurf.length > TOL then vf * pvLength / gndSurf.length else 0)

/-- View factors between two PV surfaces of neighbouring rows (`i` left, `j` right), both
directions: pvfactors/viewfactors/vfmethods.py lines 209-224 (`frontToBack = true`) and lines
231-246 (`frontToBack = false`). -/
def vfPvPv (surfI surfJ : Line) (tiltedToLeft : Prop) (frontToBack : Bool) : ℝ × ℝ :=
  open Classical in
  let v0 := vfSurfSurf surfI surfJ surfI.length
  let v := if frontToBack then (if tiltedToLeft then 0 else v0) else (if tiltedToLeft then v0 else 0)
  (v, if surfJ.length > TOL then v * surfI.length / surfJ.length else 0)

/-- `TsGround.ts_surfaces_side_of_cut_point`: pvfactors/geometry/pvground.py lines 437-459. -/
def gndRefsSide (p : ArrayParams) (left : Bool) (i : ℕ) : List SurfRef :=
  let zones := if left then (surfaceDict p.nRows).left i else (surfaceDict p.nRows).right i
  ((List.range p.nRows).flatMap fun e => zones.map fun z => SurfRef.gnd true e z)
  ++ ((List.range (p.nRows + 1)).flatMap fun e => zones.map fun z => SurfRef.gnd false e z)

/-- An assignment `vf_matrix[i, j, t] = v`. -/
structure Asg where
  i : ℕ
  j : ℕ
  v : ℝ

/-- The assignments made for one PV surface by the two inner loops of `vf_pvrow_gnd_surf`:
pvfactors/viewfactors/vfmethods.py lines 42-71 (front), 74-103 (back). -/
def asgPvGndSurf (p : ArrayParams) (g : StepGeom) (emp : SurfRef → Prop) (r : ℕ) (isBack : Bool)
    (a : SurfRef) : List Asg :=
  open Classical in
  if emp a then [] else
    let side (isLeft : Bool) : List Asg :=
      (gndRefsSide p isLeft r).flatMap fun b =>
        if emp b then [] else
          let v := vfPvGnd (g.coords a) r p.nRows (g.rot.deg > 0) (fun k => (g.row k).full)
            (g.coords b) (g.coords a).length isBack isLeft
          [⟨surfIndex p a, surfIndex p b, v.1⟩, ⟨surfIndex p b, surfIndex p a, v.2⟩]
    side true ++ side false

/-- All assignments of `vf_pvrow_gnd_surf`: pvfactors/viewfactors/vfmethods.py lines 33-103. -/
def asgPvGnd (p : ArrayParams) (g : StepGeom) (emp : SurfRef → Prop) : List Asg :=
  (List.range p.nRows).flatMap fun r =>
    (sideRefs p r .front).flatMap (asgPvGndSurf p g emp r false)
    ++ (sideRefs p r .back).flatMap (asgPvGndSurf p g emp r true)

/-- The assignments made between one side of row `r` and one side of row `r + 1` by
`vf_pvrow_to_pvrow`: pvfactors/viewfactors/vfmethods.py lines 203-224 (front to back) and 225-246
(back to front). -/
def asgPvPvSides (p : ArrayParams) (g : StepGeom) (emp : SurfRef → Prop) (r : ℕ)
    (frontToBack : Bool) : List Asg :=
  open Classical in
  (sideRefs p r (if frontToBack then .front else .back)).flatMap fun a =>
    if emp a then [] else
      (sideRefs p (r + 1) (if frontToBack then .back else .front)).flatMap fun b =>
        if emp b then [] else
          let v := vfPvPv (g.coords a) (g.coords b) (g.rot.deg > 0) frontToBack
          [⟨surfIndex p a, surfIndex p b, v.1⟩, ⟨surfIndex p b, surfIndex p a, v.2⟩]

/-- All assignments of `vf_pvrow_to_pvrow`: pvfactors/viewfactors/vfmethods.py lines 200-246. -/
def asgPvPv (p : ArrayParams) (g : StepGeom) (emp : SurfRef → Prop) : List Asg :=
  (List.range (p.nRows - 1)).flatMap fun r =>
    asgPvPvSides p g emp r true ++ asgPvPvSides p g emp r false

/-- Apply assignments in order to a matrix (the last one to a cell wins). -/
def applyAsg (m : ℕ → ℕ → ℝ) (l : List Asg) : ℕ → ℕ → ℝ :=
  l.foldl (fun m a i j => if i = a.i ∧ j = a.j then a.v else m i j) m

/-- The matrix before the sky column is filled: pvfactors/viewfactors/calculator.py
lines 90-102. -/
def vfNoSky (p : ArrayParams) (g : StepGeom) (emp : SurfRef → Prop) : ℕ → ℕ → ℝ :=
  applyAsg (applyAsg (fun _ _ => 0) (asgPvGnd p g emp)) (asgPvPv p g emp)

/-- Length of `pvarray.all_ts_surfaces[i]` at a time step. -/
def surfLen (p : ArrayParams) (g : StepGeom) (i : ℕ) : ℝ :=
  ((allRefs p)[i]?.map fun a => (g.coords a).length).getD 0

/-- `VFCalculator.build_ts_vf_matrix` at one time step: pvfactors/viewfactors/calculator.py
lines 69-114.  The sky has index `nTsSurfaces p`.  `emp` are the `is_empty` flags of the surfaces
(which depend on the whole time series). -/
def vfMatrix (p : ArrayParams) (g : StepGeom) (emp : SurfRef → Prop) (i j : ℕ) : ℝ :=
  let n := nTsSurfaces p
  let m := vfNoSky p g emp
  if j = n ∧ i < n then
    let sky := 1 - ∑ k ∈ Finset.range n, m i k
    if surfLen p g i > TOL then sky else 0
  else m i j

/-- The timeseries view factor matrix of an array fitted to a time series:
`engine.fit(...)` then `build_ts_vf_matrix`. -/
def tsVfMatrix {ι : Type*} [Fintype ι] (p : ArrayParams) (u : ι → StepIn) (t : ι) (i j : ℕ) : ℝ :=
  vfMatrix p (fitStep p (u t)) (isEmptyTs fun t => fitStep p (u t)) i j

end
end PVF
