import Verif.Model.VF

/-!
# Coordinates and view factors with rounding (geometry/, viewfactors/vfmethods.py)

The rest of the model uses exact real numbers.  Here the formulas of coordinates and of view factors are written
with an arithmetic whose operations have rounding errors, in the order in which the code uses them.
-/

namespace PVF
noncomputable section

/-- Operations with relative errors of at most `ε` (numpy, external).  The operations of floating
point numbers of 64 bits are of this kind with `ε = 2 ^ (-53)` for addition, subtraction,
multiplication, division and square root, as long as results are neither too large nor too small to
be represented; for `atan2` the libraries that numpy uses have errors of a few times this. -/
structure Arith (ε : ℝ) where
  add : ℝ → ℝ → ℝ
  sub : ℝ → ℝ → ℝ
  mul : ℝ → ℝ → ℝ
  div : ℝ → ℝ → ℝ
  sqrt : ℝ → ℝ
  atan2 : ℝ → ℝ → ℝ
  add_err : ∀ x y, |add x y - (x + y)| ≤ ε * |x + y|
  sub_err : ∀ x y, |sub x y - (x - y)| ≤ ε * |x - y|
  mul_err : ∀ x y, |mul x y - x * y| ≤ ε * |x * y|
  div_err : ∀ x y, |div x y - x / y| ≤ ε * |x / y|
  sqrt_err : ∀ x, 0 ≤ x → |sqrt x - Real.sqrt x| ≤ ε * Real.sqrt x
  atan2_err : ∀ y x, |atan2 y x - arctan2 y x| ≤ ε * |arctan2 y x|

namespace Arith
variable {ε : ℝ} (A : Arith ε)

/-- Ends of a line that is given by computed coordinates: `r * cos + x_center` and
`r * sin + y_center` for two radii `r1`, `r2`. -/
def rowLine (center : Pt) (r1 cs1 sn1 r2 cs2 sn2 : ℝ) : Line :=
  ⟨⟨A.add (A.mul r1 cs1) center.x, A.add (A.mul r1 sn1) center.y⟩,
   ⟨A.add (A.mul r2 cs2) center.x, A.add (A.mul r2 sn2) center.y⟩⟩

/-- `TsPVRow._calculate_full_coords`: pvfactors/geometry/pvrow.py lines 96-122, for the computed values
`cs`, `sn`, `cs180`, `sn180` of `cosd(rotation)`, `sind(rotation)`, `cosd(rotation + 180)` and
`sind(rotation + 180)` (see `PVF.fullRowCoords`). -/
def fullRowCoords (center : Pt) (width cs sn cs180 sn180 : ℝ) : Line :=
  let radius := A.div width 2
  A.rowLine center radius cs180 sn180 radius cs sn

/-- Coordinates of segment `i` in the loop of `TsSide.from_raw_inputs`: pvfactors/geometry/pvrow.py
lines 277-304 (see `PVF.sideSegment`). -/
def segmentCoords (center : Pt) (width : ℝ) (cut i : ℕ) (cs180 sn180 : ℝ) : Line :=
  let radius := A.div width 2
  let segmentLength := A.div width cut
  let r1 := A.sub radius (A.mul i segmentLength)
  let r2 := A.sub radius (A.mul (i + 1) segmentLength)
  A.rowLine center r1 cs180 sn180 r2 cs180 sn180

/-- `self.distance`: pvfactors/geometry/pvarray.py lines 54-56. -/
def distance (p : ArrayParams) : ℝ := A.div p.width p.gcr

/-- `xy_centers[i]`: pvfactors/geometry/pvarray.py lines 198-200 (see `PVF.rowCenter`). -/
def rowCenter (p : ArrayParams) (i : ℕ) : Pt :=
  ⟨A.add X_ORIGIN (A.mul i (A.distance p)), A.add p.height Y_GROUND⟩

end Arith

/-- Computed values of the trigonometric functions that are used for the coordinates at one time step
(numpy and pvlib, external). -/
structure Trig where
  /-- `cosd(rotation_vec)`, `sind(rotation_vec)` -/
  cs : ℝ
  sn : ℝ
  /-- `cosd(rotation_vec + 180)`, `sind(rotation_vec + 180)` -/
  cs180 : ℝ
  sn180 : ℝ
  /-- `np.tan(alpha_vec)` and `np.tan(np.deg2rad(rotation_vec))` -/
  tanSun : ℝ
  tanRot : ℝ
  /-- `np.sin(theta_t_rad)`, `np.cos(theta_t_rad)`, `np.tan(beta_rad)` -/
  sinTheta : ℝ
  cosTheta : ℝ
  tanBeta : ℝ

namespace Arith
variable {ε : ℝ} (A : Arith ε)

/-- The quantity `delta` of `_calculate_interrow_shading`: pvfactors/geometry/pvarray.py
lines 247-248 (see `PVF.shadingDelta`). -/
def shadingDelta (p : ArrayParams) (T : Trig) : ℝ :=
  A.mul (A.distance p) (A.sub T.sinTheta (A.mul T.cosTheta T.tanBeta))

/-- `_calculate_interrow_shading`: pvfactors/geometry/pvarray.py lines 240-263 (see
`PVF.interrowShading`). -/
def interrowShading (p : ArrayParams) (T : Trig) : ℝ × ℝ :=
  if p.nRows > 1 then
    let delta := A.shadingDelta p T
    let tmpFront := max 0 (A.sub p.width delta)
    let tmpBack := max 0 (A.add p.width delta)
    (if tmpFront > p.width then 0 else tmpFront, if tmpBack > p.width then 0 else tmpBack)
  else (0, 0)

/-- `has_direct_shading`: pvfactors/geometry/pvarray.py lines 265-268. -/
def hasDirectShading (p : ArrayParams) (T : Trig) : Prop :=
  (A.interrowShading p T).1 > TOL ∨ (A.interrowShading p T).2 > TOL

/-- Shaded lengths of row `i`: pvfactors/geometry/pvarray.py lines 201-220 (see
`PVF.rowShadedLengths`). -/
def rowShadedLengths (p : ArrayParams) (T : Trig) (rotation : ℝ) (i : ℕ) : ℝ × ℝ :=
  let s := A.interrowShading p T
  if i = 0 then
    (if rotation > 0 then 0 else s.1, if rotation > 0 then s.2 else 0)
  else if i = p.nRows - 1 then
    (if rotation > 0 then s.1 else 0, if rotation > 0 then 0 else s.2)
  else s

/-- The end of the shade on a side: pvfactors/geometry/pvrow.py lines 282-291 (see
`PVF.shadePoint`). -/
def shadePoint (center : Pt) (width rotation : ℝ) (T : Trig) (shadedLength : ℝ) : Pt :=
  let rShade := A.sub (A.div width 2) shadedLength
  ⟨if rotation ≥ 0 then A.add (A.mul rShade T.cs180) center.x
    else A.add (A.mul rShade T.cs) center.x,
   if rotation ≥ 0 then A.add (A.mul rShade T.sn180) center.y
    else A.add (A.mul rShade T.sn) center.y⟩

/-- Segment `i` of a side: pvfactors/geometry/pvrow.py lines 274-341 (see `PVF.sideSegment`). -/
def sideSegment (center : Pt) (width rotation : ℝ) (T : Trig) (cut : ℕ) (shadedLength : ℝ) (i : ℕ) :
    SegGeom :=
  let sh := A.shadePoint center width rotation T shadedLength
  let seg := A.segmentCoords center width cut i T.cs180 T.sn180
  let highest := if rotation ≥ 0 then seg.b2 else seg.b1
  let lowest := if rotation ≥ 0 then seg.b1 else seg.b2
  let maskAllShaded := sh.y > highest.y ∧ rotation ≠ 0
  let maskPartialShaded := sh.y > lowest.y ∧ ¬ maskAllShaded ∧ rotation ≠ 0
  let b2Shaded := if maskPartialShaded then sh else if maskAllShaded then highest else lowest
  { coords := seg, illum := ⟨b2Shaded, highest⟩, shaded := ⟨lowest, b2Shaded⟩ }

/-- `ts_pvrows[i]`: pvfactors/geometry/pvarray.py lines 202-226, pvfactors/geometry/pvrow.py
lines 43-94 (see `PVF.rowGeom`). -/
def rowGeom (p : ArrayParams) (T : Trig) (rotation : ℝ) (i : ℕ) : RowGeom where
  center := A.rowCenter p i
  full := A.fullRowCoords (A.rowCenter p i) p.width T.cs T.sn T.cs180 T.sn180
  front := (List.range (p.nFront i)).map (A.sideSegment (A.rowCenter p i) p.width rotation T
    (p.nFront i) (A.rowShadedLengths p T rotation i).1)
  back := (List.range (p.nBack i)).map (A.sideSegment (A.rowCenter p i) p.width rotation T
    (p.nBack i) (A.rowShadedLengths p T rotation i).2)

/-- Shadow of a row: pvfactors/geometry/pvground.py lines 104-119 (see `PVF.shadowXs`). -/
def shadowXs (full : Line) (tanSun : ℝ) : ℝ × ℝ :=
  let x1 := A.sub full.b1.x (A.div (A.sub full.b1.y Y_GROUND) tanSun)
  let x2 := A.sub full.b2.x (A.div (A.sub full.b2.y Y_GROUND) tanSun)
  (if x1 ≤ x2 then x1 else x2, if x1 ≤ x2 then x2 else x1)

/-- Cut point of a row: pvfactors/geometry/pvground.py lines 121-123 (see `PVF.cutPointX`). -/
def cutPointX (full : Line) (rot : Rot) (tanRot : ℝ) : XR :=
  if rot.deg = 0 then (if rot.negZero then XR.posInf else XR.negInf)
  else XR.fin (A.sub full.b1.x (A.div (A.sub full.b1.y Y_GROUND) tanRot))

/-- `OrderedPVArray.fit` at one time step, for given rotation and sun vector and the computed values of
trigonometric functions: pvfactors/geometry/pvarray.py lines 161-172, pvfactors/geometry/pvground.py
lines 97-129 (see `PVF.fitGeom`).  Clipping of ground elements and cutting at cut points only take
the smaller or the larger of two numbers, without rounding. -/
def fitGeom (p : ArrayParams) (rot : Rot) (sun : Pt) (T : Trig) : StepGeom where
  rot := rot
  sun := sun
  alpha := A.atan2 sun.y sun.x
  row := A.rowGeom p T rot.deg
  ground :=
    { nRows := p.nRows
      shadowXs := fun i => A.shadowXs (A.rowGeom p T rot.deg i).full T.tanSun
      flagOverlap := A.hasDirectShading p T
      cuts := (List.range p.nRows).map fun i => A.cutPointX (A.rowGeom p T rot.deg i).full rot T.tanRot }

/-- `VFTsMethods._distance`: pvfactors/viewfactors/vfmethods.py lines 613-629; the square of a number
is the number times itself.  `TsLineCoords.length` (pvfactors/geometry/timeseries.py lines 302-306)
is computed in the same way. -/
def dist (p q : Pt) : ℝ :=
  let dy := A.sub q.y p.y
  let dx := A.sub q.x p.x
  A.sqrt (A.add (A.mul dy dy) (A.mul dx dx))

/-- `VFTsMethods._angle_with_x_axis`: pvfactors/viewfactors/vfmethods.py lines 631-647. -/
def angle (p q : Pt) : ℝ := A.atan2 (A.sub q.y p.y) (A.sub q.x p.x)

/-- `VFTsMethods._hottel_string_length`: pvfactors/viewfactors/vfmethods.py lines 537-580. -/
def string (ptPv ptGnd ptObstr : Pt) (shadowIsLeft : Bool) : ℝ :=
  let lPv := A.dist ptPv ptGnd
  let alphaPv := A.angle ptGnd ptPv
  let alphaOb := A.angle ptGnd ptObstr
  let lObstr := A.add (A.dist ptGnd ptObstr) (A.dist ptObstr ptPv)
  if shadowIsLeft then (if alphaPv > alphaOb then lObstr else lPv)
  else (if alphaPv < alphaOb then lObstr else lPv)

/-- `VFTsMethods._vf_hottel_gnd_surf`: pvfactors/viewfactors/vfmethods.py lines 473-535. -/
def hottelGnd (high low left right obstr : Pt) (width : ℝ) (shadowIsLeft : Bool) : ℝ :=
  let l1 := if shadowIsLeft then A.string high left obstr shadowIsLeft
    else A.string high right obstr shadowIsLeft
  let l2 := if shadowIsLeft then A.string low right obstr shadowIsLeft
    else A.string low left obstr shadowIsLeft
  let d1 := if shadowIsLeft then A.string high right obstr shadowIsLeft
    else A.string high left obstr shadowIsLeft
  let d2 := if shadowIsLeft then A.string low left obstr shadowIsLeft
    else A.string low right obstr shadowIsLeft
  if width > TOL then A.div (A.sub (A.sub (A.add d1 d2) l1) l2) (A.mul 2 width) else 0

/-- `VFTsMethods._vf_surface_to_surface`: pvfactors/viewfactors/vfmethods.py lines 582-611. -/
def surfSurf (l1 l2 : Line) (width1 : ℝ) : ℝ :=
  let length1 := A.dist l1.b1 l2.b1
  let length2 := A.dist l1.b2 l2.b2
  let length3 := A.dist l1.b1 l2.b2
  let length4 := A.dist l1.b2 l2.b1
  let sum1 := A.add length1 length2
  let sum2 := A.add length3 length4
  if width1 > TOL then A.div |A.sub sum2 sum1| (A.mul 2 width1) else 0

/-- Length of a line, `TsLineCoords.length`: pvfactors/geometry/timeseries.py lines 302-306. -/
def length (l : Line) : ℝ := A.dist l.b1 l.b2

/-- `VFTsMethods.vf_pvrow_surf_to_gnd_surf_obstruction_hottel`:
pvfactors/viewfactors/vfmethods.py lines 105-183 (see `PVF.vfPvGnd`). -/
def vfPvGnd (pvSurf : Line) (pvrowIdx nRows : ℕ) (tiltedToLeft : Prop) (full : ℕ → Line)
    (gndSurf : Line) (pvLength : ℝ) (isBack isLeft : Bool) : ℝ × ℝ :=
  open Classical in
  let noObstruction := (isLeft ∧ pvrowIdx = 0) ∨ (¬ isLeft ∧ pvrowIdx = nRows - 1)
  let vf0 :=
    if noObstruction then A.surfSurf pvSurf gndSurf pvLength
    else
      let idxObstr := if isLeft then pvrowIdx - 1 else pvrowIdx + 1
      A.hottelGnd pvSurf.highest pvSurf.lowest gndSurf.b1 gndSurf.b2 (full idxObstr).lowest
        pvLength isLeft
  let vf :=
    if isLeft then
      (if isBack then (if tiltedToLeft then 0 else vf0) else (if tiltedToLeft then vf0 else 0))
    else
      (if isBack then (if tiltedToLeft then vf0 else 0) else (if tiltedToLeft then 0 else vf0))
  (vf, if A.length gndSurf > TOL then A.div (A.mul vf pvLength) (A.length gndSurf) else 0)

/-- View factors between two PV surfaces of neighbouring rows: pvfactors/viewfactors/vfmethods.py
lines 209-224 and 231-246 (see `PVF.vfPvPv`). -/
def vfPvPv (surfI surfJ : Line) (tiltedToLeft : Prop) (frontToBack : Bool) : ℝ × ℝ :=
  open Classical in
  let v0 := A.surfSurf surfI surfJ (A.length surfI)
  let v := if frontToBack then (if tiltedToLeft then 0 else v0) else (if tiltedToLeft then v0 else 0)
  (v, if A.length surfJ > TOL then A.div (A.mul v (A.length surfI)) (A.length surfJ) else 0)

/-- The assignments made for one PV surface by the two inner loops of `vf_pvrow_gnd_surf`:
pvfactors/viewfactors/vfmethods.py lines 42-71 (front), 74-103 (back). -/
def asgPvGndSurf (p : ArrayParams) (g : StepGeom) (emp : SurfRef → Prop) (r : ℕ) (isBack : Bool)
    (a : SurfRef) : List Asg :=
  open Classical in
  if emp a then [] else
    let side (isLeft : Bool) : List Asg :=
      (gndRefsSide p isLeft r).flatMap fun b =>
        if emp b then [] else
          let v := A.vfPvGnd (g.coords a) r p.nRows (g.rot.deg > 0) (fun k => (g.row k).full)
            (g.coords b) (A.length (g.coords a)) isBack isLeft
          [⟨surfIndex p a, surfIndex p b, v.1⟩, ⟨surfIndex p b, surfIndex p a, v.2⟩]
    side true ++ side false

/-- All assignments of `vf_pvrow_gnd_surf`: pvfactors/viewfactors/vfmethods.py lines 33-103. -/
def asgPvGnd (p : ArrayParams) (g : StepGeom) (emp : SurfRef → Prop) : List Asg :=
  (List.range p.nRows).flatMap fun r =>
    (sideRefs p r .front).flatMap (A.asgPvGndSurf p g emp r false)
    ++ (sideRefs p r .back).flatMap (A.asgPvGndSurf p g emp r true)

/-- The assignments made between one side of row `r` and one side of row `r + 1` by
`vf_pvrow_to_pvrow`: pvfactors/viewfactors/vfmethods.py lines 203-224 (front to back) and 225-246
(back to front). -/
def asgPvPvSides (p : ArrayParams) (g : StepGeom) (emp : SurfRef → Prop) (r : ℕ)
    (frontToBack : Bool) : List Asg :=
  open Classical in
  (sideRefs p r (if frontToBack then .front else .back)).flatMap fun a =>
    if emp a then [] else
      (sideRefs p (r + 1) (if frontToBack then .back else .front)).flatMap fun b =>
        if emp b then [] else
          let v := A.vfPvPv (g.coords a) (g.coords b) (g.rot.deg > 0) frontToBack
          [⟨surfIndex p a, surfIndex p b, v.1⟩, ⟨surfIndex p b, surfIndex p a, v.2⟩]

/-- All assignments of `vf_pvrow_to_pvrow`: pvfactors/viewfactors/vfmethods.py lines 200-246. -/
def asgPvPv (p : ArrayParams) (g : StepGeom) (emp : SurfRef → Prop) : List Asg :=
  (List.range (p.nRows - 1)).flatMap fun r =>
    A.asgPvPvSides p g emp r true ++ A.asgPvPvSides p g emp r false

/-- The matrix before the sky column is filled: pvfactors/viewfactors/calculator.py
lines 90-102. -/
def vfNoSky (p : ArrayParams) (g : StepGeom) (emp : SurfRef → Prop) : ℕ → ℕ → ℝ :=
  applyAsg (applyAsg (fun _ _ => 0) (A.asgPvGnd p g emp)) (A.asgPvPv p g emp)

end Arith

/-- An order in which numbers are added up: numpy chooses the order of the additions of `np.sum`
(external). -/
inductive SumTree where
  | leaf (k : ℕ)
  | node (l r : SumTree)

/-- The numbers of the terms that are added up. -/
def SumTree.leaves : SumTree → Multiset ℕ
  | .leaf k => {k}
  | .node l r => l.leaves + r.leaves

namespace Arith
variable {ε : ℝ} (A : Arith ε)

/-- The computed sum of the terms `f`. -/
def sum (f : ℕ → ℝ) : SumTree → ℝ
  | .leaf k => f k
  | .node l r => A.add (sum f l) (sum f r)

/-- `VFCalculator.build_ts_vf_matrix` at one time step for the coordinates `g`:
pvfactors/viewfactors/calculator.py lines 69-114 (see `PVF.vfMatrix`).  The terms of the sum over a
row are added in the order `T`. -/
def vfMatrix (T : SumTree) (p : ArrayParams) (g : StepGeom) (emp : SurfRef → Prop) (i j : ℕ) : ℝ :=
  let n := nTsSurfaces p
  let m := A.vfNoSky p g emp
  if j = n ∧ i < n then
    let sky := A.sub 1 (A.sum (m i) T)
    if ((allRefs p)[i]?.map fun a => A.length (g.coords a)).getD 0 > TOL then sky else 0
  else m i j

end Arith
end
end PVF
