import Model
open PVF
def chk (name : String) (got exp : Float) (tol : Float := 1e-6) : IO Unit := do
  let e := Float.abs (got - exp)
  let ok := e ≤ tol * max 1 (Float.abs exp)
  IO.println s!"{if ok then "ok  " else "FAIL"} {name}: model {got} expected {exp}"
def chkL (name : String) (got exp : List Float) (tol : Float := 1e-6) : IO Unit := do
  if got.length != exp.length then IO.println s!"FAIL {name}: lengths {got.length} {exp.length}"
  let bad := (got.zip exp).filter fun (a, b) => !(Float.abs (a - b) ≤ tol * max 1 (Float.abs b))
  IO.println s!"{if bad.isEmpty then "ok  " else "FAIL"} {name}: {exp.length} values, {bad.length} bad {bad.take 3}"

/-! pvlib (external) -/
def coeffs : List (List Float) := [
 [-0.0080, 0.5880, -0.0620, -0.0600, 0.0720, -0.0220],
 [0.1300, 0.6830, -0.1510, -0.0190, 0.0660, -0.0290],
 [0.3300, 0.4870, -0.2210, 0.0550, -0.0640, -0.0260],
 [0.5680, 0.1870, -0.2950, 0.1090, -0.1520, -0.0140],
 [0.8730, -0.3920, -0.3620, 0.2260, -0.4620, 0.0010],
 [1.1320, -1.2370, -0.4120, 0.2880, -0.8230, 0.0560],
 [1.0600, -1.6000, -0.3590, 0.2640, -1.1270, 0.1310],
 [0.6780, -0.3270, -0.2500, 0.1560, -1.3770, 0.2510]]
def bins : List Float := [0,1.065,1.23,1.5,1.95,2.8,4.5,6.2]
def perezPvlib (r : PerezIn) : PerezComponents :=
  let z := deg2rad r.solarZenith
  let k := 1.041
  let eps := ((r.dhi + r.dni) / r.dhi + k * z ^ 3) / (1 + k * z ^ 3)
  let delta := r.dhi * r.airmass / r.dniExtra
  let bin := (bins.filter fun b => b ≤ eps).length - 1
  let f := coeffs[bin]!
  let f1 := max (0:Float) (f[0]! + f[1]! * delta + f[2]! * z)
  let f2 := f[3]! + f[4]! * delta + f[5]! * z
  let a := max (aoiProjection r.surfaceTilt r.surfaceAzimuth r.solarZenith r.solarAzimuth) 0
  let b := max (cosd r.solarZenith) (cosd 85)
  let t1 := 0.5 * (1 - f1) * (1 + cosd r.surfaceTilt)
  let t2 := f1 * a / b
  let t3 := f2 * sind r.surfaceTilt
  let sd := max (r.dhi * (t1 + t2 + t3)) 0
  if r.airmass.isNaN || sd == 0 || sd.isNaN then ⟨0, 0, 0, 0⟩
  else ⟨sd, r.dhi * t1, r.dhi * t2, r.dhi * t3⟩
def dniExtra (doy : Float) : Float :=
  let B := 2 * Real.pi * (doy - 1) / 365
  1366.1 * (1.00011 + 0.034221 * Float.cos B + 0.00128 * Float.sin B + 0.000719 * Float.cos (2*B) + 7.7e-05 * Float.sin (2*B))
def airmass (z : Float) : Float :=
  if z > 90 then 0.0/0.0 else 1 / (cosd z + 0.50572 * (6.07995 + (90 - z)) ^ (-1.6364))
def poaGlobal (tilt az sz sa dni ghi dhi alb : Float) : Float :=
  let d := max (dni * aoiProjection tilt az sz sa) 0
  d + dhi * (1 + cosd tilt) / 2 + ghi * alb * (1 - cosd tilt) / 2

structure Case where
  p : ArrayParams
  u : List StepIn
  doy : Float
  doys : Array Float := #[]
  dni : List Float
  dhi : List Float
  alb : List Float
  q : IrrParams

deriving instance Inhabited for PVF.RowSide
deriving instance Inhabited for PVF.SurfRef
deriving instance Inhabited for PVF.FastVF
deriving instance Inhabited for PVF.FullOut
deriving instance Inhabited for PVF.IrrStep
instance : Inhabited StepIn := ⟨⟨0,0,0,0⟩⟩
instance : Inhabited PerezOut := ⟨⟨0,0,0,0⟩⟩

def Case.irr (c : Case) (perezModel : Bool) : List IrrStep :=
  let rows := (List.range c.u.length).map fun t =>
    let u := c.u[t]!
    ({surfaceTilt := u.surfaceTilt, surfaceAzimuth := u.surfaceAzimuth, solarZenith := u.solarZenith, solarAzimuth := u.solarAzimuth,
      dni := c.dni[t]!, dhi := c.dhi[t]!, dniExtra := dniExtra (c.doys.getD t c.doy), airmass := airmass u.solarZenith} : PerezIn)
  let lum := (perezDiffuseLuminance perezPvlib 5 rows).getD []
  (List.range c.u.length).map fun t =>
    let u := c.u[t]!
    let alb := c.alb[t]!
    let ghi := c.dni[t]! * cosd u.solarZenith + c.dhi[t]!
    let pg := poaGlobal u.surfaceTilt u.surfaceAzimuth u.solarZenith u.solarAzimuth c.dni[t]! ghi c.dhi[t]! alb
    let v : IrrIn := ⟨c.dni[t]!, c.dhi[t]!, u.solarZenith, u.solarAzimuth, u.surfaceTilt, u.surfaceAzimuth, alb, none, pg, lum.getD t default⟩
    if perezModel then hybridPerezStep c.q c.p (fitStep c.p u) v else isotropicStep c.q v

@[noinline] def lk (a : Array (Array Float)) (i j : Nat) : Float := a[i]![j]!
@[noinline] def memoA (n : Nat) (m : Nat → Nat → Float) : Array (Array Float) :=
  Array.ofFn fun i : Fin n => Array.ofFn fun j : Fin n => m i j
@[inline] def memo (n : Nat) (m : Nat → Nat → Float) : Nat → Nat → Float := lk (memoA n m)
@[noinline] def applyA (n : Nat) (l : List Asg) : Array (Array Float) := Id.run do
  let mut a : Array (Array Float) := Array.replicate n (Array.replicate n 0.0)
  for x in l do a := a.set! x.i ((a[x.i]!).set! x.j x.v)
  return a
@[noinline] def Case.empL (c : Case) : List (SurfRef × Bool) :=
  let refs := allRefs c.p
  let gs := c.u.map (fitStep c.p)
  refs.map fun a => (a, @isEmptyTs (Fin gs.length) _ (fun t => gs[t]) a)
@[noinline] def lkE (l : List (SurfRef × Bool)) (a : SurfRef) : Bool := (l.lookup a).getD true
@[inline] def Case.emp (c : Case) : SurfRef → Bool := lkE c.empL

@[noinline] def Case.vfA (c : Case) (t : Nat) : Array (Array Float) :=
  let n := nTsSurfaces c.p + 1
  let g := fitStep c.p c.u[t]!
  let L := c.empL
  let e := lkE L
  let m := applyA n (asgPvGnd c.p g e ++ asgPvPv c.p g e)
  memoA n (vfMatrix c.p g (lk m))
@[inline] def Case.vf (c : Case) (t : Nat) : Nat → Nat → Float := lk (c.vfA t)

def Case.full (c : Case) (perezModel : Bool) (aoi : Option AOIMethods := none) : List FullOut :=
  let irr := c.irr perezModel
  (List.range c.u.length).map fun t =>
    let g := fitStep c.p c.u[t]!
    let A := c.vfA t
    let L := c.empL
    let asg := aoi.map fun m => asgAoi m c.p g (lkE L) (fun k => (dummySky c.p g k).length < TOL)
    match irr[t]? with
    | some s => fullStep c.p s (lk A) asg
    | none => panic! "x"

def Case.len (c : Case) (t : Nat) (a : SurfRef) : Float := ((fitStep c.p c.u[t]!).coords a).length
def Case.side (c : Case) (t r : Nat) (s : RowSide) (val : SurfRef → Float) : Float :=
  sideWeighted (c.len t) val (sideColl c.p r s)

def irrQ : IrrParams := { rhoFront := 0.01, rhoBack := 0.03, moduleTransparency := 0, moduleSpacingRatio := 0, faoiFront := none, faoiBack := none, horizonBandAngle := 6.5 }
def params : ArrayParams := { axisAzimuth := 0, gcr := 0.4, height := 2.5, width := 2, nRows := 3, cut := fun _ => {} }
def base : Case := { p := params, u := [⟨20, 90, 20, 90⟩], doy := 162, dni := [1000], dhi := [100], alb := [0.2], q := irrQ }

def faoi1 : Float → Float := fun _ => 1

def toF (s : String) : Float := match s.toList with
  | '-' :: r => - go (String.ofList r)
  | _ => go s
where go (s : String) : Float :=
  if s == "nan" then 0.0/0.0 else
  let (s, e) := match s.splitOn "e" with | [a, b] => (a, b.toInt!) | _ => (s, 0)
  match s.splitOn "." with
  | [a, b] => let m := (a ++ b).toNat!; let ex : Int := e - b.length
              if ex < 0 then Float.ofScientific m true ex.natAbs else Float.ofScientific m false ex.natAbs
  | _ => Float.ofNat s.toNat!

def main (args : List String) : IO Unit := do
  -- test_engine.py test_pvengine_float_inputs_iso
  let f := base.full false
  let f0 := f[0]?.get!
  chk "iso qinc front 0" (base.side 0 0 .front f0.qinc) 1099.22245374 1e-9
  chk "iso qinc front 1" (base.side 0 1 .front f0.qinc) 1099.6948573 1e-9
  chk "iso qinc front 2" (base.side 0 2 .front f0.qinc) 1102.76149246 1e-9
  chk "iso qabs front 1" (base.side 0 1 .front f0.qabs) (1099.6948573*0.99) 1e-9
  let f := base.full true
  let f0 := f[0]?.get!
  chk "perez qinc front 0" (base.side 0 0 .front f0.qinc) 1110.1164773159298 1e-9
  chk "perez qinc front 1" (base.side 0 1 .front f0.qinc) 1110.595903991 1e-9
  chk "perez qinc front 2" (base.side 0 2 .front f0.qinc) 1112.37717553 1e-9
  chk "perez qinc back 1" (base.side 0 1 .back f0.qinc) 116.49050349491208 1e-9
  chk "perez qabs front 2" (base.side 0 2 .front f0.qabs) (1112.37717553 * 0.99) 1e-9
  chk "perez qabs back 1" (base.side 0 1 .back f0.qabs) (116.49050349491208*0.97) 1e-9
  -- timeseries perez
  let c : Case := { p := {axisAzimuth := 0, gcr := 0.3, height := 1.5, width := 1, nRows := 2, cut := fun _ => {}}
                    u := [⟨33.85139897,131.6267856,25.6875,90⟩, ⟨33.69866897,131.9740324,25.6925,90⟩]
                    doy := 105, dni := [1028.370017,1028.490326], dhi := [90.505481, 90.557651], alb := [0.22,0.22], q := irrQ }
  let f := c.full true
  chkL "ts qinc_front" ((List.range 2).map fun t => c.side t 1 .front (f[t]?.get!).qinc) [1066.272392, 1065.979824] 1e-9
  chkL "ts qinc_back" ((List.range 2).map fun t => c.side t 1 .back (f[t]?.get!).qinc) [135.897106, 136.01297] 1e-8
  chkL "ts iso_front" ((List.range 2).map fun t => c.side t 1 .front (f[t]?.get!).isotropic) [42.816637, 42.780206] 1e-8
  chkL "ts iso_back" ((List.range 2).map fun t => c.side t 1 .back (f[t]?.get!).isotropic) [1.727308, 1.726535] 1e-6
  -- fast mode
  let fast (c : Case) (pm : Bool) (i : Int) (seg : Option Int) (val : (SurfRef → Float) → Float) : Float :=
    let s := (c.irr pm)[0]?.get!
    let o := runFastMode c.p (fitStep c.p c.u[0]!) s i seg
    val fun a => ((o a).map fun x => x.qinc).getD (0.0/0.0)
  chk "fast iso" (fast base false 1 (some 0) (base.side 0 1 .back)) 122.73453 1e-7
  chk "fast perez" (fast base true 1 none (base.side 0 1 .back)) 119.095285 1e-7
  let c5 : Case := { base with p := { params with cut := fun i => if i = 1 then {back := some 5} else {} } }
  chk "fast segments" (fast c5 true 1 (some 2) (fun v => segWeighted (c5.len 0) v ⟨[.pv 1 .back 2 false], [.pv 1 .back 2 true]⟩)) 116.572594 1e-7
  let cb : Case := { base with p := { params with gcr := 0.6 }, u := [⟨70, 90, 120, 270⟩] }
  chk "fast back shading" (fast cb true 1 (some 0) (cb.side 0 1 .back)) 683.537153 1e-7
  let qt := { irrQ with moduleTransparency := 0.1, moduleSpacingRatio := 0.1 }
  let ct : Case := { base with q := qt }
  chk "transparency full" (ct.side 0 1 .back ((ct.full true)[0]?.get!).qinc) 132.13881181118185 1e-9
  chk "transparency fast" (fast ct true 1 none (ct.side 0 1 .back)) 134.7143531 1e-9
  -- direct shading continuity
  let cc : Case := { p := {axisAzimuth := 0, gcr := 0.4, height := 1.5, width := 2.5, nRows := 3, cut := fun _ => {}}
                     u := [⟨81.275,295.9557133,15.18714669,270⟩, ⟨81.276,295.9557133,15.18714669,270⟩]
                     doy := 176, dni := [1000,1000], dhi := [100,100], alb := [0.2,0.2], q := irrQ }
  let f := cc.full true
  chkL "continuity" ((List.range 2).map fun t => cc.side t 1 .back (f[t]?.get!).qinc) [20.936348, 20.942163] 1e-7
  let g0 := fitStep cc.p cc.u[0]!
  let g1 := fitStep cc.p cc.u[1]!
  IO.println s!"direct shading {g0.ground.flagOverlap} {g1.ground.flagOverlap} (expected false true)"
  -- tilt zero
  for az in [90.0, 270] do
    for ax in [0.0, 180] do
      let cz : Case := { p := {axisAzimuth := ax, gcr := 0.4, height := 2, width := 1, nRows := 3, cut := fun _ => {}}
                         u := [⟨45,135,0,az⟩], doy := 152, dni := [200], dhi := [400], alb := [0.2], q := irrQ }
      chk s!"tilt zero {az} {ax}" (cz.side 0 1 .back ((cz.full true)[0]?.get!).qinc) 76.10 2e-4
  -- vf matrix with cuts
  let cv : Case := { base with p := { params with cut := fun i => if i = 0 then {front := some 3} else if i = 1 then {back := some 2} else {} } }
  let n := nTsSurfaces cv.p
  IO.println s!"n surfaces {n} (expected 46)"
  let idx := (List.range n).filter fun i => surfLen cv.p (fitStep cv.p cv.u[0]!) i > 0
  let mA := cv.vfA 0
  let m := lk mA
  let EL := cv.empL
  let got := idx.flatMap fun i => idx.map fun j => m i j
  let exp ← IO.FS.readFile "vf_expected.txt"
  let expL := (exp.splitOn " ").filterMap fun s => s.toNat?.map fun k => k.toFloat / 1000
  chkL "vf matrix" got expL 5.01e-4
  -- AOI sky column
  let am : AOIMethods := ⟨faoi1, faoi1, 300⟩
  let g := fitStep cv.p cv.u[0]!
  let asg := asgAoiSky am cv.p g (lkE EL) (fun k => (dummySky cv.p g k).length < TOL)
  let col := (List.range 47).map fun i => (applyAsg (fun _ _ => 0) asg) i n
  chkL "aoi sky column" col ((List.replicate 28 0.0) ++ [0.96679021, 0.,
                           0.95461805, 0., 0.93560691, 0., 0.03511176,
                           0., 0.95461805, 0., 0.02611579, 0.,
                           0.01841872, 0., 0.97552826, 0., 0.02134025,
                           0., 0.]) 1e-7
  -- AOI full matrix rows sum to one
  let am2 : AOIMethods := ⟨faoi1, faoi1, 10000⟩
  let asg2 := asgAoi am2 cv.p g (lkE EL) (fun k => (dummySky cv.p g k).length < TOL)
  let m2A := applyA (n+1) asg2
  let m2 := lk m2A
  let rows := idx.filter (· ≥ 28)
  chkL "aoi rows" (rows.map fun i => sumR (n+1) (m2 i)) (List.replicate 9 1.0) 1.1e-3
  -- vf pv gnd obstruction
  let gb := fitStep params ⟨20, 90, 20, 90⟩
  let vfpg (r : Nat) (side : RowSide) (left : Bool) (k : Nat) : Float × Float :=
    let b := (gndRefsSide params left r)[k]?.get!
    let a := (sideRefs params r side)[0]?.get!
    vfPvGnd (gb.coords a) r 3 (gb.rot.deg > 0) (fun k => (gb.row k).full) (gb.coords b) (gb.coords a).length (side == .back) left
  let chk2 (s : String) (v : Float × Float) (a b : Float) : IO Unit := do chk s v.1 a 1e-8; chk s v.2 b 1e-8
  chk2 "vf1" (vfpg 0 .back true 0) 0.33757309 0.31721494009
  chk2 "vf2" (vfpg 1 .front false 12) 0.00502823674 0.0020112947
  chk2 "vf3" (vfpg 1 .back false 12) 0 0
  chk2 "vf4" (vfpg 2 .back true 0) 0.01191152457 0.01119317174
  -- fast view factors
  let pf : ArrayParams := {axisAzimuth := 0, gcr := 0.7, height := 1.5, width := 2, nRows := 3, cut := fun _ => {}}
  let us : List StepIn := [⟨45,90,40,90⟩,⟨60,90,40,270⟩,⟨45,270,40,90⟩,⟨60,270,40,270⟩,⟨0,90,0,90⟩]
  let vfs := us.map fun u => let g := fitStep pf u; fastVF pf g 1 ((g.row 1).back[0]?.get!).coords
  chkL "fast shadows" ((List.range 3).flatMap fun e => vfs.map fun v => v.toEachGndShadow[e]!) [0.053677, -0., 0.04077, 0.392779, 0.089299,
        0.44436, -0., 0.004818, 0.323486, 0.5, 0.231492, 0.170844, -0., 0.030375, 0.089299] 1e-6
  chkL "fast gnd total" (vfs.map (·.toGndTotal)) [0.752735, 0.752735, 0.752735, 0.752735, 1.] 1e-6
  chkL "fast gnd illum" (vfs.map (·.toGndIllum)) [0.023205, 0.581891, 0.707147, 0.006094, 0.321402] 1e-6
  chkL "fast pvrow total" (vfs.map (·.toPvrowTotal)) [0.176386, 0.176386, 0.176386, 0.176386, 0.] 1e-6
  chkL "fast pvrow shaded" (vfs.map (·.toPvrowShaded)) [0., 0., 0., 0.068506, 0.] 1e-6
  chkL "fast sky" (vfs.map (·.toSky)) [0.070879, 0.070879, 0.070879, 0.070879, -0.] 1e-6
  -- hybrid perez front/back irradiance vectors
  let ch : Case := { p := {params with gcr := 0.6}, u := [⟨65,90,20,90⟩], doy := 165, dni := [1000], dhi := [100], alb := [0.2], q := {irrQ with horizonBandAngle := 6.5} }
  let s := (ch.irr true)[0]?.get!
  chk "iso lum" s.sky 63.21759296 1e-9
  chkL "hp front irr" ((allRefs ch.p).map fun a => sumComponents (s.comp a)) (List.replicate 12 0 ++ List.replicate 16 459.40066878 ++ [775.89816756, 7.24863775, 7.24863775, 7.24863775,
        775.89816756, 7.24863775, 2.14526923, 0.,
        775.89816756, 7.24863775, 2.14526923, 0.]) 1e-8
  chkL "hp front perez" ((allRefs ch.p).map fun a => s.totalPerez a) (List.replicate 12 63.21759296 ++ List.replicate 16 522.61826174 ++ [807.243186, 38.59365619, 0., 0.,
        807.243186, 38.59365619, 0., 0.,
        807.243186, 38.59365619, 0., 0.]) 1e-8
  let ch : Case := { ch with u := [⟨65,90,160,270⟩], q := {irrQ with horizonBandAngle := 50} }
  let s := (ch.irr true)[0]?.get!
  chk "iso lum" s.sky 63.21759296 1e-9
  chkL "hp back irr" ((allRefs ch.p).map fun a => sumComponents (s.comp a)) (List.replicate 12 0 ++ List.replicate 16 459.40066878 ++ [7.24863775, 7.24863775, 774.72555557, 3.61016321,
        7.24863775, 7.24863775, 774.72555557, 3.61016321,
        7.24863775, 7.24863775, 775.89816756, 7.24863775]) 1e-8
  -- disk shading and horizon band
  chk "disk" (uniformDiskShading 20) 14.2378489933 1e-10
  chkL "band" ([-10., 0., 3., 9., 20.].map fun a => horizonBandShading a 15) [0., 0., 20., 60., 100.]
  -- test_engine.py test_fast_mode_8760 (NaN steps, where the tracker has no tilt, are ignored by nansum)
  let txt ← IO.FS.readFile "met.txt"
  let met := (txt.splitOn "\n").toArray.map fun l => ((l.splitOn " ").map toF).toArray
  let ok := met.filter fun r => !(r[5]!.isNaN || r[6]!.isNaN)
  IO.println s!"steps {met.size}, with tilt {ok.size}"
  let p1 := { params with nRows := 1 }
  let mut tot := 0.0
  for r in ok do
    let c : Case := { p := p1, u := [⟨r[3]!, r[4]!, r[5]!, r[6]!⟩], doy := r[0]!, dni := [r[1]!], dhi := [r[2]!], alb := [0.2], q := irrQ }
    let v := fast c true 0 none (c.side 0 0 .back)
    if !v.isNaN then tot := tot + v
  chk "fast 8760" (tot / 1000) 342.848005 1e-7
  -- test_engine.py test_engine_variable_albedo
  let idx := (List.range 100).filter fun k => !((met[k]!)[5]!.isNaN)
  let col (k : Nat) := idx.map fun i => (met[i]!)[k]!
  let ca : Case := { p := params, u := idx.map fun i => let r := met[i]!; ⟨r[3]!, r[4]!, r[5]!, r[6]!⟩,
                     doy := 0, doys := (col 0).toArray, dni := col 1, dhi := col 2,
                     alb := idx.map fun i => 0.01 + 0.99 * i.toFloat / 99, q := irrQ }
  let f := (ca.full true).toArray
  let sm (s : RowSide) (val : FullOut → SurfRef → Float) : Float := Id.run do
    let mut x := 0.0
    for t in [0:idx.length] do
      let v := ca.side t 1 s (val f[t]!)
      if !v.isNaN then x := x + v
    return x
  chk "albedo bfg" (sm .back (·.qinc) / sm .front (·.qinc) * 100) 14.973198 1e-7
  chk "albedo bfg aoi" (sm .back (·.qabs) / sm .front (·.qabs) * 100) 14.670709 1e-7
