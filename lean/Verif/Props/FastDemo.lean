import Verif.Props.FastFull
import Verif.Props.EndToEnd

/-!
# Fast mode: concrete cases, negative row indices (C48)
-/

namespace PVF

/-- Two vertical rows of width 2 at distance 5, the back of the first one in two segments. -/
noncomputable def vertArray : ArrayParams where
  axisAzimuth := 0
  gcr := 2 / 5
  height := 3 / 2
  width := 2
  nRows := 2
  cut := fun i => if i = 0 then { back := some 2 } else {}

/-- Vertical rows looking to the left, sun on the left, 45 degrees above the horizon. -/
noncomputable def vertStep : StepIn where
  solarZenith := 45
  solarAzimuth := 270
  surfaceTilt := 90
  surfaceAzimuth := 270

theorem sind_45 : sind 45 = Real.sqrt 2 / 2 := by
  have : deg2rad 45 = Real.pi / 4 := by unfold deg2rad; ring
  simp [sind, this]

theorem cosd_45 : cosd 45 = Real.sqrt 2 / 2 := by
  have : deg2rad 45 = Real.pi / 4 := by unfold deg2rad; ring
  simp [cosd, this]

theorem vert_rot : rotationFromTiltAzimuth vertStep.surfaceAzimuth vertArray.axisAzimuth
    vertStep.surfaceTilt = ⟨90, false⟩ := by
  have : pyMod (270 - 0) 360 = 270 := by
    unfold pyMod
    have : ⌊(270 - 0 : ℝ) / 360⌋ = 0 := by
      rw [Int.floor_eq_iff]; norm_num
    rw [this]; norm_num
  simp only [rotationFromTiltAzimuth, vertStep, vertArray, this]
  norm_num

theorem vert_sun : solar2dVector vertStep.solarZenith vertStep.solarAzimuth
    vertArray.axisAzimuth = ⟨-(Real.sqrt 2 / 2), Real.sqrt 2 / 2⟩ := by
  simp only [solar2dVector, vertStep, vertArray, sind_45, cosd_45,
    show (270 - 0 - 90 : ℝ) = 180 by norm_num, cosd_180]
  simp

theorem vert_alpha : arctan2 (Real.sqrt 2 / 2) (-(Real.sqrt 2 / 2)) = 3 * Real.pi / 4 := by
  have h : (⟨-(Real.sqrt 2 / 2), Real.sqrt 2 / 2⟩ : ℂ)
      = (1 : ℝ) * (Complex.cos ((3 * Real.pi / 4 : ℝ) : ℂ)
        + Complex.sin ((3 * Real.pi / 4 : ℝ) : ℂ) * Complex.I) := by
    have h3 : 3 * Real.pi / 4 = Real.pi - Real.pi / 4 := by ring
    apply Complex.ext
    · rw [← Complex.ofReal_cos, ← Complex.ofReal_sin, h3, Real.cos_pi_sub, Real.cos_pi_div_four]
      simp
    · rw [← Complex.ofReal_cos, ← Complex.ofReal_sin, h3, Real.sin_pi_sub, Real.sin_pi_div_four]
      simp
  unfold arctan2
  rw [h, Complex.arg_mul_cos_add_sin_mul_I one_pos]
  constructor <;> linarith [Real.pi_pos]

theorem vert_fit : fitStep vertArray vertStep
    = fitGeom vertArray ⟨90, false⟩ ⟨-(Real.sqrt 2 / 2), Real.sqrt 2 / 2⟩ := by
  unfold fitStep; rw [vert_rot, vert_sun]

theorem vert_interrow : interrowShading vertArray (3 * Real.pi / 4) 90 = (0, 0) := by
  have hb : deg2rad (90 - 90 + rad2deg (3 * Real.pi / 4)) = Real.pi - Real.pi / 4 := by
    unfold deg2rad rad2deg
    have := Real.pi_ne_zero
    field_simp
    ring
  have hd : shadingDelta vertArray.distance (3 * Real.pi / 4) 90 = 5 := by
    unfold shadingDelta
    simp only [hb]
    rw [Real.tan_pi_sub, Real.tan_pi_div_four]
    have : deg2rad (90 - 90) = 0 := by simp [deg2rad]
    rw [this]
    norm_num [ArrayParams.distance, vertArray]
  unfold interrowShading
  simp only [hd]
  norm_num [vertArray]

theorem vert_physicalArray : PhysicalArray vertArray :=
  ⟨by norm_num [vertArray], by norm_num [vertArray]⟩

theorem vert_physicalStep : PhysicalStep vertArray vertStep where
  tilt_nonneg := by norm_num [vertStep]
  tilt_lt := by norm_num [vertStep]
  above := by
    have : sind vertStep.surfaceTilt = 1 := sind_90
    rw [this]; norm_num [vertArray]
  sun_y := by rw [vert_sun]; positivity
  sun_front := by
    rw [vert_sun, vert_rot]
    simp only [frontDotSun, sind_90, cosd_90]
    have : 0 < Real.sqrt 2 := by positivity
    intro h; linarith
  shade_ok := by
    rw [vert_sun, vert_rot]
    have : 0 < Real.sqrt 2 := by positivity
    right; left
    simp only [frontDotSun, sind_90, cosd_90]
    norm_num [vertArray, abs_of_pos this]

theorem vert_xs (i : ℕ) (hi : i < 2) :
    (fitStep vertArray vertStep).ground.noOverlap i = (5 * (i : ℝ) + 1 / 2, 5 * (i : ℝ) + 5 / 2) := by
  have h3 : 3 * Real.pi / 4 = Real.pi - Real.pi / 4 := by ring
  have hx : shadowXs (fullRowCoords (rowCenter vertArray i) vertArray.width 90) (3 * Real.pi / 4)
      = (5 * (i : ℝ) + 1 / 2, 5 * (i : ℝ) + 5 / 2) := by
    have hs : Real.sqrt 2 / 2 ≠ 0 := by positivity
    unfold shadowXs
    rw [fullRowCoords_eq, h3, Real.cos_pi_sub, Real.sin_pi_sub, Real.cos_pi_div_four,
      Real.sin_pi_div_four]
    simp only [rowPt, sind_90, cosd_90, rowCenter, X_ORIGIN, Y_GROUND]
    have e : ∀ y : ℝ, y * -(Real.sqrt 2 / 2) / (Real.sqrt 2 / 2) = -y := by
      intro y; field_simp
    simp only [e]
    norm_num [vertArray, ArrayParams.distance]
    ring
  have hf : ¬ hasDirectShading vertArray (3 * Real.pi / 4) 90 := by
    unfold hasDirectShading; rw [vert_interrow]
    have := TOL_pos
    simp only [gt_iff_lt]; push Not; constructor <;> linarith
  rw [vert_fit]
  simp only [GroundIn.noOverlap, fitGeom, groundFromRows, vert_alpha, hf, and_false, if_false]
  rw [Prod.mk.injEq]
  exact ⟨congrArg Prod.fst hx, congrArg Prod.snd hx⟩

theorem vert_cuts : (fitStep vertArray vertStep).ground.cuts = [.fin 0, .fin 5] := by
  have : ∀ i, cutPointX (fullRowCoords (rowCenter vertArray i) vertArray.width 90) ⟨90, false⟩
      = .fin (5 * i) := by
    intro i
    have := cutPointX_row vertArray ⟨90, false⟩ i
    simp only [cosd_90, sind_90] at this
    rw [this]
    norm_num [vertArray, ArrayParams.distance]
    ring
  rw [vert_fit]
  simp only [fitGeom, groundFromRows]
  change (List.range 2).map (fun i => cutPointX (fullRowCoords (rowCenter vertArray i)
    vertArray.width 90) ⟨90, false⟩) = _
  simp only [this]
  simp [List.range_succ]

/-- All surfaces of the array are points or longer than the tolerance. -/
theorem vert_lengths : ∀ a ∈ surfaces vertArray,
    lengthAt vertArray vertStep a = 0 ∨ lengthAt vertArray vertStep a > TOL := by
  have horiz : ∀ (x y h : ℝ), Line.length ⟨⟨x, h⟩, ⟨y, h⟩⟩ = |y - x| := by
    intro x y h
    simp [Line.length, Real.sqrt_sq_eq_abs]
  have hn : (fitStep vertArray vertStep).ground.nRows = 2 := rfl
  have x0 := vert_xs 0 (by norm_num)
  have x1 := vert_xs 1 (by norm_num)
  intro a hm
  rw [mem_surfaces] at hm
  unfold lengthAt
  match a with
  | .gnd false e z =>
    have hm := mem_allRefs_gnd.1 hm
    simp only [Bool.false_eq_true, if_false, vertArray] at hm
    obtain ⟨he, hz⟩ := hm
    interval_cases e <;> interval_cases z <;>
    simp [StepGeom.coords, GroundIn.illumEl, GroundIn.shadowEl, x0, x1, hn, vert_cuts,
      cutSurfaces, coordsLeftOfCut, leftOfCutX, coordsRightOfCut, rightOfCutX,
      clip, MIN_X, MAX_X, TOL, Y_GROUND, horiz] <;> norm_num
  | .gnd true e z =>
    have hm := mem_allRefs_gnd.1 hm
    simp only [if_true, vertArray] at hm
    obtain ⟨he, hz⟩ := hm
    interval_cases e <;> interval_cases z <;>
    simp [StepGeom.coords, GroundIn.illumEl, GroundIn.shadowEl, x0, x1, hn, vert_cuts,
      cutSurfaces, coordsLeftOfCut, leftOfCutX, coordsRightOfCut, rightOfCutX,
      clip, MIN_X, MAX_X, TOL, Y_GROUND, horiz] <;> norm_num
  | .pv i s k sh =>
    obtain ⟨hi, hk⟩ := mem_allRefs_pv.1 hm
    rw [vert_fit, length_pv hk sh (by norm_num [vertArray]) (by norm_num) (by norm_num)]
    have hsh : sideShade vertArray (arctan2 (Real.sqrt 2 / 2) (-(Real.sqrt 2 / 2))) 90 i s = 0 := by
      unfold sideShade rowShadedLengths
      rw [vert_alpha, vert_interrow]
      cases s <;> simp
    unfold pvIv
    simp only [hsh]
    have hi : i < 2 := hi
    interval_cases i <;> cases s <;>
      simp [vertArray, ArrayParams.nSeg, ArrayParams.nBack, ArrayParams.nFront] at hk <;>
      first | subst hk | interval_cases k
    all_goals cases sh <;>
      simp [tIv, tSeg, TOL, vertArray, ArrayParams.nSeg, ArrayParams.nBack,
        ArrayParams.nFront] <;> norm_num

theorem vert_mem (k : ℕ) (hk : k < 2) (sh : Bool) : SurfRef.pv 0 .back k sh ∈ surfaces vertArray :=
  mem_surfaces.2 (mem_allRefs_pv.2 (by
    simpa [vertArray, ArrayParams.nSeg, ArrayParams.nBack] using hk))

theorem vert_deg : (fitStep vertArray vertStep).rot.deg = 90 := by rw [vert_fit]; rfl

theorem vert_low (j : ℕ) : ((fitStep vertArray vertStep).row j).full.lowest = ⟨5 * j, 1 / 2⟩ := by
  have := full_lowest (physical_of vert_physicalArray vert_physicalStep) j
  rw [vert_rot] at this
  have h2 : ((fitStep vertArray vertStep).row j).full
      = fullRowCoords (rowCenter vertArray j) vertArray.width 90 := by rw [vert_fit]; rfl
  rw [h2, this]
  simp only [tPt, rowPt, cosd_90, sind_90, rowCenter]
  norm_num [vertArray, ArrayParams.distance, X_ORIGIN, Y_GROUND]
  ring

theorem vert_upper : ((fitStep vertArray vertStep).coords (.pv 0 .back 1 false)).lowest
    = ⟨0, 3 / 2⟩ := by
  have hph := physical_of vert_physicalArray vert_physicalStep
  rw [vert_rot] at hph
  have := (pv_highest_lowest (rot := ⟨90, false⟩)
    (sun := ⟨-(Real.sqrt 2 / 2), Real.sqrt 2 / 2⟩) hph (r := 0) (s := .back) (k := 1)
    (by simp [vertArray, ArrayParams.nSeg, ArrayParams.nBack]) false).2
  rw [vert_fit, this]
  have hsh : sideShade vertArray (arctan2 (Real.sqrt 2 / 2) (-(Real.sqrt 2 / 2))) 90 0 .back = 0 := by
    unfold sideShade rowShadedLengths
    rw [vert_alpha, vert_interrow]
    simp
  unfold pvIv
  simp only [hsh]
  simp only [tPt, rowPt, cosd_90, sind_90, rowCenter]
  norm_num [vertArray, ArrayParams.distance, X_ORIGIN, Y_GROUND, tIv, tSeg, ArrayParams.nSeg,
    ArrayParams.nBack]

theorem vert_len (k : ℕ) (hk : k < 2) : lengthAt vertArray vertStep (.pv 0 .back k false) = 1 := by
  unfold lengthAt
  have hk' : k < vertArray.nSeg 0 .back := by
    simpa [vertArray, ArrayParams.nSeg, ArrayParams.nBack] using hk
  rw [vert_fit, length_pv hk' false (by norm_num [vertArray]) (by norm_num) (by norm_num)]
  have hsh : sideShade vertArray (arctan2 (Real.sqrt 2 / 2) (-(Real.sqrt 2 / 2))) 90 0 .back = 0 := by
    unfold sideShade rowShadedLengths
    rw [vert_alpha, vert_interrow]
    simp
  unfold pvIv
  simp only [hsh]
  interval_cases k <;> norm_num [tIv, tSeg, vertArray, ArrayParams.nSeg, ArrayParams.nBack]

theorem vert_cut_aligned (r : ℕ) : Aligned ⟨5 * r, 0⟩ ((fitStep vertArray vertStep).row r).full.b1
    ((fitStep vertArray vertStep).row r).full.b2 := by
  have h2 : ((fitStep vertArray vertStep).row r).full
      = fullRowCoords (rowCenter vertArray r) vertArray.width 90 := by rw [vert_fit]; rfl
  rw [h2, fullRowCoords_eq]
  simp only [Aligned, rowPt, cosd_90, sind_90, rowCenter]
  norm_num [vertArray, ArrayParams.distance, X_ORIGIN, Y_GROUND]
  ring

/-- The hypotheses of C28 to C30 and C29 can be met: the upper segment on the back of the first row,
which sees the ground below the second row. -/
theorem C29_demo (t : Fin 3) :
    let g := fitStep vertArray vertStep
    let a := SurfRef.pv 0 .back 1 false
    let F := tsVfMatrix vertArray (fun _ => vertStep) t
    let v := fastVF vertArray g 0 (g.coords a)
    v.toGndTotal = vfToPart vertArray F a SurfRef.isGround ∧
    v.toGndShaded = vfToPart vertArray F a (fun b => b.isGround && b.isShaded) ∧
    v.toPvrowTotal = vfToPart vertArray F a (fun b => !b.isGround) ∧
    v.toSky = vfToSky vertArray F a := by
  intro g a F v
  have hcut : ∀ i < vertArray.nRows, 0 < vertArray.nFront i := by
    intro i hi
    simp only [vertArray, ArrayParams.nFront]
    split_ifs <;> simp
  have h1 : v.toGndTotal = vfToPart vertArray F a SurfRef.isGround := by
    refine (C29_ground_inner vertArray (fun _ => vertStep) t vert_physicalArray vert_physicalStep
      vert_lengths 0 1 false (vert_mem 1 (by norm_num) false) 1 (by rw [vert_deg]; norm_num)
      (by rw [vert_deg]; simp [vertArray]) 0 (by norm_num [MIN_X, MAX_X])
      (by simpa using vert_cut_aligned 0)).2 ⟨15 / 2, by norm_num [MIN_X, MAX_X], ?_⟩
    change Aligned _ ((fitStep vertArray vertStep).row 1).full.lowest
      ((fitStep vertArray vertStep).coords (.pv 0 .back 1 false)).lowest
    rw [vert_upper, vert_low]
    norm_num [Aligned]
  refine ⟨h1, C29_shadows vertArray (fun _ => vertStep) t vert_physicalArray vert_physicalStep
    vert_lengths 0 1 false (vert_mem 1 (by norm_num) false),
    (C29_rows vertArray (fun _ => vertStep) t vert_physicalArray vert_physicalStep
    vert_lengths 0 1 false (vert_mem 1 (by norm_num) false) hcut).1,
    (C29_sky vertArray (fun _ => vertStep) t vert_physicalArray vert_physicalStep
    vert_lengths 0 1 false (vert_mem 1 (by norm_num) false) hcut h1.symm ?_).2⟩
  change lengthAt vertArray vertStep _ > TOL
  rw [vert_len 1 (by norm_num)]; norm_num [TOL]

/-- The second row has no neighbour behind its back. -/
theorem C29_demo_edge (t : Fin 3) :
    let g := fitStep vertArray vertStep
    let a := SurfRef.pv 1 .back 0 false
    vfToPart vertArray (tsVfMatrix vertArray (fun _ => vertStep) t) a SurfRef.isGround
      = (fastVF vertArray g 1 (g.coords a)).toGndTotal :=
  C29_ground_edge vertArray (fun _ => vertStep) t vert_physicalArray vert_physicalStep
    vert_lengths 1 0 false (mem_surfaces.2 (mem_allRefs_pv.2 (by
      simp [vertArray, ArrayParams.nSeg, ArrayParams.nBack])))
    (by rw [vert_deg]; simp [vertArray])
    (Or.inr ⟨5, by simpa using vert_cut_aligned 1, by rw [vert_deg]; norm_num [MAX_X]⟩)

/-- The hypotheses of C47 can be met. -/
theorem C47_demo (t : Fin 3) :
    let a := SurfRef.pv 0 .back 1 false
    let F := tsVfMatrix vertArray (fun _ : Fin 3 => vertStep) t
    let s := isotropicStep demoIrrParams demoIrrIn
    ∃ o f, runFullMode vertArray (fun _ => vertStep) (fun _ => s) (fun _ => none) = some o ∧
      runFastMode vertArray (fitStep vertArray vertStep) s (0 : ℕ) none a = some f ∧
      f.qinc - (o t).qinc a
        = ∑ b ∈ surfaces vertArray, vfBetween vertArray F a b
            * (assumedRadiosity s b - (o t).q0 b) := by
  intro a F s
  obtain ⟨o, ho⟩ := C07_isotropic vertArray (fun _ : Fin 3 => vertStep) demoIrrParams
    (fun _ => demoIrrIn) (fun _ => none) (fun _ => demo_losses) vert_physicalArray
    (fun _ => vert_physicalStep)
  have hsome : (runFastMode vertArray (fitStep vertArray vertStep) s (0 : ℕ) none a).isSome :=
    (C30_targets _ _ _ _ _).2 ⟨1, false, by simp [vertArray, ArrayParams.nBack], rfl⟩
  obtain ⟨f, hf⟩ := Option.isSome_iff_exists.1 hsome
  refine ⟨o, f, ho, hf, ?_⟩
  have hcut : ∀ i < vertArray.nRows, 0 < vertArray.nFront i := by
    intro i hi
    simp only [vertArray, ArrayParams.nFront]
    split_ifs <;> simp
  have := C47_difference vertArray (fun _ : Fin 3 => vertStep) t vert_physicalArray
    vert_physicalStep vert_lengths hcut (fun _ => s) (fun _ => none) o ho
    (fun t => (demo_losses).inverse_isotropic vertArray) 0 1 false
    (vert_mem 1 (by norm_num) false) (by
      change lengthAt vertArray vertStep _ > TOL
      rw [vert_len 1 (by norm_num)]; norm_num [TOL]) f hf
  simp only at this
  have hv : f.viewFactors = fastVF vertArray (fitStep vertArray vertStep) (0 : ℕ)
      ((fitStep vertArray vertStep).coords a) := by
    rw [runFastMode_eq] at hf
    split_ifs at hf
    simp only [Option.some.injEq] at hf
    rw [← hf]; rfl
  have h0 := (C29_demo t).1
  rw [hv] at this
  rw [this]
  have h0' : (fastVF vertArray (fitStep vertArray vertStep) ((0 : ℕ) : ℤ)
      ((fitStep vertArray vertStep).coords a)).toGndTotal = vfToPart vertArray F a SurfRef.isGround := h0
  rw [h0', sub_self, zero_mul, add_zero]

/-! ## C48 -/

/-- C48: a negative row index gives the same view factors as the index of the same row counted from
the start, unless it is the index -1 and the rows are tilted to the left. -/
theorem C48_negative_index (p : ArrayParams) (g : StepGeom) (i : ℤ) (pv : Line)
    (hi : -(p.nRows : ℤ) < i) (hneg : i < 0) (hlast : i = -1 → ¬ 0 < g.rot.deg) :
    fastVF p g i pv = fastVF p g (i + p.nRows) pv := by
  have hne : (p.nRows : ℤ) ≠ 0 := by omega
  have e0 : pyIdx p.nRows i = pyIdx p.nRows (i + p.nRows) := by
    unfold pyIdx; rw [if_pos hneg, if_neg (by omega)]
  have e1 : pyIdx p.nRows (i - 1) = pyIdx p.nRows (i + p.nRows - 1) := by
    unfold pyIdx; rw [if_pos (by omega), if_neg (by omega)]; congr 1; omega
  have n0 : ¬ i = 0 := by omega
  have n1 : ¬ i = (p.nRows : ℤ) - 1 := by omega
  have n2 : ¬ i + p.nRows = 0 := by omega
  by_cases hl : i = -1
  · have ht : ¬ g.rot.deg > 0 := hlast hl
    have hgnd : ∀ c, vfToGnd pv i p.nRows c pv.length (g.rot.deg > 0) g.row
        = vfToGnd pv (i + p.nRows) p.nRows c pv.length (g.rot.deg > 0) g.row := by
      intro c; simp only [vfToGnd, ht, if_false, n0, n2, e0, e1]
    have hsh : ∀ l l', vfToShadow pv i p.nRows (g.rot.deg > 0) g.row l l' pv.length
        = vfToShadow pv (i + p.nRows) p.nRows (g.rot.deg > 0) g.row l l' pv.length := by
      intro l l'; simp only [vfToShadow, ht, if_false, n0, n2, e1]
    have hrow : vfToPvrow pv i p.nRows g.row pv.length (g.rot.deg > 0) p.width g.rot.deg
        = vfToPvrow pv (i + p.nRows) p.nRows g.row pv.length (g.rot.deg > 0) p.width g.rot.deg := by
      simp only [vfToPvrow, ht, if_false, n0, n2, e1]
    simp only [fastVF, e0, hgnd, hsh, hrow]
  · have n3 : ¬ i + p.nRows = (p.nRows : ℤ) - 1 := by omega
    have e2 : pyIdx p.nRows (i + 1) = pyIdx p.nRows (i + p.nRows + 1) := by
      unfold pyIdx
      rw [if_pos (by omega), if_neg (by omega)]; congr 1; omega
    have hgnd : ∀ c, vfToGnd pv i p.nRows c pv.length (g.rot.deg > 0) g.row
        = vfToGnd pv (i + p.nRows) p.nRows c pv.length (g.rot.deg > 0) g.row := by
      intro c; simp only [vfToGnd, n0, n1, n2, n3, if_false, e0, e1, e2]
    have hsh : ∀ l l', vfToShadow pv i p.nRows (g.rot.deg > 0) g.row l l' pv.length
        = vfToShadow pv (i + p.nRows) p.nRows (g.rot.deg > 0) g.row l l' pv.length := by
      intro l l'; simp only [vfToShadow, n0, n1, n2, n3, if_false, e1, e2]
    have hrow : vfToPvrow pv i p.nRows g.row pv.length (g.rot.deg > 0) p.width g.rot.deg
        = vfToPvrow pv (i + p.nRows) p.nRows g.row pv.length (g.rot.deg > 0) p.width g.rot.deg := by
      simp only [vfToPvrow, n0, n1, n2, n3, if_false, e1, e2]
    simp only [fastVF, e0, hgnd, hsh, hrow]

/-- C48: with index -1 and rows tilted to the left, fast mode takes the first row of the array for
the neighbour of the last row. -/
theorem C48_last_row (p : ArrayParams) (g : StepGeom) (pv : Line) (hn : 0 < p.nRows)
    (ht : 0 < g.rot.deg) :
    (fastVF p g (-1) pv).toPvrowTotal = vfSurfSurf pv (g.row 0).full pv.length ∧
    (fastVF p g ((p.nRows : ℤ) - 1) pv).toPvrowTotal = 0 := by
  have ht' : g.rot.deg > 0 := ht
  constructor
  · have : ¬ (-1 : ℤ) = p.nRows - 1 := by omega
    simp [fastVF, vfToPvrow, ht', this, pyIdx]
  · simp [fastVF, vfToPvrow, ht']

/-- C48: so that the results differ: the last of two vertical rows is said to see the first row with
its back, which looks away from it. -/
theorem C48_last_row_wrong :
    let g := fitStep vertArray vertStep
    let A : Line := (g.row 1).full
    0 < (fastVF vertArray g (-1) A).toPvrowTotal ∧ (fastVF vertArray g 1 A).toPvrowTotal = 0 := by
  intro g A
  have hd : 0 < g.rot.deg := by
    change 0 < (fitStep vertArray vertStep).rot.deg
    rw [vert_deg]; norm_num
  obtain ⟨h1, h2⟩ := C48_last_row vertArray g A (by norm_num [vertArray]) hd
  refine ⟨?_, h2⟩
  rw [h1]
  have h3 : ∀ j, (g.row j).full = ⟨⟨5 * j, 1 / 2⟩, ⟨5 * j, 5 / 2⟩⟩ := by
    intro j
    have : (g.row j).full = fullRowCoords (rowCenter vertArray j) vertArray.width 90 := by
      change ((fitStep vertArray vertStep).row j).full = _
      rw [vert_fit]; rfl
    rw [this, fullRowCoords_eq]
    simp only [rowPt, cosd_90, sind_90, rowCenter]
    norm_num [vertArray, ArrayParams.distance, X_ORIGIN, Y_GROUND]
    ring
  have hA : A = ⟨⟨5, 1 / 2⟩, ⟨5, 5 / 2⟩⟩ := by
    have := h3 1; norm_num at this; exact this
  have h0 : (g.row 0).full = ⟨⟨0, 1 / 2⟩, ⟨0, 5 / 2⟩⟩ := by
    have := h3 0; norm_num at this; exact this
  have s4 : Real.sqrt 4 = 2 := by
    rw [show (4 : ℝ) = 2 ^ 2 by norm_num]; exact Real.sqrt_sq (by norm_num)
  have s25 : Real.sqrt 25 = 5 := by
    rw [show (25 : ℝ) = 5 ^ 2 by norm_num]; exact Real.sqrt_sq (by norm_num)
  have s29 : 5 < Real.sqrt 29 := by
    rw [Real.lt_sqrt (by norm_num)]; norm_num
  rw [h0, hA]
  unfold vfSurfSurf
  simp only [Line.length, distPt]
  norm_num [TOL, s4, s25]
  intro h
  linarith

end PVF
