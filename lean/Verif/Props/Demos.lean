import Verif.Props.FastDemo
import Verif.Props.MoreSky
import Verif.Props.AOI
import Verif.Props.Energy
import Verif.Props.Perez
import Verif.Props.Shape

/-!
# Concrete cases for properties whose theorems have no other witness

Two vertical rows 5 m apart, the back of the first one cut in two (`vertArray`, `vertStep`).
-/

namespace PVF

theorem vert_right_mem : SurfRef.pv 1 .front 0 false ∈ surfaces vertArray :=
  mem_surfaces.2 (mem_allRefs_pv.2 (by simp [vertArray, ArrayParams.nSeg, ArrayParams.nFront]))

theorem sqrt_26_29 : Real.sqrt 26 < Real.sqrt 29 ∧ 5 < Real.sqrt 26 ∧ Real.sqrt 29 < 6 := by
  refine ⟨Real.sqrt_lt_sqrt (by norm_num) (by norm_num), ?_, ?_⟩
  · rw [Real.lt_sqrt (by norm_num)]; norm_num
  · rw [Real.sqrt_lt' (by norm_num)]; norm_num

/-- C03: the upper half of the back of the first row (1 m) and the front of the second (2 m). -/
theorem C03_demo (t : Fin 3) :
    let F := tsVfMatrix vertArray (fun _ => vertStep) t
    let i := surfIndex vertArray (.pv 0 .back 1 false)
    let j := surfIndex vertArray (.pv 1 .front 0 false)
    F i j = (Real.sqrt 29 - 5) / 2 ∧ F j i = (Real.sqrt 29 - 5) / 4 := by
  intro F i j
  have ha := mem_surfaces.1 (vert_mem 1 (by norm_num) false)
  have hb := mem_surfaces.1 vert_right_mem
  have la : ((fitStep vertArray vertStep).coords (.pv 0 .back 1 false)).length = 1 := by
    rw [vert_coords_left]; simp [Line.length]; norm_num
  have lb : ((fitStep vertArray vertStep).coords (.pv 1 .front 0 false)).length = 2 := by
    rw [vert_coords_right]; simp only [Line.length]
    rw [show ((5 : ℝ) / 2 - 1 / 2) ^ 2 + (5 - 5) ^ 2 = 2 ^ 2 by norm_num,
      Real.sqrt_sq (by norm_num)]
  have hij : F i j = (Real.sqrt 29 - 5) / 2 := by
    have h := vfBetween_eq (u := fun _ : Fin 3 => vertStep) (t := t)
      (vert_mem 1 (by norm_num) false) vert_right_mem
    change F i j = _ at h
    rw [h]
    simp only [entryVF]
    rw [if_neg, if_pos (by simp)]
    · have s25 : Real.sqrt 25 = 5 := by
        rw [show (25 : ℝ) = 5 ^ 2 by norm_num, Real.sqrt_sq (by norm_num)]
      have hd : (fitStep vertArray vertStep).rot.deg > 0 := by rw [vert_deg]; norm_num
      have hn : decide (RowSide.back = RowSide.front) = false := rfl
      have hl : (1 : ℝ) > TOL := by norm_num [TOL]
      rw [vert_coords_left] at la
      simp only [vfPvPv, hn, if_pos hd, vfSurfSurf, vert_coords_left, vert_coords_right, la,
        if_pos hl]
      norm_num [distPt, s25]
      linarith [sqrt_26_29.1, sqrt_26_29.2.1]
    · simp only [isEmptyTs, la, lb]
      norm_num [TOL]
  refine ⟨hij, ?_⟩
  have h := C03_reciprocity vertArray (fun _ : Fin 3 => vertStep) t i j (surfIndex_lt ha)
    (surfIndex_lt hb) (by rw [surfLen_eq ha, la]; norm_num [TOL])
    (by rw [surfLen_eq hb, lb]; norm_num [TOL])
  rw [surfLen_eq ha, surfLen_eq hb, la, lb] at h
  change 1 * F i j = 2 * F j i at h
  linarith

/-- The components published for the front of the second row: 1000 W/m2 of direct light. -/
theorem demo_front : (directCats demoIrrParams demoIrrIn).get (.pv 1 .front 0 false) = 1000 := by
  have := (C34_direct demoIrrParams vertArray (fitStep vertArray vertStep) demoIrrIn 1 0).1
  rw [demo_cosIncidence] at this
  simpa [isotropicStep, demoIrrIn] using this

/-- C09, C10: full mode runs with the hybrid Perez model.  The incident light is the sum of its
published parts, the front absorbs 99 % of it and sends back 1 %, and it is not zero. -/
theorem C10_demo : ∃ o : Fin 3 → FullOut,
    runFullMode vertArray (fun _ => vertStep)
      (fun _ => hybridPerezStep demoIrrParams vertArray (fitStep vertArray vertStep) demoIrrIn)
      (fun _ => none) = some o ∧
    ∀ t, let a := SurfRef.pv 1 .front 0 false
      (o t).qinc a = 1000 + (circumsolarCats demoIrrParams demoIrrIn).get a
        + horizonOf demoIrrParams vertArray (fitStep vertArray vertStep) demoIrrIn a
        + (o t).isotropic a + (o t).reflection a ∧
      1000 ≤ (o t).qinc a ∧
      (o t).qabs a = 99 / 100 * (o t).qinc a ∧ (o t).q0 a = 1 / 100 * (o t).qinc a := by
  obtain ⟨o, ho⟩ := C07_hybrid vertArray (fun _ : Fin 3 => vertStep) demoIrrParams
    (fun _ => demoIrrIn) (fun _ => none) (fun _ => demo_losses) vert_physicalArray
    (fun _ => vert_physicalStep)
  refine ⟨o, ho, fun t => ?_⟩
  intro a
  have h9 := C09_hybrid _ _ _ _ _ o ho demo_losses.front.1.ne' demo_losses.back.1.ne'
    (fun _ => demo_losses.albedo.1.ne') t a vert_right_mem
  have h8 := C08_hybrid _ _ _ _ _ o ho (fun _ => demo_losses) vert_physicalArray t
    vert_physicalStep demo_light demo_perez a vert_right_mem
  obtain ⟨h1, h2⟩ := C10_hybrid _ _ _ _ o ho rfl rfl demo_losses.front.1.ne'
    demo_losses.back.1.ne' (fun _ => demo_losses.albedo.1.ne') t a vert_right_mem
  have c := circumsolarCats_nonneg demo_light demo_perez a
  have z := horizonOf_nonneg demo_perez vertArray (fitStep vertArray vertStep) a
  have d : (directCats demoIrrParams demoIrrIn).get a = 1000 := demo_front
  have hr : rhoOf demoIrrParams demoIrrIn a = 1 / 100 := rfl
  rw [d] at h9
  simp only [hr] at h1
  exact ⟨h9, by rw [h9]; linarith [h8.2.2.1, h8.2.2.2], by rw [h1]; ring, by linarith⟩

/-- C11: the balance holds for a run that really takes place. -/
theorem C11_demo : ∃ o : Fin 3 → FullOut,
    runFullMode vertArray (fun _ => vertStep) (fun _ => isotropicStep demoIrrParams demoIrrIn)
      (fun _ => none) = some o ∧
    ∀ t, let L := lengthAt vertArray vertStep
      let F := tsVfMatrix vertArray (fun _ : Fin 3 => vertStep) t
      ∑ a ∈ surfaces vertArray, L a * (o t).qabs a
        = ∑ a ∈ surfaces vertArray, L a * (directCats demoIrrParams demoIrrIn).get a
          + ∑ a ∈ surfaces vertArray, L a * (vfToSky vertArray F a * 100)
          - ∑ a ∈ surfaces vertArray, L a * (vfToSky vertArray F a * (o t).q0 a) := by
  obtain ⟨o, ho⟩ := C07_isotropic vertArray (fun _ : Fin 3 => vertStep) demoIrrParams
    (fun _ => demoIrrIn) (fun _ => none) (fun _ => demo_losses) vert_physicalArray
    (fun _ => vert_physicalStep)
  refine ⟨o, ho, fun t => ?_⟩
  have := C11_energy_balance vertArray (fun _ : Fin 3 => vertStep) _ o ho
    (fun _ => demo_losses.inverse_isotropic vertArray) t
    (fun a _ => isotropic_compAbs demoIrrParams demoIrrIn rfl rfl a) vert_lengths
  simpa [isotropicStep, demoIrrIn] using this

/-- C39: the matrix stored after a run without fAOI functions and after one with functions that
transmit nothing. -/
theorem C39_demo : ∃ o o' : Fin 3 → FullOut,
    let s : Fin 3 → IrrStep := fun _ => isotropicStep demoIrrParams demoIrrIn
    let a := SurfRef.pv 0 .back 1 false
    runFullMode vertArray (fun _ => vertStep) s (fun _ => none) = some o ∧
    runFullMode vertArray (fun _ => vertStep) s (fun t => some
      (asgAoiTs ⟨fun _ => 0, fun _ => 0, 300⟩ vertArray (fun _ => vertStep) t)) = some o' ∧
    ∀ t, ∑ b ∈ surfaces vertArray, vfBetween vertArray (o t).vf a b + vfToSky vertArray (o t).vf a = 1 ∧
      ∑ b ∈ surfaces vertArray, vfBetween vertArray (o' t).vf a b + vfToSky vertArray (o' t).vf a = 0 := by
  obtain ⟨o, ho⟩ := C07_isotropic vertArray (fun _ : Fin 3 => vertStep) demoIrrParams
    (fun _ => demoIrrIn) (fun _ => none) (fun _ => demo_losses) vert_physicalArray
    (fun _ => vert_physicalStep)
  obtain ⟨o', ho'⟩ := C07_isotropic vertArray (fun _ : Fin 3 => vertStep) demoIrrParams
    (fun _ => demoIrrIn) (fun t => some
      (asgAoiTs ⟨fun _ => 0, fun _ => 0, 300⟩ vertArray (fun _ => vertStep) t))
    (fun _ => demo_losses) vert_physicalArray (fun _ => vert_physicalStep)
  refine ⟨o, o', ho, ho', fun t => ⟨?_, ?_⟩⟩
  · refine (C39_without_aoi _ _ _ o ho t).2 _ (vert_mem 1 (by norm_num) false) ?_
    have := vert_len 1 (by norm_num)
    unfold lengthAt at this
    rw [this]; norm_num [TOL]
  · exact C39_not_view_factors 300 _ _ _ o' ho' t _ _ _ _ (vert_mem 1 (by norm_num) false)

/-- C46: with fAOI functions that transmit half of the light, the ground left of all rows absorbs
and sends out more than it receives. -/
theorem C46_demo : ∃ o : Fin 3 → FullOut,
    runFullMode vertArray (fun _ => vertStep) (fun _ => isotropicStep demoIrrParams demoIrrIn)
      (fun t => some (asgAoiTs ⟨fun _ => 1 / 2, fun _ => 1 / 2, 300⟩ vertArray
        (fun _ => vertStep) t)) = some o ∧
    ∀ t, let a := SurfRef.gnd false 0 0
      (o t).qabs a + (o t).q0 a = (o t).qinc a + 1 / 5 * ((o t).qinc a - 1000) := by
  obtain ⟨o, ho⟩ := C07_isotropic vertArray (fun _ : Fin 3 => vertStep) demoIrrParams
    (fun _ => demoIrrIn) (fun t => some (asgAoiTs ⟨fun _ => 1 / 2, fun _ => 1 / 2, 300⟩ vertArray
        (fun _ => vertStep) t)) (fun _ => demo_losses) vert_physicalArray
    (fun _ => vert_physicalStep)
  refine ⟨o, ho, fun t => ?_⟩
  intro a
  have hm : a ∈ surfaces vertArray := mem_surfaces.2 (mem_allRefs_gnd.2 (by simp [vertArray]))
  have h := C46_isotropic _ _ _ _ _ o ho demo_losses.front.1.ne' demo_losses.back.1.ne'
    (fun _ => demo_losses.albedo.1.ne') t false 0 0 hm
  have hd : (directCats demoIrrParams demoIrrIn).get a = 1000 := by
    simp [a, Cats.get, directCats, demoIrrIn, cosd_zero]
  simp only [a] at hd
  rw [hd] at h
  exact h

/-- C28: the upper half of the back of the first row in fast mode. -/
theorem C28_demo :
    let g := fitStep vertArray vertStep
    let v := fastVF vertArray g (0 : ℕ) (g.coords (.pv 0 .back 1 false))
    v.toSky = (1 + (5 - Real.sqrt 26)) / 2 ∧
    v.toGndTotal = (1 - (Real.sqrt 29 - Real.sqrt 26)) / 2 ∧
    v.toPvrowTotal = (Real.sqrt 29 - 5) / 2 ∧
    0 < v.toSky ∧ 0 < v.toGndTotal ∧ 0 < v.toPvrowTotal := by
  intro g v
  have eh : (g.coords (.pv 0 .back 1 false)).Ends ⟨0, 3 / 2⟩ ⟨0, 5 / 2⟩ :=
    ⟨by norm_num, Or.inl vert_coords_left⟩
  have hOT : ((fitStep vertArray vertStep).row 1).full.Ends ⟨5, 1 / 2⟩ ⟨5, 5 / 2⟩ :=
    ⟨by norm_num, Or.inl (by simpa using vert_full 1)⟩
  have h := C84_fast vertArray vertStep vert_physicalArray vert_physicalStep 0 1 false
    (vert_mem 1 (by norm_num) false) (by rw [vert_len 1 (by norm_num)]; norm_num [TOL])
    (by norm_num [vertStep]) _ _ eh 1
    ⟨fun h => absurd h vert_looks_back, fun _ => ⟨rfl, by norm_num [vertArray]⟩⟩ _ _ hOT
  simp only [vert_len 1 (by norm_num)] at h
  have s25 : Real.sqrt 25 = 5 := by
    rw [show (25 : ℝ) = 5 ^ 2 by norm_num, Real.sqrt_sq (by norm_num)]
  have h1 : v.toSky = (1 + (5 - Real.sqrt 26)) / 2 := by
    refine h.1.trans ?_
    norm_num [distPt, s25]
  have h2 : v.toGndTotal = (1 - (Real.sqrt 29 - Real.sqrt 26)) / 2 := by
    refine h.2.trans ?_
    norm_num [distPt]
  have h3 := (C28_complete vertArray g (0 : ℕ) (g.coords (.pv 0 .back 1 false))).1
  change v.toGndTotal + v.toPvrowTotal + v.toSky = 1 at h3
  obtain ⟨h4, h5, h6⟩ := sqrt_26_29
  exact ⟨h1, h2, by linarith, by linarith, by linarith, by linarith⟩

/-- C30: the light on it: 100 W/m2 of diffuse light times the view factor to the sky, the ground
counted with its own radiosity, and no direct light. -/
theorem C30_demo :
    let g := fitStep vertArray vertStep
    let s := isotropicStep demoIrrParams demoIrrIn
    let a := SurfRef.pv 0 .back 1 false
    ∃ f, runFastMode vertArray g s (0 : ℕ) none a = some f ∧
      runFastMode vertArray g s (0 : ℕ) (some (1 : ℕ)) (.pv 0 .back 0 false) = none ∧
      runFastMode vertArray g s (0 : ℕ) none (.pv 0 .front 0 false) = none ∧
      f.isotropic = (1 + (5 - Real.sqrt 26)) / 2 * 100 ∧
      0 < f.isotropic ∧ f.isotropic ≤ f.qinc := by
  intro g s a
  have hsome : (runFastMode vertArray g s (0 : ℕ) none a).isSome :=
    (C30_targets _ _ _ _ _).2 ⟨1, false, by simp [vertArray, ArrayParams.nBack], rfl⟩
  obtain ⟨f, hf⟩ := Option.isSome_iff_exists.1 hsome
  refine ⟨f, hf, ?_, ?_, ?_⟩
  · rw [← Option.not_isSome_iff_eq_none, C30_targets_segment]; simp
  · rw [← Option.not_isSome_iff_eq_none, C30_targets]; simp
  obtain ⟨c1, c2, c3, c4, c5, c6, c7, c8, -⟩ := C30_components _ _ _ _ _ _ _ hf
  have hv : f.viewFactors = fastVF vertArray g (0 : ℕ) (g.coords a) := by
    rw [runFastMode_eq] at hf
    split_ifs at hf
    simp only [Option.some.injEq] at hf
    rw [← hf]; rfl
  obtain ⟨d1, -, -, d4, -⟩ := C28_demo
  rw [← hv] at d1 d4
  have hR := C28_range vertArray vertStep vert_physicalArray vert_physicalStep 0 1 false
    (vert_mem 1 (by norm_num) false)
  simp only at hR
  rw [← hv] at hR
  have hs : s.sky = 100 := rfl
  have hi : f.isotropic = (1 + (5 - Real.sqrt 26)) / 2 * 100 := by rw [c4, d1, hs]
  refine ⟨hi, by rw [c4, hs]; positivity, ?_⟩
  have hc : (s.comp a).sum = 0 := by
    have := (C34_direct demoIrrParams vertArray (fitStep vertArray vertStep) demoIrrIn 0 1).2.1
    rw [demo_cosIncidence] at this
    simpa [s, a, isotropicStep] using this
  have v2 := (hR f.viewFactors.toGndShaded (by simp)).1
  have v3 := (hR f.viewFactors.toGndIllum (by simp)).1
  have v4 := (hR f.viewFactors.toPvrowShaded (by simp)).1
  have v5 := (hR f.viewFactors.toPvrowIllum (by simp)).1
  have g1 : 0 ≤ s.albedo * s.gndShaded := by
    have := directCats_nonneg demo_light (.gnd true 0 0)
    simp only [Cats.get] at this
    change 0 ≤ demoIrrIn.albedo * (demoIrrIn.dhi + (directCats demoIrrParams demoIrrIn).groundShaded)
    exact mul_nonneg (by norm_num [demoIrrIn]) (add_nonneg (by norm_num [demoIrrIn]) this)
  have g2 : 0 ≤ s.albedo * s.gndIllum := by
    change 0 ≤ demoIrrIn.albedo * demoIrrIn.ghiUsed
    norm_num [demoIrrIn, IrrIn.ghiUsed, cosd_zero]
  have g3 : 0 ≤ s.rhoFront * s.pvrowShaded := by
    have h : (directCats demoIrrParams demoIrrIn).frontIllum = 1000 := demo_front
    change 0 ≤ demoIrrParams.rhoFront
      * (demoIrrIn.poaGlobal - (directCats demoIrrParams demoIrrIn).frontIllum)
    rw [h]; norm_num [demoIrrIn, demoIrrParams]
  have g4 : 0 ≤ s.rhoFront * s.pvrowIllum := by
    change 0 ≤ demoIrrParams.rhoFront * demoIrrIn.poaGlobal
    norm_num [demoIrrIn, demoIrrParams]
  have w2 := mul_nonneg v2 g1
  have w3 := mul_nonneg v3 g2
  have w4 := mul_nonneg v4 g3
  have w5 := mul_nonneg v5 g4
  rw [c2, c3, c1, hc, c5, c6, c7, c8]
  linarith

/-- C34: the sun shines on one side only. -/
theorem C34_demo :
    (isotropicStep demoIrrParams demoIrrIn).comp (.pv 1 .front 0 false) = [1000] ∧
    (isotropicStep demoIrrParams demoIrrIn).comp (.pv 1 .back 0 false) = [0] := by
  have h := C34_direct demoIrrParams vertArray (fitStep vertArray vertStep) demoIrrIn 1 0
  rw [demo_cosIncidence] at h
  obtain ⟨h1, h2, -⟩ := h
  constructor
  · simpa [isotropicStep, demoIrrIn] using h1
  · simpa [isotropicStep, demoIrrIn] using h2

/-- C35: a third of a band of 7.5 degrees is hidden behind an obstacle of 2.5 degrees. -/
theorem C35_demo : horizonBandShading (5 / 2) (15 / 2) = 100 / 3 ∧
    uniformDiskShading 25 + uniformDiskShading 75 = 100 ∧
    ((hybridPerezStep demoIrrParams vertArray (fitStep vertArray vertStep)
      { demoIrrIn with perez := ⟨60, 40, 30, 40⟩ }).comp (.pv 1 .back 0 false)).getLast? = some 30 := by
  refine ⟨?_, ?_, ?_⟩
  · rw [(C35_horizon_band (by norm_num)).2.2.2.1 _ (by norm_num) (by norm_num)]; norm_num
  · have := C35_uniform_disk.2.2.1 25
    norm_num at this
    linarith
  · rw [(C35_edge_rows demoIrrParams vertArray (fitStep vertArray vertStep) _ (by norm_num [demoIrrParams]) 1 0 false).2.1 (by simp [vertArray])
      (by rw [vert_deg]; norm_num)]
    norm_num [demoIrrIn]

/-- C44: only the reflectivity of the back is derived. -/
theorem C44_demo : rhoInitialization (calculatorAoiMethods (some fun _ => 0) (some fun _ => 0) 300)
      (some (1 / 10)) none = some (1 / 10, 1) ∧
    rhoInitialization (calculatorAoiMethods (some fun _ => 0) none 300) (some (1 / 10)) (some (1 / 20))
      = none := by
  constructor
  · rw [C44_precedence]; simp [rhoFromFaoi, aoiIntegrand]
  · exact C44_missing_function _ _ (Or.inr rfl) _ _ _

/-- C48: with flat rows the index -1 stands for the last of two rows. -/
theorem C48_demo :
    let g := fitStep vertArray { vertStep with surfaceTilt := 0 }
    fastVF vertArray g (-1) (g.coords (.pv 1 .back 0 false))
      = fastVF vertArray g 1 (g.coords (.pv 1 .back 0 false)) := by
  intro g
  refine C48_negative_index vertArray g (-1) _ (by norm_num [vertArray]) (by norm_num) fun _ => ?_
  have : g.rot.deg = 0 := by
    simp [g, fitStep, fitGeom, rotationFromTiltAzimuth]
  rw [this]; norm_num

/-- C66: vertical modules facing east, sun in the west at zenith 60; the same modules turned over. -/
theorem C66_demo (q : IrrParams) (p : ArrayParams) (g : StepGeom) (r k : ℕ) :
    ∃ v v' : IrrIn, (oneStep 90 90 60 270).inputs halfPvlib = some [v] ∧
      (oneStep 90 270 60 270).inputs halfPvlib = some [v'] ∧
      ∃ d c h h', (hybridPerezStep q p g v).comp (.pv r .back k false) = [d, c, h] ∧
        (hybridPerezStep q p g v').comp (.pv r .front k false) = [d, c, h'] ∧
        d = 50 * Real.sqrt 3 ∧ c = 50 * Real.sqrt 3 := by
  refine ⟨_, _, oneStep_inputs _ _ _ _, oneStep_inputs _ _ _ _, ?_⟩
  have hs : 0 < sind 60 := sind_pos (by norm_num) (by norm_num)
  have l1 : SkyLit halfPvlib (oneStep 90 90 60 270) 0 _ :=
    oneStep_lit (by norm_num) (by norm_num) (by norm_num) (by rw [cosIncidence_west]; linarith)
  have l2 : SkyLit halfPvlib (oneStep 90 270 60 270) 0 _ :=
    oneStep_lit (by norm_num) (by norm_num) (by norm_num) (by rw [cosIncidence_east]; linarith)
  have hp : (inputAt halfPvlib (oneStep 90 270 60 270) 0).surfaceAzimuth
      = pyMod ((inputAt halfPvlib (oneStep 90 90 60 270) 0).surfaceAzimuth - 180) 360 := by
    change (270 : ℝ) = pyMod (90 - 180) 360
    unfold pyMod
    have : ⌊((90 : ℝ) - 180) / 360⌋ = -1 := by
      rw [Int.floor_eq_iff]; norm_num
    rw [this]; norm_num
  obtain ⟨h1, h2, h3⟩ := C66_turned_over halfPvlib_formula (oneStep_inputs 90 90 60 270)
    (oneStep_inputs 90 270 60 270) (i := 0) rfl rfl ⟨rfl, rfl, rfl, rfl, rfl⟩ l1 l2
    (by norm_num [inputAt, oneStep]) hp (by norm_num [inputAt, oneStep, cosd_60])
    q p g g r k rfl rfl
  have h4 := h3 (by norm_num [inputAt, oneStep]) (by norm_num [inputAt, oneStep])
  refine ⟨(directCats q (inputAt halfPvlib (oneStep 90 90 60 270) 0)).get (.pv r .back k false),
    (circumsolarCats q (inputAt halfPvlib (oneStep 90 90 60 270) 0)).get (.pv r .back k false),
    _, horizonOf q p g (inputAt halfPvlib (oneStep 90 270 60 270) 0) (.pv r .front k false),
    rfl, ?_, ?_, ?_⟩
  · rw [h1, h4]; rfl
  · have := (C34_direct q p g (inputAt halfPvlib (oneStep 90 90 60 270) 0) r k).2.1
    simp only [isotropicStep, List.head?_cons, Option.some.injEq] at this
    rw [this]
    change 100 * max 0 (-cosIncidence 90 90 60 270) = _
    rw [cosIncidence_west, neg_neg, max_eq_right hs.le, sind_60]; ring
  · have h := C64_luminances halfPvlib_formula (oneStep_inputs 90 90 60 270) (i := 0) rfl l1
    simp only [Cats.get]
    rw [circ_back, h.2.1]
    change 100 * (1 / 2) * (max 0 (-cosIncidence 90 90 60 270) / cosd 60) = _
    rw [cosIncidence_west, neg_neg, max_eq_right hs.le, sind_60, cosd_60]; ring

end PVF
