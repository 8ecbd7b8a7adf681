import Verif.Props.EndToEnd
import Mathlib.Tactic.IntervalCases

/-!
# C15: time steps do not influence each other

Unless a surface is, at some time step, longer than zero but shorter than the tolerance.
-/

namespace PVF

variable {ι κ : Type*} [Fintype ι] [Fintype κ]

/-- At this time step every surface is a single point or at least as long as the tolerance. -/
def PointOrLong (p : ArrayParams) (u : StepIn) : Prop :=
  ∀ a ∈ surfaces p, lengthAt p u a = 0 ∨ TOL ≤ lengthAt p u a

/-- AOI assignments of an engine with optional AOI methods. -/
noncomputable def aoiOf (m : Option AOIMethods) (p : ArrayParams) (u : ι → StepIn) (t : ι) :
    Option (List Asg) :=
  m.map fun m => asgAoiTs m p u t

theorem length_lt_of_empty {g : ι → StepGeom} {a : SurfRef} (h : isEmptyTs g a) (t : ι) :
    ((g t).coords a).length < TOL :=
  lt_of_le_of_lt (Finset.single_le_sum (f := fun t => ((g t).coords a).length)
    (fun _ _ => Line.length_nonneg _) (Finset.mem_univ t)) h

theorem entryVF_emp {p : ArrayParams} {g : StepGeom} {emp emp' : SurfRef → Prop} {a b : SurfRef}
    (ha : emp a → (g.coords a).length = 0) (hb : emp b → (g.coords b).length = 0)
    (ha' : emp' a → (g.coords a).length = 0) (hb' : emp' b → (g.coords b).length = 0) :
    entryVF p g emp a b = entryVF p g emp' a b := by
  have short : (g.coords a).length = 0 → ∀ e, entryVF p g e a b = 0 := fun h e =>
    entryVF_short_row p g e a b (by rw [h]; exact not_lt.2 TOL_pos.le)
  have point : (g.coords b).length = 0 → ∀ e, entryVF p g e a b = 0 := fun h e =>
    entryVF_point_col p g e a b h
  by_cases h1 : emp a ∨ emp b ∨ emp' a ∨ emp' b
  · rcases h1 with h | h | h | h
    · rw [short (ha h), short (ha h)]
    · rw [point (hb h), point (hb h)]
    · rw [short (ha' h), short (ha' h)]
    · rw [point (hb' h), point (hb' h)]
  · push Not at h1
    obtain ⟨e1, e2, e3, e4⟩ := h1
    match a, b with
    | .gnd _ _ _, .gnd _ _ _ => rfl
    | .pv _ _ _ _, .gnd _ _ _ => simp [entryVF, e1, e2, e3, e4]
    | .gnd _ _ _, .pv _ _ _ _ => simp [entryVF, e1, e2, e3, e4]
    | .pv _ _ _ _, .pv _ _ _ _ => simp [entryVF, e1, e2, e3, e4]

theorem vfNoSky_out {p : ArrayParams} {g : StepGeom} {emp : SurfRef → Prop} {i j : ℕ}
    (h : nTsSurfaces p ≤ i ∨ nTsSurfaces p ≤ j) : vfNoSky p g emp i j = 0 := by
  unfold vfNoSky
  have P : ∀ x ∈ asgPvPv p g emp, x.i < nTsSurfaces p ∧ x.j < nTsSurfaces p := by
    intro x hx
    obtain ⟨r, s, s', k, k', sh, sh', h0, h1, h2, h3, h4, rfl | rfl⟩ := mem_asgPvPv.1 hx
    · exact ⟨surfIndex_lt h1, surfIndex_lt h2⟩
    · exact ⟨surfIndex_lt h2, surfIndex_lt h1⟩
  have G : ∀ x ∈ asgPvGnd p g emp, x.i < nTsSurfaces p ∧ x.j < nTsSurfaces p := by
    intro x hx
    obtain ⟨r, s, k, sh, sh', e, z, h1, h2, h3, h4, rfl | rfl⟩ := mem_asgPvGnd.1 hx
    · exact ⟨surfIndex_lt h1, surfIndex_lt h2⟩
    · exact ⟨surfIndex_lt h2, surfIndex_lt h1⟩
  have no : ∀ l : List Asg, (∀ x ∈ l, x.i < nTsSurfaces p ∧ x.j < nTsSurfaces p) →
      ∀ x ∈ l, x.i = i → x.j = j → x.v = 0 := by
    intro l hl x hx e1 e2
    have := hl x hx
    rcases h with h | h <;> omega
  exact applyAsg_eq _ _ _ _ _ (no _ P) (Or.inl (applyAsg_eq _ _ _ _ _ (no _ G) (Or.inl rfl)))

theorem vfMatrix_emp {p : ArrayParams} {g : StepGeom} {emp emp' : SurfRef → Prop}
    (h : ∀ a ∈ allRefs p, emp a ∨ emp' a → (g.coords a).length = 0) :
    vfMatrix p g emp = vfMatrix p g emp' := by
  have hn : vfNoSky p g emp = vfNoSky p g emp' := by
    funext i j
    by_cases hi : i < nTsSurfaces p
    · by_cases hj : j < nTsSurfaces p
      · obtain ⟨a, ha, rfl⟩ := exists_surfIndex hi
        obtain ⟨b, hb, rfl⟩ := exists_surfIndex hj
        rw [vfNoSky_eq ha hb, vfNoSky_eq ha hb]
        exact entryVF_emp (fun e => h a ha (Or.inl e)) (fun e => h b hb (Or.inl e))
          (fun e => h a ha (Or.inr e)) (fun e => h b hb (Or.inr e))
      · rw [vfNoSky_out (Or.inr (not_lt.1 hj)), vfNoSky_out (Or.inr (not_lt.1 hj))]
    · rw [vfNoSky_out (Or.inl (not_lt.1 hi)), vfNoSky_out (Or.inl (not_lt.1 hi))]
  funext i j
  simp only [vfMatrix, hn]

/-- C15: the view factor matrix at a time step is the same in every time series that contains the
time step: subset, permutation or repetition, given by an arbitrary map `f` of indices. -/
theorem C15_view_factors (p : ArrayParams) (u : ι → StepIn) (f : κ → ι) (k : κ)
    (h : PointOrLong p (u (f k))) : tsVfMatrix p (fun k => u (f k)) k = tsVfMatrix p u (f k) := by
  unfold tsVfMatrix
  apply vfMatrix_emp
  intro a ha he
  refine (h a (mem_surfaces.2 ha)).resolve_right (not_le.2 ?_)
  rcases he with he | he
  · exact length_lt_of_empty he k
  · exact length_lt_of_empty he (f k)

theorem vfAoiSurfSurf_emp (f : ℝ → ℝ) (n : ℕ) (u : Pt) (a b : Line) {e1 e2 e1' e2' : Prop}
    (h1 : e1 ∨ e1' → a.length < TOL) (h2 : e2 ∨ e2' → b.length < TOL) :
    vfAoiSurfSurf f n u a b e1 e2 = vfAoiSurfSurf f n u a b e1' e2' := by
  unfold vfAoiSurfSurf
  by_cases hs : a.length < TOL ∨ b.length < TOL
  · simp [hs]
  · have n1 : ¬ (e1 ∨ e1') := fun h => hs (Or.inl (h1 h))
    have n2 : ¬ (e2 ∨ e2') := fun h => hs (Or.inr (h2 h))
    push Not at n1 n2
    simp [n1.1, n1.2, n2.1, n2.2]

theorem vfAoiPvGnd_emp (f : ℝ → ℝ) (n : ℕ) (u : Pt) (a : Line) (r N : ℕ) (tl : Prop)
    (full : ℕ → Line) (b : Line) (x y : Bool) {e1 e2 e1' e2' : Prop}
    (h1 : e1 ∨ e1' → a.length < TOL) (h2 : e2 ∨ e2' → b.length < TOL) :
    vfAoiPvGnd f n u a r N tl full b x y e1 e2 = vfAoiPvGnd f n u a r N tl full b x y e1' e2' := by
  unfold vfAoiPvGnd
  by_cases hs : a.length < TOL ∨ b.length < TOL
  · simp [hs]
  · have n1 : ¬ (e1 ∨ e1') := fun h => hs (Or.inl (h1 h))
    have n2 : ¬ (e2 ∨ e2') := fun h => hs (Or.inr (h2 h))
    push Not at n1 n2
    simp only [n1.1, n1.2, n2.1, n2.2, or_self, if_false]

/-- The assignments of AOI view factors do not depend on flags that are set for short surfaces only. -/
theorem asgAoi_emp (m : AOIMethods) (p : ArrayParams) (g : StepGeom) {emp emp' : SurfRef → Prop}
    {skyEmp skyEmp' : ℕ → Prop} (he : ∀ a, emp a ∨ emp' a → (g.coords a).length < TOL)
    (hs : ∀ j, skyEmp j ∨ skyEmp' j → (dummySky p g j).length < TOL) :
    asgAoi m p g emp skyEmp = asgAoi m p g emp' skyEmp' := by
  unfold asgAoi asgAoiPvGnd asgAoiPvPv asgAoiSky
  have e1 := fun (f' : ℝ → ℝ) n w a r N tl full b x y => vfAoiPvGnd_emp f' n w
    (g.coords a) r N tl full (g.coords b) x y (he a) (he b)
  have e2 := fun (f' : ℝ → ℝ) n w a b => vfAoiSurfSurf_emp f' n w
    (g.coords a) (g.coords b) (he a) (he b)
  have e3 := fun (f' : ℝ → ℝ) n w a j => vfAoiSurfSurf_emp f' n w
    (g.coords a) (dummySky p g j) (he a) (hs j)
  simp only [e1, e2, e3]

/-- The AOI view factors at a time step never depend on the other time steps. -/
theorem C15_aoi (m : AOIMethods) (p : ArrayParams) (u : ι → StepIn) (f : κ → ι) (k : κ) :
    asgAoiTs m p (fun k => u (f k)) k = asgAoiTs m p u (f k) := by
  unfold asgAoiTs
  refine asgAoi_emp m p _ ?_ ?_
  · rintro a (h | h)
    · exact length_lt_of_empty h k
    · exact length_lt_of_empty h (f k)
  · rintro j (h | h)
    · exact lt_of_le_of_lt (Finset.single_le_sum
        (f := fun k => (dummySky p (fitStep p (u (f k))) j).length)
        (fun t _ => Line.length_nonneg _) (Finset.mem_univ k)) h
    · exact lt_of_le_of_lt (Finset.single_le_sum
        (f := fun t => (dummySky p (fitStep p (u t)) j).length)
        (fun t _ => Line.length_nonneg _) (Finset.mem_univ (f k))) h

/-- C15: everything full mode returns at a time step is the same in every time series made of time
steps of the given one, with any irradiance model and any AOI methods. -/
theorem C15_full_mode (p : ArrayParams) (u : ι → StepIn) (s : ι → IrrStep)
    (m : Option AOIMethods) (o : ι → FullOut) (h : runFullMode p u s (aoiOf m p u) = some o)
    (f : κ → ι) (hlen : ∀ k, PointOrLong p (u (f k))) :
    runFullMode p (fun k => u (f k)) (fun k => s (f k)) (aoiOf m p fun k => u (f k))
      = some fun k => o (f k) := by
  classical
  have hvf : ∀ k, tsVfMatrix p (fun k => u (f k)) k = tsVfMatrix p u (f k) := fun k =>
    C15_view_factors p u f k (hlen k)
  have hao : ∀ k, aoiOf m p (fun k => u (f k)) k = aoiOf m p u (f k) := by
    intro k
    unfold aoiOf
    cases m with
    | none => rfl
    | some m => simp [C15_aoi m p u f k]
  unfold runFullMode
  rw [if_pos]
  · congr 1
    funext k
    rw [hvf, hao, (runFullMode_some h (f k)).2]
  · intro k
    rw [hvf]
    exact (runFullMode_some h (f k)).1

/-- C15: and if the whole time series is repeated or permuted (`f` is onto) then full mode fails on
one if and only if it fails on the other. -/
theorem C15_full_mode_failure (p : ArrayParams) (u : ι → StepIn) (s : ι → IrrStep)
    (m : Option AOIMethods) (f : κ → ι) (hf : Function.Surjective f)
    (hlen : ∀ t, PointOrLong p (u t)) :
    runFullMode p (fun k => u (f k)) (fun k => s (f k)) (aoiOf m p fun k => u (f k)) = none ↔
      runFullMode p u s (aoiOf m p u) = none := by
  classical
  have hvf : ∀ k, tsVfMatrix p (fun k => u (f k)) k = tsVfMatrix p u (f k) := fun k =>
    C15_view_factors p u f k (hlen (f k))
  unfold runFullMode
  simp only [ite_eq_right_iff, reduceCtorEq, imp_false, hvf, hf.forall]

/-- One row of width 1 and height 1. -/
noncomputable def oneRow : ArrayParams where
  axisAzimuth := 0
  gcr := 1
  height := 1
  width := 1
  nRows := 1
  cut := fun _ => { back := some 2 }

/-- The hypothesis of C15 can be met. -/
theorem C15_demo : PointOrLong oneRow demoStepFlat := by
  have hr : rotationFromTiltAzimuth demoStepFlat.surfaceAzimuth oneRow.axisAzimuth
      demoStepFlat.surfaceTilt = ⟨0, true⟩ := by simp [rotationFromTiltAzimuth, demoStepFlat]
  have hs : solar2dVector demoStepFlat.solarZenith demoStepFlat.solarAzimuth
      oneRow.axisAzimuth = ⟨0, 1⟩ := by
    simp [solar2dVector, demoStepFlat, sind, cosd, deg2rad]
  have ha : arctan2 1 0 = Real.pi / 2 := by
    have : (⟨0, 1⟩ : ℂ) = Complex.I := rfl
    rw [arctan2, this, Complex.arg_I]
  have horiz : ∀ (x y h : ℝ), Line.length ⟨⟨x, h⟩, ⟨y, h⟩⟩ = |y - x| := by
    intro x y h
    simp [Line.length, Real.sqrt_sq_eq_abs]
  intro a hm
  rw [mem_surfaces] at hm
  unfold lengthAt fitStep
  rw [hr, hs]
  match a with
  | .gnd false e z =>
    have hm := mem_allRefs_gnd.1 hm
    simp only [Bool.false_eq_true, if_false, oneRow] at hm
    obtain ⟨he, hz⟩ := hm
    interval_cases e <;> interval_cases z <;>
    simp [StepGeom.coords, fitGeom, groundFromRows, GroundIn.illumEl, GroundIn.shadowEl,
      GroundIn.noOverlap, cutSurfaces, coordsLeftOfCut, leftOfCutX, coordsRightOfCut, rightOfCutX,
      cutPointX, oneRow, shadowXs, ha, rowGeom, rowFromRawInputs, fullRowCoords, rowCenter, cosd,
      clip, MIN_X, MAX_X, TOL, X_ORIGIN, Y_GROUND, deg2rad, horiz] <;> norm_num
  | .gnd true e z =>
    have hm := mem_allRefs_gnd.1 hm
    simp only [if_true, oneRow] at hm
    obtain ⟨he, hz⟩ := hm
    interval_cases e <;> interval_cases z <;>
    simp [StepGeom.coords, fitGeom, groundFromRows, GroundIn.shadowEl,
      GroundIn.noOverlap, cutSurfaces, coordsLeftOfCut, leftOfCutX, coordsRightOfCut, rightOfCutX,
      cutPointX, oneRow, shadowXs, ha, rowGeom, rowFromRawInputs, fullRowCoords, rowCenter, cosd,
      clip, MIN_X, MAX_X, TOL, X_ORIGIN, Y_GROUND, deg2rad, horiz] <;> norm_num
  | .pv i s k sh =>
    obtain ⟨hi, hk⟩ := mem_allRefs_pv.1 hm
    rw [length_pv hk sh (by norm_num [oneRow]) (by norm_num) (by norm_num)]
    have hi : i = 0 := by simpa [oneRow] using hi
    subst hi
    cases s <;> simp [oneRow, ArrayParams.nSeg, ArrayParams.nBack, ArrayParams.nFront] at hk <;>
      first | subst hk | interval_cases k
    all_goals cases sh <;>
      simp [pvIv, tIv, tSeg, TOL, oneRow, ArrayParams.nSeg, ArrayParams.nBack,
        ArrayParams.nFront] <;> norm_num

/-! ## Why the hypothesis is needed -/

/-- One flat row which leaves half the tolerance of illuminated ground at each end of the ground. -/
noncomputable def edgeArray : ArrayParams where
  axisAzimuth := 0
  gcr := 1
  height := 1
  width := 200 - TOL
  nRows := 1
  cut := fun _ => {}

theorem edge_rot : rotationFromTiltAzimuth demoStepFlat.surfaceAzimuth edgeArray.axisAzimuth
    demoStepFlat.surfaceTilt = ⟨0, true⟩ := by
  simp [rotationFromTiltAzimuth, demoStepFlat]

theorem edge_sun : solar2dVector demoStepFlat.solarZenith demoStepFlat.solarAzimuth
    edgeArray.axisAzimuth = ⟨0, 1⟩ := by
  simp [solar2dVector, demoStepFlat, sind, cosd, deg2rad]

theorem edge_alpha : arctan2 1 0 = Real.pi / 2 := by
  have : (⟨0, 1⟩ : ℂ) = Complex.I := rfl
  rw [arctan2, this, Complex.arg_I]

theorem edge_gnd : (fitStep edgeArray demoStepFlat).coords (.gnd false 0 0)
    = ⟨⟨-100, 0⟩, ⟨-100 + TOL / 2, 0⟩⟩ := by
  unfold fitStep
  rw [edge_rot, edge_sun]
  simp [StepGeom.coords, fitGeom, groundFromRows, GroundIn.illumEl, GroundIn.shadowEl,
    GroundIn.noOverlap, cutSurfaces, coordsLeftOfCut, leftOfCutX, cutPointX, edgeArray, shadowXs,
    edge_alpha, rowGeom, rowFromRawInputs, fullRowCoords, rowCenter, cosd, clip, MIN_X, MAX_X,
    TOL, X_ORIGIN, Y_GROUND, deg2rad]
  norm_num

theorem edge_pv : (fitStep edgeArray demoStepFlat).coords (.pv 0 .back 0 false)
    = ⟨⟨-100 + TOL / 2, 1⟩, ⟨100 - TOL / 2, 1⟩⟩ := by
  unfold fitStep
  rw [edge_rot, edge_sun]
  simp [StepGeom.coords, fitGeom, StepGeom.side, rowGeom, rowFromRawInputs, sideSegments,
    sideSegment, edgeArray, rowCenter, cosd, sind, deg2rad, X_ORIGIN, Y_GROUND]
  constructor <;> ring

/-- C15 without the hypothesis on lengths is false: for a valid array and time step, the view
factor from the back of the row to a ground surface is zero when the time series is this single
time step, and positive when the time series repeats the time step three times. -/
theorem C15_repeat_changes :
    PhysicalArray edgeArray ∧ PhysicalStep edgeArray demoStepFlat ∧
    ∃ i j, i < nTsSurfaces edgeArray ∧ j < nTsSurfaces edgeArray ∧
      tsVfMatrix edgeArray (fun _ : Fin 1 => demoStepFlat) 0 i j = 0 ∧
      0 < tsVfMatrix edgeArray (fun _ : Fin 3 => demoStepFlat) 0 i j := by
  have hg : ((fitStep edgeArray demoStepFlat).coords (.gnd false 0 0)).length = TOL / 2 := by
    rw [edge_gnd]
    simp only [Line.length]
    rw [show ((0:ℝ) - 0) ^ 2 + (-100 + TOL / 2 - -100) ^ 2 = (TOL / 2) ^ 2 by ring]
    exact Real.sqrt_sq (by have := TOL_pos; linarith)
  have hv : ((fitStep edgeArray demoStepFlat).coords (.pv 0 .back 0 false)).length
      = 200 - TOL := by
    rw [edge_pv]
    simp only [Line.length]
    rw [show ((1:ℝ) - 1) ^ 2 + (100 - TOL / 2 - (-100 + TOL / 2)) ^ 2 = (200 - TOL) ^ 2 by ring]
    exact Real.sqrt_sq (by norm_num [TOL])
  have ma : SurfRef.pv 0 .back 0 false ∈ allRefs edgeArray := mem_allRefs_pv.2 (by
    simp [edgeArray, ArrayParams.nSeg, ArrayParams.nBack])
  have mb : SurfRef.gnd false 0 0 ∈ allRefs edgeArray := mem_allRefs_gnd.2 (by simp)
  refine ⟨⟨by norm_num [edgeArray, TOL], by norm_num [edgeArray]⟩, ⟨?_, ?_, ?_, ?_, ?_, ?_⟩,
    surfIndex edgeArray (.pv 0 .back 0 false), surfIndex edgeArray (.gnd false 0 0),
    surfIndex_lt ma, surfIndex_lt mb, ?_, ?_⟩
  · simp [demoStepFlat]
  · norm_num [demoStepFlat]
  · simp [demoStepFlat, edgeArray, sind, deg2rad]
  · rw [edge_sun]; norm_num
  · rw [edge_sun, edge_rot]; simp [frontDotSun, cosd, sind, deg2rad]
  · left; simp [edgeArray]
  · unfold tsVfMatrix
    rw [vfMatrix_eq ma mb]
    simp only [entryVF]
    rw [if_pos]
    right
    simp only [isEmptyTs, Finset.univ_unique, Finset.sum_const, Finset.card_singleton, one_smul,
      hg]
    have := TOL_pos; linarith
  · unfold tsVfMatrix
    rw [vfMatrix_eq ma mb]
    simp only [entryVF]
    rw [if_neg]
    · have hd : (fitStep edgeArray demoStepFlat).rot.deg = 0 := by
        unfold fitStep; rw [edge_rot]; rfl
      have hv' := hv
      rw [edge_pv] at hv'
      simp only [pvGndVF, vfPvGnd, hd, lt_irrefl, edge_gnd, edge_pv, hv', vfSurfSurf, distPt]
      simp only [decide_true, le_refl, true_and, true_or, if_true, gt_iff_lt, if_false]
      have hw : TOL < 200 - TOL := by norm_num [TOL]
      rw [if_pos hw]
      apply div_pos _ (by linarith [TOL_pos])
      apply abs_pos.2
      apply ne_of_gt
      set d := TOL / 2 with hd'
      have dpos : 0 < d := by have := TOL_pos; positivity
      have dlt : d < 1 / 100 := by rw [hd']; norm_num [TOL]
      set B := Real.sqrt ((0 - 1) ^ 2 + (-100 + d - (100 - d)) ^ 2) with hB
      have hB2 : B ^ 2 = 1 + (200 - 2 * d) ^ 2 := by
        rw [hB, Real.sq_sqrt (by positivity)]; ring
      have hB0 : 0 ≤ B := Real.sqrt_nonneg _
      have hB1 : B ≤ 201 := by nlinarith
      have hA : B + d / 2 ≤ Real.sqrt ((0 - 1) ^ 2 + (-100 - (100 - d)) ^ 2) := by
        apply Real.le_sqrt_of_sq_le
        nlinarith
      have hD : Real.sqrt ((0 - 1) ^ 2 + (-100 - (-100 + d)) ^ 2) ≤ 1 + d ^ 2 := by
        apply Real.sqrt_le_iff.2
        constructor
        · positivity
        · nlinarith [sq_nonneg (d ^ 2)]
      have hC : Real.sqrt ((0 - 1) ^ 2 + (-100 + d - (-100 + d)) ^ 2) = 1 := by
        rw [show ((0:ℝ) - 1) ^ 2 + (-100 + d - (-100 + d)) ^ 2 = 1 by ring, Real.sqrt_one]
      have hdd : d ^ 2 < d / 2 := by nlinarith
      rw [hC]
      have key : ∀ A D : ℝ, B + d / 2 ≤ A → D ≤ 1 + d ^ 2 → 1 + A - (D + B) > 0 := by
        intro A D h1 h2; linarith
      exact key _ _ hA hD
    · simp only [isEmptyTs, Finset.sum_const, Finset.card_univ, Fintype.card_fin, hg, hv,
        nsmul_eq_mul]
      norm_num [TOL]

end PVF
