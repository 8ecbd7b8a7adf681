import Verif.Lemmas.Horizon
import Verif.Lemmas.AoiRays
import Verif.Props.AoiRays
import Mathlib.Analysis.Real.Pi.Bounds
import Mathlib.Analysis.SpecialFunctions.Trigonometric.Bounds

/-!
# C56: the horizon band by rays

The share of the horizon component that arrives on a surface, against the share of the elevations of
the band at which rays from the middle of the surface meet nothing (`Spec/Horizon.lean`).
-/

namespace PVF
open Real

/-- The middle of a PV surface lies on its row. -/
theorem middle_on_row {p : ArrayParams} {rot : Rot} {sun : Pt} (h : Physical p rot.deg)
    {r : ℕ} {s : RowSide} {k : ℕ} (hk : k < p.nSeg r s) (sh : Bool) :
    ∃ ρ, -(p.width / 2) ≤ ρ ∧ ρ ≤ p.width / 2 ∧
      ((fitGeom p rot sun).coords (.pv r s k sh)).centroid = rowPt (rowCenter p r) rot.deg ρ := by
  have hm := middle_pv (sun := sun) h true hk sh
  obtain ⟨ba, bab, bb⟩ := pv_iv_bounds (rot := rot) (sun := sun) hk sh h.width.le
  have e : mirB true ((fitGeom p rot sun).coords (.pv r s k sh)).centroid
      = ((fitGeom p rot sun).coords (.pv r s k sh)).centroid := rfl
  rw [e] at hm
  rw [hm]
  generalize pvIv p rot sun r s k sh = iv at *
  change ∃ ρ, _ ∧ _ ∧ tPt (rowCenter p r) p.width rot.deg ((iv.1 + iv.2) / 2) = _
  unfold tPt
  split_ifs
  · exact ⟨_, by linarith, by linarith, rfl⟩
  · exact ⟨_, by linarith, by linarith, rfl⟩

theorem rotation_cosd_abs (u : StepIn) (p : ArrayParams) :
    |cosd (rotationFromTiltAzimuth u.surfaceAzimuth p.axisAzimuth u.surfaceTilt).deg|
      = |cosd u.surfaceTilt| := by
  unfold rotationFromTiltAzimuth
  simp only
  split_ifs with h h'
  · rw [h]
  · rfl
  · simp only [cosd_neg]

theorem physical_rows {p : ArrayParams} {u : StepIn} (hp : PhysicalArray p)
    (ht0 : 0 ≤ u.surfaceTilt) (ht1 : u.surfaceTilt < 180)
    (habove : p.width / 2 * sind u.surfaceTilt < p.height) :
    Physical p (rotationFromTiltAzimuth u.surfaceAzimuth p.axisAzimuth u.surfaceTilt).deg where
  width := hp.width_pos
  distance := div_pos hp.width_pos hp.gcr_pos
  lo := (rotation_range' ht0 ht1).1
  hi := (rotation_range' ht0 ht1).2
  above := by rw [rotation_sind_abs u p ht0 ht1]; exact habove

/-- From flat rows, nothing of the band is hidden. -/
theorem bandOpen_flat {p : ArrayParams} {rot : Rot} {sun : Pt} (hph : Physical p rot.deg)
    (hov : p.width * |cosd rot.deg| < p.distance) {r : ℕ} (hr : r < p.nRows) {ρ : ℝ}
    (h0 : -(p.width / 2) ≤ ρ) (h1 : ρ ≤ p.width / 2) (right : Bool) {band : ℝ} (hb : 0 < band)
    (hb1 : band < 90) (hflat : rot.deg = 0) :
    bandOpen ((fitGeom p rot sun).Solid p) (rowPt (rowCenter p r) rot.deg ρ) right band = 1 := by
  classical
  rw [bandOpen_row hph hov hr h0 h1 right hb hb1]
  split_ifs with hn
  · have hfull : ((fitGeom p rot sun).row (nextIdx r right)).full
        = fullRowCoords (rowCenter p (nextIdx r right)) p.width rot.deg := rfl
    have hang : shadingAngleTo ((fitGeom p rot sun).row (nextIdx r right)).full
        (rowPt (rowCenter p r) rot.deg ρ) = 0 := by
      unfold shadingAngleTo
      rw [hfull, highest_full _ hph.width]
      obtain ⟨_, c2⟩ := rowCenter_sub p (nextIdx r right) r
      simp [rowPt, hflat, sind_zero, c2, rad2deg]
    rw [hang, (C35_horizon_band hb).2.1 0 le_rfl]; norm_num
  · norm_num

/-- C56.  For every surface of every row, front or back, at every tilt at which the rows do not
overlap seen from above: what is left of the horizon band after shading is the share of the
elevations of the band, in the direction to which the surface looks, at which a ray from the middle
of the surface meets neither a row nor the ground. -/
theorem C56_band_by_rays (q : IrrParams) (p : ArrayParams) (u : StepIn) (hp : PhysicalArray p)
    (ht0 : 0 ≤ u.surfaceTilt) (ht1 : u.surfaceTilt < 180)
    (habove : p.width / 2 * sind u.surfaceTilt < p.height)
    (hov : p.width * |cosd u.surfaceTilt| < p.distance)
    (hb : 0 < q.horizonBandAngle) (hb1 : q.horizonBandAngle < 90)
    {r k : ℕ} {s : RowSide} {sh : Bool} (ha : SurfRef.pv r s k sh ∈ surfaces p) :
    let g := fitStep p u
    let X := (g.coords (.pv r s k sh)).centroid
    1 - horizonShadingPct q p g X r (decide (s = .back)) / 100
      = open Classical in bandOpen (g.Solid p) X
          (decide (0 < (outward g.rot.deg (.pv r s k sh)).x)) q.horizonBandAngle := by
  classical
  intro g X
  have hph := physical_rows (u := u) hp ht0 ht1 habove
  set rot := rotationFromTiltAzimuth u.surfaceAzimuth p.axisAzimuth u.surfaceTilt with hrot
  have hov' : p.width * |cosd rot.deg| < p.distance := by rw [hrot, rotation_cosd_abs]; exact hov
  set sun := solar2dVector u.solarZenith u.solarAzimuth p.axisAzimuth with hsun
  have hg : g = fitGeom p rot sun := rfl
  have hgr : g.rot = rot := rfl
  obtain ⟨hr, hk⟩ := mem_allRefs_pv.1 (mem_surfaces.1 ha)
  obtain ⟨ρ, h0, h1, hX⟩ := middle_on_row (sun := sun) hph hk sh
  have hX' : X = rowPt (rowCenter p r) rot.deg ρ := hX
  have key : ∀ right : Bool, bandOpen (g.Solid p) X right q.horizonBandAngle
      = 1 - (if NextIn p.nRows r right then
          horizonBandShading (shadingAngleTo (g.row (nextIdx r right)).full X) q.horizonBandAngle
          else 0) / 100 := fun right => by
    rw [hX', hg]; exact bandOpen_row (sun := sun) hph hov' hr h0 h1 right hb hb1
  have hpct : horizonShadingPct q p g X r (decide (s = .back))
      = if NextIn p.nRows r (decide (s = .back ↔ 0 < rot.deg)) then
          horizonBandShading (shadingAngleTo
            (g.row (nextIdx r (decide (s = .back ↔ 0 < rot.deg)))).full X) q.horizonBandAngle
        else 0 := by
    unfold horizonShadingPct NextIn nextIdx
    rw [hgr]
    simp only [gt_iff_lt]
    have e1 : (r = p.nRows - 1) ↔ ¬ (r + 1 < p.nRows) := by omega
    have e2 : (r = 0) ↔ ¬ 0 < r := by omega
    have e3 : ∀ x : ℝ, (if r = p.nRows - 1 then 0 else x) = if r + 1 < p.nRows then x else 0 := by
      intro x; by_cases h : r + 1 < p.nRows <;> simp [e1, h]
    have e4 : ∀ x : ℝ, (if r = 0 then 0 else x) = if 0 < r then x else 0 := by
      intro x; by_cases h : 0 < r <;> simp [e2, h]
    rw [e3, e4]
    by_cases h : 0 < rot.deg <;> cases s <;> simp [h]
  rw [hpct]
  by_cases hflat : rot.deg = 0
  · have h2 := bandOpen_flat (sun := sun) hph hov' hr h0 h1
    have h3 : bandOpen (g.Solid p) X (decide (s = .back ↔ 0 < rot.deg)) q.horizonBandAngle = 1 := by
      rw [hX', hg]; exact h2 _ hb hb1 hflat
    rw [key] at h3
    rw [show bandOpen (g.Solid p) X _ q.horizonBandAngle = 1 by
      rw [hX', hg]; exact h2 _ hb hb1 hflat]
    exact h3
  · have hdir : decide (0 < (outward g.rot.deg (.pv r s k sh)).x)
        = decide (s = .back ↔ 0 < rot.deg) := by
      rw [hgr]
      rcases lt_or_gt_of_ne hflat with h | h
      · have := sind_neg_of_neg h hph.lo
        cases s <;> simp [outward, this, not_lt.2 this.le, not_lt.2 h.le]
      · have := sind_pos h hph.hi
        cases s <;> simp [outward, this, not_lt.2 this.le, h]
    rw [hdir, key]

/-- The horizon component of the hybrid Perez model on the back of a row is the share of the band that is
not hidden of the horizon irradiance on the tilted plane; the absorbed part likewise.  The front is
not shaded: it gets all of it, which is at least as much. -/
theorem C56_horizon_component (q : IrrParams) (p : ArrayParams) (u : StepIn) (v : IrrIn)
    (hp : PhysicalArray p) (ht0 : 0 ≤ u.surfaceTilt) (ht1 : u.surfaceTilt < 180)
    (habove : p.width / 2 * sind u.surfaceTilt < p.height)
    (hov : p.width * |cosd u.surfaceTilt| < p.distance)
    (hb : 0 < q.horizonBandAngle) (hb1 : q.horizonBandAngle < 90)
    {r k : ℕ} {s : RowSide} {sh : Bool} (ha : SurfRef.pv r s k sh ∈ surfaces p) :
    let g := fitStep p u
    let share := open Classical in bandOpen (g.Solid p) (g.coords (.pv r s k sh)).centroid
          (decide (0 < (outward g.rot.deg (.pv r s k sh)).x)) q.horizonBandAngle
    0 ≤ share ∧ share ≤ 1 ∧
    (s = .back →
      ((hybridPerezStep q p g v).comp (.pv r s k sh)).getLast? = some (|v.perez.poaHorizon| * share) ∧
      ((hybridPerezStep q p g v).compAbs (.pv r s k sh)).getLast?
        = some (faoiHorizonBack q v * (|v.perez.poaHorizon| * share))) ∧
    (s = .front → ((hybridPerezStep q p g v).comp (.pv r s k sh)).getLast? = some |v.perez.poaHorizon|) := by
  intro g share
  have h : 1 - horizonShadingPct q p g (g.coords (.pv r s k sh)).centroid r (decide (s = .back)) / 100
      = share := C56_band_by_rays q p u hp ht0 ht1 habove hov hb hb1 ha
  have hx : 0 ≤ horizonShadingPct q p g (g.coords (.pv r s k sh)).centroid r (decide (s = .back)) ∧
      horizonShadingPct q p g (g.coords (.pv r s k sh)).centroid r (decide (s = .back)) ≤ 100 := by
    have hbd := (C35_horizon_band hb).1
    unfold horizonShadingPct
    simp only
    split_ifs <;> first | exact hbd _ | norm_num
  refine ⟨by linarith [hx.2], by linarith [hx.1], ?_, ?_⟩
  · rintro rfl
    simp only [hybridPerezStep, horizonOf, horizonAbsOf, poaHorizonUsed, List.getLast?_cons_cons,
      List.getLast?_singleton, Option.some.injEq]
    simp only [decide_true] at h
    rw [h]
    exact ⟨rfl, by ring⟩
  · rintro rfl
    simp [hybridPerezStep, horizonOf, poaHorizonUsed]

theorem vert_high (j : ℕ) : ((fitStep vertArray vertStep).row j).full.highest = ⟨5 * j, 5 / 2⟩ := by
  have h2 : ((fitStep vertArray vertStep).row j).full
      = fullRowCoords (rowCenter vertArray j) vertArray.width 90 := by rw [vert_fit]; rfl
  rw [h2, highest_full _ (by norm_num [vertArray])]
  simp only [topPos, rowPt, cosd_90, sind_90, rowCenter]
  norm_num [vertArray, ArrayParams.distance, X_ORIGIN, Y_GROUND]
  ring

/-- The hypotheses of C56 can be met, and part of the band is hidden: seen from the upper half of the
back of the first of two vertical rows, the second row reaches up to arctan 1/10, 5.7 degrees of a
band of 7.5 degrees. -/
theorem C56_demo :
    let g := fitStep vertArray vertStep
    bandOpen (g.Solid vertArray) (g.coords (.pv 0 .back 1 false)).centroid true (15 / 2)
      = 1 - rad2deg (arctan (1 / 10)) / (15 / 2) := by
  intro g
  have h := C56_band_by_rays demoIrrParams vertArray vertStep vert_physicalArray
    vert_physicalStep.tilt_nonneg vert_physicalStep.tilt_lt vert_physicalStep.above
    (by rw [show vertStep.surfaceTilt = 90 from rfl, cosd_90]; norm_num [vertArray, ArrayParams.distance])
    (by norm_num [demoIrrParams]) (by norm_num [demoIrrParams]) (vert_mem 1 (by norm_num) false)
  simp only [vert_outward] at h
  have e1 : demoIrrParams.horizonBandAngle = 15 / 2 := rfl
  simp only [zero_lt_one, decide_true, e1] at h
  change _ = bandOpen (g.Solid vertArray) (g.coords (.pv 0 .back 1 false)).centroid true (15 / 2) at h
  rw [← h]
  have hc : (g.coords (.pv 0 .back 1 false)).centroid = ⟨0, 2⟩ := by
    have hph := physical_of vert_physicalArray vert_physicalStep
    rw [vert_rot] at hph
    have := middle_pv (rot := ⟨90, false⟩) (sun := ⟨-(√2 / 2), √2 / 2⟩) hph true (r := 0)
      (s := .back) (k := 1) (by simp [vertArray, ArrayParams.nSeg, ArrayParams.nBack]) false
    rw [← vert_fit] at this
    change (g.coords _).centroid = _ at this
    rw [this, vp_eq]
    have hsh : sideShade vertArray (arctan2 (√2 / 2) (-(√2 / 2))) 90 0 .back = 0 := by
      unfold sideShade rowShadedLengths
      rw [vert_alpha, vert_interrow]
      simp
    unfold pvIv
    simp only [hsh, lowX, lowY, upX, upY, sx, sind_90, cosd_90, if_true]
    norm_num [vertArray, tIv, tSeg, ArrayParams.nSeg, ArrayParams.nBack]
  have hang : shadingAngleTo (g.row 1).full ⟨0, 2⟩ = rad2deg (arctan (1 / 10)) := by
    unfold shadingAngleTo
    rw [vert_high]
    norm_num
    rw [abs_of_nonneg (arctan_nonneg.2 (by norm_num))]
  have hlt : rad2deg (arctan (1 / 10)) < 15 / 2 ∧ 0 ≤ rad2deg (arctan (1 / 10)) := by
    have h1 : arctan (1 / 10) ≤ 1 / 10 := by
      have h := le_tan (arctan_nonneg.2 (by norm_num : (0:ℝ) ≤ 1 / 10)) (arctan_lt_pi_div_two _)
      rwa [tan_arctan] at h
    have h0 : 0 ≤ arctan (1 / 10) := arctan_nonneg.2 (by norm_num)
    have hpi := pi_gt_three
    unfold rad2deg
    refine ⟨?_, by positivity⟩
    rw [div_lt_iff₀ (by linarith)]
    nlinarith
  unfold horizonShadingPct
  simp only [vert_deg, e1]
  rw [if_pos trivial, if_pos (by norm_num), if_neg (by norm_num [vertArray])]
  change 1 - horizonBandShading (shadingAngleTo (g.row 1).full
    (g.coords (.pv 0 .back 1 false)).centroid) (15 / 2) / 100 = _
  rw [hc, hang,
    (C35_horizon_band (by norm_num)).2.2.2.1 _ hlt.2 hlt.1.le]
  ring

end PVF
