import Verif.Spec.Defined
import Verif.Props.Horizon
import Verif.Props.Perez
import Verif.Props.Ground
import Verif.Props.EndToEnd
import Verif.Props.FastDemo

/-!
# C82: no undefined arithmetic for physical inputs
-/

namespace PVF
open Real

/-- C82 (geometry). -/
theorem C82_geometry (p : ArrayParams) (u : StepIn) (hp : PhysicalArray p) (hu : PhysicalStep p u)
    (hc : ∀ i < p.nRows, ∀ s, 0 < p.nSeg i s) : GeometryDefined p u where
  gcr := hp.gcr_pos.ne'
  cut := fun i hi s => by exact_mod_cast (hc i hi s).ne'
  beta := by
    have h := sunFront_ne hu.sun_front
    set alpha := (fitStep p u).alpha
    set rot := (fitStep p u).rot.deg
    change sunFront alpha rot ≠ 0 at h
    have e : deg2rad (90 - rot + rad2deg alpha) = (alpha - deg2rad rot) + π / 2 := by
      have : deg2rad (90 - rot + rad2deg alpha) = deg2rad 90 - deg2rad rot + deg2rad (rad2deg alpha) := by
        unfold deg2rad; ring
      rw [this, deg2rad_rad2deg]
      unfold deg2rad; ring
    rw [e, cos_add_pi_div_two, ← sunFront_eq]
    exact neg_ne_zero.2 h
  alpha := sin_alpha_ne hu.sun_y
  rotation := fun h => by
    obtain ⟨h0, h1⟩ := rotation_range' (sa := u.surfaceAzimuth) (aa := p.axisAzimuth) hu.tilt_nonneg
      hu.tilt_lt
    rcases lt_or_gt_of_ne h with h | h
    · exact (sind_neg_of_neg h h0).ne
    · exact (sind_pos h h1).ne'

/-- C82 (limits).  Where the conditions on the sun fail, the arithmetic is indeed undefined: the sun in
the horizon gives an infinite shadow, the sun in the plane of the rows an infinite tangent. -/
theorem C82_limits (p : ArrayParams) (u : StepIn) :
    let g := fitStep p u
    (g.sun.y = 0 → Real.sin g.alpha = 0) ∧
    (g.sun.x ≠ 0 ∨ g.sun.y ≠ 0 → frontDotSun g.rot.deg g.sun = 0 →
      Real.cos (deg2rad (90 - g.rot.deg + rad2deg g.alpha)) = 0) := by
  intro g
  constructor
  · intro h
    change Real.sin (arctan2 g.sun.y g.sun.x) = 0
    unfold arctan2
    rw [h, Complex.sin_arg]
    simp
  · intro hne h
    obtain ⟨m, hm, -, -, h3⟩ := frontDotSun_eq hne g.rot.deg
    have h4 : sunFront g.alpha g.rot.deg = 0 := by
      rw [h] at h3
      rcases mul_eq_zero.1 h3.symm with h5 | h5
      · exact absurd h5 hm.ne'
      · exact h5
    have e : deg2rad (90 - g.rot.deg + rad2deg g.alpha) = (g.alpha - deg2rad g.rot.deg) + π / 2 := by
      have : deg2rad (90 - g.rot.deg + rad2deg g.alpha)
          = deg2rad 90 - deg2rad g.rot.deg + deg2rad (rad2deg g.alpha) := by
        unfold deg2rad; ring
      rw [this, deg2rad_rad2deg]
      unfold deg2rad; ring
    rw [e, cos_add_pi_div_two, ← sunFront_eq, h4, neg_zero]

theorem sqrt_ne {a b : ℝ} (h : a ≠ 0 ∨ b ≠ 0) : √(a ^ 2 + b ^ 2) ≠ 0 := by
  rw [Real.sqrt_ne_zero']
  rcases h with h | h <;> positivity

/-- Points of different rows differ. -/
theorem rowPt_ne {p : ArrayParams} {rot : ℝ} (h : Physical p rot) (hf : rot = 0 → p.width < p.distance)
    {i j : ℕ} (hij : i ≠ j) {ρ ρ' : ℝ} (h0 : -(p.width / 2) ≤ ρ) (h1 : ρ ≤ p.width / 2)
    (h0' : -(p.width / 2) ≤ ρ') (h1' : ρ' ≤ p.width / 2) :
    (rowPt (rowCenter p i) rot ρ).x - (rowPt (rowCenter p j) rot ρ').x ≠ 0 ∨
    (rowPt (rowCenter p i) rot ρ).y - (rowPt (rowCenter p j) rot ρ').y ≠ 0 := by
  by_contra hc
  rw [not_or, not_ne_iff, not_ne_iff] at hc
  obtain ⟨hx, hy⟩ := hc
  simp only [rowPt, rowCenter] at hx hy
  have hij' : (1:ℝ) ≤ |(i:ℝ) - j| := by
    have h1 : (1:ℤ) ≤ |(i:ℤ) - j| := Int.one_le_abs (sub_ne_zero.2 (by exact_mod_cast hij))
    have h2 : ((1:ℤ):ℝ) ≤ ((|(i:ℤ) - j| : ℤ) : ℝ) := Int.cast_le.2 h1
    simpa using h2
  have hd := h.distance
  by_cases hr : rot = 0
  · have := hf hr
    subst hr
    rw [cosd_zero] at hx
    have e : ((i:ℝ) - j) * p.distance = ρ' - ρ := by linarith
    have : |(i:ℝ) - j| * p.distance ≤ p.width := by
      rw [← abs_of_pos hd, ← abs_mul, e, abs_le]; constructor <;> linarith
    nlinarith
  · have hs : sind rot ≠ 0 := by
      rcases lt_or_gt_of_ne hr with h' | h'
      · exact (sind_neg_of_neg h' h.lo).ne
      · exact (sind_pos h' h.hi).ne'
    have e : ρ = ρ' := by
      have : (ρ - ρ') * sind rot = 0 := by linarith
      rcases mul_eq_zero.1 this with h | h
      · linarith
      · exact absurd h hs
    subst e
    have : ((i:ℝ) - j) * p.distance = 0 := by linarith
    rcases mul_eq_zero.1 this with h | h
    · rw [h] at hij'; norm_num at hij'
    · linarith

/-- Ends of PV surfaces lie on their row. -/
theorem ends_on_row {p : ArrayParams} {rot : Rot} {sun : Pt} (h : Physical p rot.deg)
    {r : ℕ} {s : RowSide} {k : ℕ} (hk : k < p.nSeg r s) (sh : Bool) (q : Pt)
    (hq : q = ((fitGeom p rot sun).coords (.pv r s k sh)).b1 ∨
      q = ((fitGeom p rot sun).coords (.pv r s k sh)).b2) :
    ∃ ρ, -(p.width / 2) ≤ ρ ∧ ρ ≤ p.width / 2 ∧ q = rowPt (rowCenter p r) rot.deg ρ := by
  obtain ⟨ba, bab, bb⟩ := pv_iv_bounds (rot := rot) (sun := sun) hk sh h.width.le
  have key : ∀ t, 0 ≤ t → t ≤ p.width → ∃ ρ, -(p.width / 2) ≤ ρ ∧ ρ ≤ p.width / 2 ∧
      tPt (rowCenter p r) p.width rot.deg t = rowPt (rowCenter p r) rot.deg ρ := by
    intro t h0 h1
    unfold tPt
    split_ifs
    · exact ⟨_, by linarith, by linarith, rfl⟩
    · exact ⟨_, by linarith, by linarith, rfl⟩
  rw [coords_pv_t hk sh h.width.le h.lo h.hi] at hq
  split_ifs at hq <;> rcases hq with rfl | rfl <;> exact key _ (by linarith) (by linarith)

/-- The middle of a PV surface that is not a point lies strictly between the ends of its row. -/
theorem middle_inside {p : ArrayParams} {rot : Rot} {sun : Pt} (h : Physical p rot.deg)
    {r : ℕ} {s : RowSide} {k : ℕ} (hk : k < p.nSeg r s) (sh : Bool)
    (hl : 0 < ((fitGeom p rot sun).coords (.pv r s k sh)).length) :
    ∃ ρ, -(p.width / 2) < ρ ∧ ρ < p.width / 2 ∧
      ((fitGeom p rot sun).coords (.pv r s k sh)).centroid = rowPt (rowCenter p r) rot.deg ρ := by
  have hm := middle_pv (sun := sun) h true hk sh
  obtain ⟨ba, bab, bb⟩ := pv_iv_bounds (rot := rot) (sun := sun) hk sh h.width.le
  rw [length_pv hk sh h.width.le h.lo h.hi] at hl
  have e : mirB true ((fitGeom p rot sun).coords (.pv r s k sh)).centroid
      = ((fitGeom p rot sun).coords (.pv r s k sh)).centroid := rfl
  rw [e] at hm
  rw [hm]
  generalize pvIv p rot sun r s k sh = iv at *
  change ∃ ρ, _ ∧ _ ∧ tPt (rowCenter p r) p.width rot.deg ((iv.1 + iv.2) / 2) = _
  unfold tPt
  split_ifs
  · exact ⟨_, by linarith, by linarith, rfl⟩
  · exact ⟨_, by linarith, by linarith, rfl⟩

/-- C82 (angles of incidence). -/
theorem C82_angles (p : ArrayParams) (u : StepIn) (hp : PhysicalArray p) (hu : PhysicalStep p u)
    (hf : u.surfaceTilt = 0 → p.gcr < 1) (n : ℕ) (hn : 0 < n) : AnglesDefined p (fitStep p u) n where
  sections := by exact_mod_cast hn.ne'
  angle := by
    intro r s k sh ha hl q hq
    have h := physical_of hp hu
    obtain ⟨hr, hk⟩ := mem_allRefs_pv.1 ha
    have hft : (fitStep p u).rot.deg = 0 → p.width < p.distance := by
      intro h0
      have ht : u.surfaceTilt = 0 := by
        by_contra hne
        change (rotationFromTiltAzimuth u.surfaceAzimuth p.axisAzimuth u.surfaceTilt).deg = 0 at h0
        unfold rotationFromTiltAzimuth at h0
        simp only [if_neg hne] at h0
        split_ifs at h0
        · exact hne h0
        · exact hne (neg_eq_zero.1 h0)
      have hg := hf ht
      unfold ArrayParams.distance
      rw [lt_div_iff₀ hp.gcr_pos]
      nlinarith [hp.width_pos]
    obtain ⟨ρ, h0, h1, hm⟩ := middle_inside
      (sun := solar2dVector u.solarZenith u.solarAzimuth p.axisAzimuth) h hk sh
      (lt_of_lt_of_le TOL_pos hl)
    change ((fitStep p u).coords (.pv r s k sh)).centroid = rowPt (rowCenter p r) (fitStep p u).rot.deg ρ
      at hm
    rw [hm]
    change Physical p (fitStep p u).rot.deg at h
    refine mul_ne_zero ?_ (sqrt_ne ?_)
    · have hw := hp.width_pos
      have hcs := cosd_sq_add_sind_sq (fitStep p u).rot.deg
      refine sqrt_ne ?_
      have hfull : ((fitStep p u).row r).full = ⟨rowPt (rowCenter p r) (fitStep p u).rot.deg (-(p.width / 2)),
          rowPt (rowCenter p r) (fitStep p u).rot.deg (p.width / 2)⟩ := fullRowCoords_eq _ _ _
      by_contra hc
      rw [not_or, not_ne_iff, not_ne_iff] at hc
      obtain ⟨hc1, hc2⟩ := hc
      have e1 : p.width * cosd (fitStep p u).rot.deg = 0 := by
        cases s <;> simp only [StepGeom.uVec, uVector, sideNormal, hfull, rowPt] at hc1 <;> linarith
      have e2 : p.width * sind (fitStep p u).rot.deg = 0 := by
        cases s <;> simp only [StepGeom.uVec, uVector, sideNormal, hfull, rowPt] at hc2 <;> linarith
      have e1' := (mul_eq_zero.1 e1).resolve_left hw.ne'
      have e2' := (mul_eq_zero.1 e2).resolve_left hw.ne'
      rw [e1', e2'] at hcs
      norm_num at hcs
    · have habove : 0 < (rowPt (rowCenter p r) (fitStep p u).rot.deg ρ).y := by
        have h2 := h.above
        simp only [rowPt, rowCenter, Y_GROUND]
        have h3 : |ρ * sind (fitStep p u).rot.deg| ≤ p.width / 2 * |sind (fitStep p u).rot.deg| := by
          rw [abs_mul]
          exact mul_le_mul_of_nonneg_right (abs_le.2 ⟨h0.le, h1.le⟩) (abs_nonneg _)
        have := (abs_le.1 h3).1
        linarith
      cases hq with
      | ground a ha q hq =>
        right
        have hg := (C17_tiling p u hp.width_pos hp.gcr_pos hu.sun_y hu.sun_front hu.shade_ok).2.2.1 a ha
        rcases hq with rfl | rfl
        · rw [hg.1]; linarith
        · rw [hg.2.1]; linarith
      | row r' s' k' sh' hr' hk' hnb q hq =>
        obtain ⟨ρ', h0', h1', rfl⟩ := ends_on_row
          (sun := solar2dVector u.solarZenith u.solarAzimuth p.axisAzimuth) h hk' sh' q hq
        exact rowPt_ne h hft (by omega) h0' h1' h0.le h1.le
      | obstruction r' hr' hnb =>
        have e : ((fitStep p u).row r').full.lowest
            = tPt (rowCenter p r') p.width (fitStep p u).rot.deg 0 := full_lowest h r'
        rw [e]
        unfold tPt
        split_ifs
        · exact rowPt_ne h hft (by omega) (by linarith) (by linarith) h0.le h1.le
        · exact rowPt_ne h hft (by omega) (by linarith) (by linarith) h0.le h1.le
      | sky r' hr' =>
        have e : ((fitStep p u).row r').full.highest
            = rowPt (rowCenter p r') (fitStep p u).rot.deg (topPos p.width (fitStep p u).rot.deg) :=
          highest_full _ hp.width_pos _
        rw [e]
        obtain ⟨t0, t1⟩ := topPos_bounds hp.width_pos (fitStep p u).rot.deg
        rcases eq_or_ne r' r with rfl | hne
        · have ht : topPos p.width (fitStep p u).rot.deg = p.width / 2 ∨
              topPos p.width (fitStep p u).rot.deg = -(p.width / 2) := by
            unfold topPos; split_ifs <;> simp
          have hcs := cosd_sq_add_sind_sq (fitStep p u).rot.deg
          by_contra hc
          rw [not_or, not_ne_iff, not_ne_iff] at hc
          obtain ⟨hc1, hc2⟩ := hc
          simp only [rowPt] at hc1 hc2
          have hz : topPos p.width (fitStep p u).rot.deg - ρ ≠ 0 := by
            rcases ht with ht | ht <;> rw [ht]
            · linarith
            · exact ne_of_lt (by linarith)
          have e1 : (topPos p.width (fitStep p u).rot.deg - ρ) * cosd (fitStep p u).rot.deg = 0 := by
            linarith
          have e2 : (topPos p.width (fitStep p u).rot.deg - ρ) * sind (fitStep p u).rot.deg = 0 := by
            linarith
          rw [(mul_eq_zero.1 e1).resolve_left hz, (mul_eq_zero.1 e2).resolve_left hz] at hcs
          norm_num at hcs
        · exact rowPt_ne h hft hne t0 t1 h0.le h1.le
      | skyEnd x hx =>
        right
        change 0 - _ ≠ 0
        linarith

/-- C82 (irradiance).  The rows must not overlap in the view from above. -/
theorem C82_irradiance (q : IrrParams) (p : ArrayParams) (u : StepIn) (v : IrrIn)
    (hp : PhysicalArray p) (hu : PhysicalStep p u) (hl : LossesOk q v) (hz : 0 < cosd v.solarZenith)
    (hb : 0 < q.horizonBandAngle) (hov : p.gcr * |cosd u.surfaceTilt| < 1) :
    IrradianceDefined q p (fitStep p u) v where
  rhoFront := hl.front.1.ne'
  rhoBack := hl.back.1.ne'
  albedo := hl.albedo.1.ne'
  zenith := hz.ne'
  band := hb.ne'
  neighbour := by
    intro r s k sh ha r' hr' hnb
    have h := physical_of hp hu
    obtain ⟨hr, hk⟩ := mem_allRefs_pv.1 ha
    have hov' : p.width * |cosd (fitStep p u).rot.deg| < p.distance := by
      change p.width * |cosd (rotationFromTiltAzimuth u.surfaceAzimuth p.axisAzimuth u.surfaceTilt).deg| < _
      rw [rotation_cosd_abs]
      unfold ArrayParams.distance
      rw [lt_div_iff₀ hp.gcr_pos]
      nlinarith [hp.width_pos]
    obtain ⟨ρ, h0, h1, hm⟩ := middle_on_row
      (sun := solar2dVector u.solarZenith u.solarAzimuth p.axisAzimuth) h hk sh
    change ((fitStep p u).coords (.pv r s k sh)).centroid = rowPt (rowCenter p r) (fitStep p u).rot.deg ρ
      at hm
    have e : ((fitStep p u).row r').full.highest
        = rowPt (rowCenter p r') (fitStep p u).rot.deg (topPos p.width (fitStep p u).rot.deg) :=
      highest_full _ hp.width_pos _
    obtain ⟨t0, t1⟩ := topPos_bounds hp.width_pos (fitStep p u).rot.deg
    rw [hm, e]
    simp only [rowPt, rowCenter]
    rcases hnb with rfl | rfl
    · have := shift_pos (σ := 1) (k := 1) hov' (by norm_num) le_rfl h0 h1 t0 t1
      refine ne_of_gt ?_
      push_cast
      linarith
    · have := shift_pos (σ := -1) (k := 1) hov' (by norm_num) le_rfl h0 h1 t0 t1
      refine ne_of_lt ?_
      push_cast
      linarith

/-- C82 (Perez model).  For a row of inputs with the sun above the horizon and not in the plane of the
surface, either its own luminances or, if the sun hits the back, those of the reversed surface are
defined; the isotropic luminance always is. -/
theorem C82_perez (r : PerezIn) (ht : 0 ≤ r.surfaceTilt) (ht1 : r.surfaceTilt < 180)
    (hz0 : 0 ≤ r.solarZenith) (hz : r.solarZenith ≤ 90)
    (ha : aoiProjection r.surfaceTilt r.surfaceAzimuth r.solarZenith r.solarAzimuth ≠ 0) :
    (1 + cosd r.surfaceTilt) / 2 ≠ 0 ∧ max (cosd r.solarZenith) (cosd 85) ≠ 0 ∧
    (¬ r.hitsBack → PerezDefined r) ∧ (r.hitsBack → PerezDefined r.flip) := by
  have h85 : 0 < cosd 85 := (deg_trig (by norm_num) (by norm_num)).1
  have hb : ∀ x : ℝ, 0 < max x (cosd 85) := fun x => lt_of_lt_of_le h85 (le_max_right _ _)
  have hc : ∀ t : ℝ, 0 ≤ t → t < 180 → 0 < (1 + cosd t) / 2 := by
    intro t h0 h1
    have hs : -1 < cosd t := by
      unfold cosd
      rw [← cos_pi]
      have hpi := pi_pos
      refine cos_lt_cos_of_nonneg_of_le_pi ?_ le_rfl ?_
      · unfold deg2rad; positivity
      · unfold deg2rad; rw [div_lt_iff₀ (by norm_num)]; nlinarith
    linarith
  have hpos : r.hitsBack → 0 < r.surfaceTilt := by
    intro h
    refine lt_of_le_of_ne ht fun h0 => ?_
    have h1 := h.1
    rw [← h0] at h1
    simp only [aoiProjection, cosd_zero, sind_zero] at h1
    have : 0 ≤ cosd r.solarZenith := by
      rw [← cosd_90]
      exact cosd_anti hz0 (by norm_num) hz
    linarith
  refine ⟨(hc _ ht ht1).ne', (hb _).ne', fun h => ⟨(hb _).ne', (hc _ ht ht1).ne', ?_⟩,
    fun h => ⟨(hb _).ne', (hc (180 - r.surfaceTilt) (by linarith)
      (by linarith [hpos h])).ne', ?_⟩⟩
  · have : 0 < aoiProjection r.surfaceTilt r.surfaceAzimuth r.solarZenith r.solarAzimuth := by
      refine lt_of_le_of_ne ?_ (Ne.symm ha)
      by_contra hneg
      exact h ⟨not_le.1 hneg, hz⟩
    rw [max_eq_left this.le]
    exact (div_pos this (hb _)).ne'
  · have h1 := h.1
    rw [aoiProjection_flip]
    rw [max_eq_left (by linarith)]
    exact (div_pos (by linarith) (hb _)).ne'

/-- C82 (averages). -/
theorem C82_means (p : ArrayParams) (u : StepIn) (hp : PhysicalArray p) (hu : PhysicalStep p u)
    (hc : ∀ i < p.nRows, ∀ s, 0 < p.nSeg i s) : MeansDefined p (fitStep p u) := by
  have h := physical_of hp hu
  have key : ∀ i < p.nRows, ∀ s, sideLength ((fitStep p u).side i s) = p.width ∧
      ∀ seg ∈ (fitStep p u).side i s, seg.length = p.width / p.nSeg i s := by
    intro i hi s
    cases s
    · have := C21_side_length (rowCenter p i) p.width (fitStep p u).rot.deg (p.nSeg i .front)
        (rowShadedLengths p (fitStep p u).alpha (fitStep p u).rot.deg i).1 hp.width_pos.le
        (hc i hi .front) h.lo h.hi
      exact ⟨this.2.1, fun seg hs => (this.2.2.1 seg hs).1⟩
    · have := C21_side_length (rowCenter p i) p.width (fitStep p u).rot.deg (p.nSeg i .back)
        (rowShadedLengths p (fitStep p u).alpha (fitStep p u).rot.deg i).2 hp.width_pos.le
        (hc i hi .back) h.lo h.hi
      exact ⟨this.2.1, fun seg hs => (this.2.2.1 seg hs).1⟩
  refine ⟨fun i hi s => ?_, fun i hi s seg hs => ?_, ?_⟩
  · rw [(key i hi s).1]; exact hp.width_pos.ne'
  · rw [(key i hi s).2 seg hs]
    exact (div_pos hp.width_pos (by exact_mod_cast hc i hi s)).ne'
  · rw [(C17_tiling p u hp.width_pos hp.gcr_pos hu.sun_y hu.sun_front hu.shade_ok).2.1]
    norm_num

/-- C82 (disk of circumsolar light): the arguments of `np.arccos` in
`uniform_circumsolar_disk_shading` (pvfactors/irradiance/utils.py lines 319-333) are between -1 and 1. -/
theorem C82_disk (covered : ℝ) :
    RADIUS_CIRCUMSOLAR ≠ 0 ∧
    (0 < covered → covered ≤ RADIUS_CIRCUMSOLAR →
      |(RADIUS_CIRCUMSOLAR - covered) / RADIUS_CIRCUMSOLAR| ≤ 1) ∧
    (RADIUS_CIRCUMSOLAR < covered → covered < 2 * RADIUS_CIRCUMSOLAR →
      |(RADIUS_CIRCUMSOLAR - (2 * RADIUS_CIRCUMSOLAR - covered)) / RADIUS_CIRCUMSOLAR| ≤ 1) := by
  unfold RADIUS_CIRCUMSOLAR
  refine ⟨by norm_num, fun h0 h1 => ?_, fun h0 h1 => ?_⟩ <;> rw [div_one, abs_le] <;>
    constructor <;> linarith

/-- The hypotheses of C82 are met by vertical rows with two back segments. -/
theorem C82_demo : GeometryDefined vertArray vertStep ∧
    AnglesDefined vertArray (fitStep vertArray vertStep) 300 ∧
    IrradianceDefined demoIrrParams vertArray (fitStep vertArray vertStep) demoIrrIn ∧
    MeansDefined vertArray (fitStep vertArray vertStep) := by
  have hc : ∀ i < vertArray.nRows, ∀ s, 0 < vertArray.nSeg i s := by
    intro i hi s
    by_cases h : i = 0 <;> cases s <;>
      simp [ArrayParams.nSeg, ArrayParams.nFront, ArrayParams.nBack, vertArray, h]
  refine ⟨C82_geometry _ _ vert_physicalArray vert_physicalStep hc,
    C82_angles _ _ vert_physicalArray vert_physicalStep ?_ 300 (by norm_num),
    C82_irradiance _ _ _ _ vert_physicalArray vert_physicalStep demo_losses ?_ ?_ ?_,
    C82_means _ _ vert_physicalArray vert_physicalStep hc⟩
  · norm_num [vertStep]
  · norm_num [demoIrrIn, cosd_zero]
  · norm_num [demoIrrParams]
  · norm_num [vertStep, vertArray, cosd_90]

end PVF
