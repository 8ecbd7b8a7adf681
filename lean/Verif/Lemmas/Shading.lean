import Verif.Lemmas.ArrayGeom
import Mathlib.Analysis.SpecialFunctions.Trigonometric.Arctan
import Mathlib.Analysis.SpecialFunctions.Complex.Arg

/-! # Inter-row shading and ground shadows: closed forms -/

namespace PVF

/-- `sin (alpha - rotation)`: cosine of the angle between the front normal and the sun direction. -/
noncomputable def sunFront (alpha rot : ℝ) : ℝ :=
  cosd rot * Real.sin alpha - sind rot * Real.cos alpha

theorem sunFront_eq (alpha rot : ℝ) : sunFront alpha rot = Real.sin (alpha - deg2rad rot) := by
  rw [Real.sin_sub]; simp only [sunFront, cosd, sind]; ring

theorem deg2rad_rad2deg (x : ℝ) : deg2rad (rad2deg x) = x := by
  unfold deg2rad rad2deg
  have := Real.pi_pos.ne'
  field_simp

theorem shadingDelta_eq {d alpha rot : ℝ} (h : sunFront alpha rot ≠ 0) :
    shadingDelta d alpha rot = d * Real.sin alpha / sunFront alpha rot := by
  have e1 : deg2rad (90 - rot) = Real.pi / 2 - deg2rad rot := by unfold deg2rad; ring
  have e2 : deg2rad (90 - rot + rad2deg alpha) = (alpha - deg2rad rot) + Real.pi / 2 := by
    have : deg2rad (90 - rot + rad2deg alpha) = deg2rad (90 - rot) + deg2rad (rad2deg alpha) := by
      unfold deg2rad; ring
    rw [this, deg2rad_rad2deg, e1]; ring
  simp only [shadingDelta]
  rw [e1, e2, Real.sin_pi_div_two_sub, Real.cos_pi_div_two_sub, Real.tan_eq_sin_div_cos,
    Real.sin_add_pi_div_two, Real.cos_add_pi_div_two, ← sunFront_eq, Real.cos_sub]
  change d * (cosd rot - sind rot * ((Real.cos alpha * cosd rot + Real.sin alpha * sind rot)
    / -sunFront alpha rot)) = d * Real.sin alpha / sunFront alpha rot
  have hcs := cosd_sq_add_sind_sq rot
  rw [eq_div_iff h]
  have e3 : (Real.cos alpha * cosd rot + Real.sin alpha * sind rot) / -sunFront alpha rot
      * sunFront alpha rot = -(Real.cos alpha * cosd rot + Real.sin alpha * sind rot) := by
    rw [div_neg, neg_mul, div_mul_cancel₀ _ h]
  have e4 : sunFront alpha rot = cosd rot * Real.sin alpha - sind rot * Real.cos alpha := rfl
  calc d * (cosd rot - sind rot * ((Real.cos alpha * cosd rot + Real.sin alpha * sind rot)
        / -sunFront alpha rot)) * sunFront alpha rot
      = d * (cosd rot * sunFront alpha rot - sind rot *
        ((Real.cos alpha * cosd rot + Real.sin alpha * sind rot) / -sunFront alpha rot
          * sunFront alpha rot)) := by ring
    _ = d * Real.sin alpha := by
      rw [e3, e4]; linear_combination d * Real.sin alpha * hcs

theorem norm_pos_of_ne {s : Pt} (h : s.x ≠ 0 ∨ s.y ≠ 0) : 0 < ‖(⟨s.x, s.y⟩ : ℂ)‖ := by
  rw [norm_pos_iff]
  intro h0
  have h1 := congrArg Complex.re h0
  have h2 := congrArg Complex.im h0
  simp at h1 h2
  tauto

/-- The angle of the sun: cosine and sine. -/
theorem sun_cos_sin {s : Pt} (h : s.x ≠ 0 ∨ s.y ≠ 0) :
    ∃ m : ℝ, 0 < m ∧ s.x = m * Real.cos (arctan2 s.y s.x) ∧ s.y = m * Real.sin (arctan2 s.y s.x) := by
  have hp := norm_pos_of_ne h
  have hne : (⟨s.x, s.y⟩ : ℂ) ≠ 0 := norm_pos_iff.1 hp
  refine ⟨‖(⟨s.x, s.y⟩ : ℂ)‖, hp, ?_, ?_⟩
  · unfold arctan2
    rw [Complex.cos_arg hne]; field_simp
  · unfold arctan2
    rw [Complex.sin_arg]; field_simp

/-- Ratio of shadow width to row width. -/
noncomputable def kappa (alpha rot : ℝ) : ℝ := sunFront alpha rot / Real.sin alpha

theorem shadowXs_eq (p : ArrayParams) {alpha rot : ℝ} (hs : Real.sin alpha ≠ 0) (i : ℕ)
    (hw : 0 ≤ p.width) :
    let mid := i * p.distance - p.height * (Real.cos alpha / Real.sin alpha)
    shadowXs (fullRowCoords (rowCenter p i) p.width rot) alpha
      = (mid - p.width / 2 * |kappa alpha rot|, mid + p.width / 2 * |kappa alpha rot|) := by
  intro mid
  have e1 : (fullRowCoords (rowCenter p i) p.width rot).b1.x
      - ((fullRowCoords (rowCenter p i) p.width rot).b1.y - Y_GROUND) * Real.cos alpha
        / Real.sin alpha = mid - p.width / 2 * kappa alpha rot := by
    rw [fullRowCoords_eq]
    simp only [rowPt, rowCenter, X_ORIGIN, Y_GROUND, mid, kappa, sunFront]
    field_simp; ring
  have e2 : (fullRowCoords (rowCenter p i) p.width rot).b2.x
      - ((fullRowCoords (rowCenter p i) p.width rot).b2.y - Y_GROUND) * Real.cos alpha
        / Real.sin alpha = mid + p.width / 2 * kappa alpha rot := by
    rw [fullRowCoords_eq]
    simp only [rowPt, rowCenter, X_ORIGIN, Y_GROUND, mid, kappa, sunFront]
    field_simp; ring
  simp only [shadowXs, e1, e2]
  rcases le_total 0 (kappa alpha rot) with hk | hk
  · rw [abs_of_nonneg hk, if_pos (by nlinarith), if_pos (by nlinarith)]
  · rw [abs_of_nonpos hk]
    split_ifs with h
    · have : p.width * kappa alpha rot = 0 := by nlinarith
      ext <;> simp only <;> linarith
    · ext <;> simp only <;> linarith

theorem shadingDelta_kappa {d alpha rot : ℝ} (hs : Real.sin alpha ≠ 0)
    (h : sunFront alpha rot ≠ 0) : shadingDelta d alpha rot = d / kappa alpha rot := by
  rw [shadingDelta_eq h]; unfold kappa; field_simp

theorem kappa_ne {alpha rot : ℝ} (hs : Real.sin alpha ≠ 0)
    (h : sunFront alpha rot ≠ 0) : kappa alpha rot ≠ 0 := div_ne_zero h hs

/-- Closed form of the inter-row shading. -/
theorem interrowShading_eq {p : ArrayParams} {alpha rot : ℝ} (hs : Real.sin alpha ≠ 0)
    (h : sunFront alpha rot ≠ 0) (hd : 0 < p.distance) (hw : 0 < p.width) (hn : 1 < p.nRows) :
    interrowShading p alpha rot
      = (if 0 < kappa alpha rot then max 0 (p.width - p.distance / kappa alpha rot) else 0,
         if kappa alpha rot < 0 then max 0 (p.width + p.distance / kappa alpha rot) else 0) := by
  have hk := kappa_ne hs h
  simp only [interrowShading, gt_iff_lt, hn, if_true, shadingDelta_kappa hs h]
  rcases lt_or_gt_of_ne hk with hk | hk
  · have hq : p.distance / kappa alpha rot < 0 := div_neg_of_pos_of_neg hd hk
    rw [if_pos (by rw [max_eq_right (by linarith)]; linarith), if_neg hk.not_gt, if_pos hk,
      if_neg (by rw [not_lt]; exact max_le hw.le (by linarith))]
  · have hq : 0 < p.distance / kappa alpha rot := div_pos hd hk
    rw [if_pos (c := 0 < kappa alpha rot) hk, if_neg (c := kappa alpha rot < 0) hk.not_gt,
      if_pos (c := p.width < max 0 (p.width + p.distance / kappa alpha rot))
        (by rw [max_eq_right (by linarith)]; linarith),
      if_neg (by rw [not_lt]; exact max_le hw.le (by linarith))]

/-- Rows shade each other exactly if neighbouring shadows overlap. -/
theorem shading_iff_overlap {p : ArrayParams} {alpha rot : ℝ} (hs : Real.sin alpha ≠ 0)
    (h : sunFront alpha rot ≠ 0) (hd : 0 < p.distance) (hw : 0 < p.width) (hn : 1 < p.nRows) :
    (0 < (interrowShading p alpha rot).1 ∨ 0 < (interrowShading p alpha rot).2)
      ↔ p.distance < p.width * |kappa alpha rot| := by
  have hk := kappa_ne hs h
  rw [interrowShading_eq hs h hd hw hn]
  rcases lt_or_gt_of_ne hk with hk | hk
  · simp only [hk, hk.not_gt, if_true, if_false, lt_irrefl, false_or, lt_max_iff]
    rw [abs_of_neg hk]
    constructor
    · intro h1
      have h2 : -(p.distance / kappa alpha rot) < p.width := by linarith
      rw [← div_neg, div_lt_iff₀ (by linarith)] at h2
      exact h2
    · intro h1
      rw [← div_lt_iff₀ (by linarith), div_neg] at h1
      linarith
  · simp only [hk, hk.not_gt, if_true, if_false, lt_irrefl, or_false, false_or, lt_max_iff]
    rw [abs_of_pos hk]
    constructor
    · intro h1
      have h2 : p.distance / kappa alpha rot < p.width := by linarith
      rw [div_lt_iff₀ hk] at h2
      exact h2
    · intro h1
      rw [← div_lt_iff₀ hk] at h1
      linarith

end PVF
