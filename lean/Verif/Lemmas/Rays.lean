import Verif.Lemmas.Shading
import Verif.Spec.Sun

/-! # Rays to the sun -/

namespace PVF

theorem frontDotSun_eq {sun : Pt} (h : sun.x ≠ 0 ∨ sun.y ≠ 0) (rot : ℝ) :
    ∃ m : ℝ, 0 < m ∧ sun.y = m * Real.sin (arctan2 sun.y sun.x) ∧
      sun.x = m * Real.cos (arctan2 sun.y sun.x) ∧
      frontDotSun rot sun = m * sunFront (arctan2 sun.y sun.x) rot := by
  obtain ⟨m, hm, h1, h2⟩ := sun_cos_sin h
  refine ⟨m, hm, h2, h1, ?_⟩
  unfold frontDotSun sunFront
  calc cosd rot * sun.y - sind rot * sun.x
      = cosd rot * (m * Real.sin (arctan2 sun.y sun.x))
        - sind rot * (m * Real.cos (arctan2 sun.y sun.x)) := by rw [← h1, ← h2]
    _ = _ := by ring

theorem kappa_eq {sun : Pt} (h : sun.y ≠ 0) (rot : ℝ) :
    kappa (arctan2 sun.y sun.x) rot = frontDotSun rot sun / sun.y := by
  obtain ⟨m, hm, h1, h2, h3⟩ := frontDotSun_eq (Or.inr h) rot
  have hs : Real.sin (arctan2 sun.y sun.x) ≠ 0 := by
    intro h0; rw [h0, mul_zero] at h1; exact h h1
  unfold kappa
  rw [h3, div_eq_div_iff hs h]
  linear_combination sunFront (arctan2 sun.y sun.x) rot * h1

theorem sin_alpha_ne {sun : Pt} (h : sun.y ≠ 0) : Real.sin (arctan2 sun.y sun.x) ≠ 0 := by
  obtain ⟨m, hm, h1, h2, h3⟩ := frontDotSun_eq (Or.inr h) 0
  intro h0; rw [h0, mul_zero] at h1; exact h h1

theorem cot_alpha {sun : Pt} (h : sun.y ≠ 0) :
    Real.cos (arctan2 sun.y sun.x) / Real.sin (arctan2 sun.y sun.x) = sun.x / sun.y := by
  obtain ⟨m, hm, h1, h2, h3⟩ := frontDotSun_eq (Or.inr h) 0
  rw [div_eq_div_iff (sin_alpha_ne h) h]
  linear_combination Real.cos (arctan2 sun.y sun.x) * h1 - Real.sin (arctan2 sun.y sun.x) * h2

theorem sunFront_ne {sun : Pt} {rot : ℝ} (hF : frontDotSun rot sun ≠ 0) :
    sunFront (arctan2 sun.y sun.x) rot ≠ 0 := by
  have h : sun.x ≠ 0 ∨ sun.y ≠ 0 := by
    by_contra h
    push Not at h
    exact hF (by simp [frontDotSun, h.1, h.2])
  obtain ⟨m, hm, h1, h2, h3⟩ := frontDotSun_eq h rot
  intro h0; rw [h0, mul_zero] at h3; exact hF h3

/-- Points of a row, by parameter. -/
theorem lerp_full {c : Pt} {w rot t : ℝ} :
    lerp (fullRowCoords c w rot).b1 (fullRowCoords c w rot).b2 t
      = rowPt c rot (-(w / 2) + t * w) := by
  rw [fullRowCoords_eq]
  simp only [lerp, rowPt]
  congr 1 <;> ring

theorem onSeg_full {c P : Pt} {w rot : ℝ} (hw : 0 < w) :
    OnSeg P (fullRowCoords c w rot) ↔ ∃ ρ, -(w / 2) ≤ ρ ∧ ρ ≤ w / 2 ∧ P = rowPt c rot ρ := by
  constructor
  · rintro ⟨t, h0, h1, rfl⟩
    refine ⟨-(w / 2) + t * w, by nlinarith, by nlinarith, lerp_full⟩
  · rintro ⟨ρ, h0, h1, rfl⟩
    refine ⟨(ρ + w / 2) / w, ?_, ?_, ?_⟩
    · apply div_nonneg <;> linarith
    · rw [div_le_one hw]; linarith
    · rw [lerp_full]; congr 1; field_simp; ring

theorem openSeg_full {c P : Pt} {w rot : ℝ} (hw : 0 < w) :
    (∃ t : ℝ, 0 < t ∧ t < 1 ∧ P = lerp (fullRowCoords c w rot).b1 (fullRowCoords c w rot).b2 t)
      ↔ ∃ ρ, -(w / 2) < ρ ∧ ρ < w / 2 ∧ P = rowPt c rot ρ := by
  constructor
  · rintro ⟨t, h0, h1, rfl⟩
    refine ⟨-(w / 2) + t * w, by nlinarith, by nlinarith, lerp_full⟩
  · rintro ⟨ρ, h0, h1, rfl⟩
    refine ⟨(ρ + w / 2) / w, ?_, ?_, ?_⟩
    · apply div_pos <;> linarith
    · rw [div_lt_one hw]; linarith
    · rw [lerp_full]; congr 1; field_simp; ring

/-- The ray equation between two rows. -/
theorem ray_rows {p : ArrayParams} {rot : ℝ} {sun : Pt} {i j : ℕ} {ρ ρ' lam : ℝ}
    (hF : frontDotSun rot sun ≠ 0) :
    (⟨(rowPt (rowCenter p i) rot ρ).x + lam * sun.x, (rowPt (rowCenter p i) rot ρ).y + lam * sun.y⟩
      : Pt) = rowPt (rowCenter p j) rot ρ' ↔
    lam = -((j : ℝ) - i) * p.distance * sind rot / frontDotSun rot sun ∧
    ρ' = ρ - ((j : ℝ) - i) * (p.distance * sun.y / frontDotSun rot sun) := by
  have hcs := cosd_sq_add_sind_sq rot
  simp only [rowPt, rowCenter, Pt.mk.injEq]
  constructor
  · rintro ⟨h1, h2⟩
    constructor
    · rw [eq_div_iff hF]
      unfold frontDotSun
      linear_combination (-sind rot) * h1 + cosd rot * h2
    · have : (ρ - ρ') * frontDotSun rot sun = ((j : ℝ) - i) * (p.distance * sun.y) := by
        unfold frontDotSun
        linear_combination sun.y * h1 - sun.x * h2
      field_simp
      linarith
  · rintro ⟨rfl, rfl⟩
    constructor
    · field_simp
      unfold frontDotSun
      ring
    · field_simp
      ring

/-- The ray from a ground point meets a row exactly inside the row's shadow. -/
theorem ground_ray {p : ArrayParams} {rot : ℝ} {sun : Pt} {i : ℕ} (x : ℝ) (hw : 0 < p.width)
    (hsun : 0 < sun.y) (habove : p.width / 2 * |sind rot| < p.height) :
    SunRayHits sun ⟨x, Y_GROUND⟩ (fullRowCoords (rowCenter p i) p.width rot) ↔
      (shadowXs (fullRowCoords (rowCenter p i) p.width rot) (arctan2 sun.y sun.x)).1 ≤ x ∧
      x ≤ (shadowXs (fullRowCoords (rowCenter p i) p.width rot) (arctan2 sun.y sun.x)).2 := by
  rw [shadowXs_eq p (sin_alpha_ne hsun.ne') i hw.le, cot_alpha hsun.ne', kappa_eq hsun.ne']
  set mid := (i : ℝ) * p.distance - p.height * (sun.x / sun.y) with hmid
  set κ := frontDotSun rot sun / sun.y with hκ
  have hκ' : κ = cosd rot - sind rot * (sun.x / sun.y) := by
    rw [hκ]; unfold frontDotSun; field_simp
  have step : SunRayHits sun ⟨x, Y_GROUND⟩ (fullRowCoords (rowCenter p i) p.width rot) ↔
      ∃ ρ, -(p.width / 2) ≤ ρ ∧ ρ ≤ p.width / 2 ∧ x = mid + ρ * κ := by
    unfold SunRayHits
    simp only [onSeg_full hw]
    constructor
    · rintro ⟨lam, hl, ρ, h0, h1, h⟩
      refine ⟨ρ, h0, h1, ?_⟩
      simp only [rowPt, rowCenter, X_ORIGIN, Y_GROUND, Pt.mk.injEq] at h
      obtain ⟨hx, hy⟩ := h
      have hlam : lam = (ρ * sind rot + p.height) / sun.y := by
        rw [eq_div_iff hsun.ne']; linarith
      rw [hκ', hmid]
      rw [hlam] at hx
      field_simp at hx ⊢
      linarith
    · rintro ⟨ρ, h0, h1, h⟩
      refine ⟨(ρ * sind rot + p.height) / sun.y, ?_, ρ, h0, h1, ?_⟩
      · apply div_pos _ hsun
        have hρ : |ρ| ≤ p.width / 2 := abs_le.2 ⟨h0, h1⟩
        have : |ρ * sind rot| ≤ p.width / 2 * |sind rot| := by
          rw [abs_mul]; exact mul_le_mul_of_nonneg_right hρ (abs_nonneg _)
        have := neg_abs_le (ρ * sind rot)
        linarith
      · simp only [rowPt, rowCenter, X_ORIGIN, Y_GROUND, Pt.mk.injEq]
        constructor
        · rw [h, hκ', hmid]; field_simp; ring
        · field_simp; ring
  rw [step]
  simp only
  constructor
  · rintro ⟨ρ, h0, h1, rfl⟩
    have hρ : |ρ| ≤ p.width / 2 := abs_le.2 ⟨h0, h1⟩
    have : |ρ * κ| ≤ p.width / 2 * |κ| := by
      rw [abs_mul]; exact mul_le_mul_of_nonneg_right hρ (abs_nonneg _)
    have := abs_le.1 this
    constructor <;> linarith [this.1, this.2]
  · rintro ⟨h0, h1⟩
    rcases eq_or_ne κ 0 with hk | hk
    · refine ⟨0, by linarith, by linarith, ?_⟩
      rw [hk] at h0 h1 ⊢
      simp at h0 h1 ⊢
      linarith
    · refine ⟨(x - mid) / κ, ?_, ?_, by field_simp; ring⟩
      · have : |(x - mid) / κ| ≤ p.width / 2 := by
          rw [abs_div, div_le_iff₀ (abs_pos.2 hk), abs_le]
          constructor <;> linarith
        exact (abs_le.1 this).1
      · have : |(x - mid) / κ| ≤ p.width / 2 := by
          rw [abs_div, div_le_iff₀ (abs_pos.2 hk), abs_le]
          constructor <;> linarith
        exact (abs_le.1 this).2

end PVF
