import Verif.Model.PVArray
import Mathlib.Tactic.NormNum
import Mathlib.Tactic.Linarith
import Mathlib.Tactic.FieldSimp
import Mathlib.Tactic.Positivity

/-! # Trigonometry in degrees -/

namespace PVF

theorem cosd_zero : cosd 0 = 1 := by simp [cosd, deg2rad]
theorem sind_zero : sind 0 = 0 := by simp [sind, deg2rad]
theorem cosd_add_180 (x : ℝ) : cosd (x + 180) = - cosd x := by
  have : deg2rad (x + 180) = deg2rad x + Real.pi := by unfold deg2rad; field_simp
  simp [cosd, this, Real.cos_add_pi]
theorem sind_add_180 (x : ℝ) : sind (x + 180) = - sind x := by
  have : deg2rad (x + 180) = deg2rad x + Real.pi := by unfold deg2rad; field_simp
  simp [sind, this, Real.sin_add_pi]
theorem cosd_neg (x : ℝ) : cosd (-x) = cosd x := by
  have : deg2rad (-x) = - deg2rad x := by unfold deg2rad; ring
  simp [cosd, this]
theorem sind_neg (x : ℝ) : sind (-x) = - sind x := by
  have : deg2rad (-x) = - deg2rad x := by unfold deg2rad; ring
  simp [sind, this]
theorem cosd_sq_add_sind_sq (x : ℝ) : cosd x ^ 2 + sind x ^ 2 = 1 := by
  simp [cosd, sind]

theorem sind_30 : sind 30 = 1 / 2 := by
  have : deg2rad 30 = Real.pi / 6 := by unfold deg2rad; ring
  simp [sind, this]

theorem cosd_30 : cosd 30 = Real.sqrt 3 / 2 := by
  have : deg2rad 30 = Real.pi / 6 := by unfold deg2rad; ring
  simp [cosd, this]

theorem deg2rad_pos {x : ℝ} (h : 0 < x) : 0 < deg2rad x := by unfold deg2rad; positivity

theorem deg2rad_lt_pi {x : ℝ} (h : x < 180) : deg2rad x < Real.pi := by
  unfold deg2rad
  rw [div_lt_iff₀ (by norm_num)]
  have := Real.pi_pos
  nlinarith

theorem sind_pos {x : ℝ} (h0 : 0 < x) (h1 : x < 180) : 0 < sind x :=
  Real.sin_pos_of_pos_of_lt_pi (deg2rad_pos h0) (deg2rad_lt_pi h1)

theorem sind_neg_of_neg {x : ℝ} (h0 : x < 0) (h1 : -180 < x) : sind x < 0 := by
  have := sind_pos (x := -x) (by linarith) (by linarith)
  rw [sind_neg] at this
  linarith

theorem sind_180 : sind 180 = 0 := by
  have : deg2rad 180 = Real.pi := by unfold deg2rad; ring
  simp [sind, this]

theorem cosd_180 : cosd 180 = -1 := by
  have : deg2rad 180 = Real.pi := by unfold deg2rad; ring
  simp [cosd, this]

theorem sind_90 : sind 90 = 1 := by
  have : deg2rad 90 = Real.pi / 2 := by unfold deg2rad; ring
  simp [sind, this]

theorem cosd_90 : cosd 90 = 0 := by
  have : deg2rad 90 = Real.pi / 2 := by unfold deg2rad; ring
  simp [cosd, this]

end PVF
