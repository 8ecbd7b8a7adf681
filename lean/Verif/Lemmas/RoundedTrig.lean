import Verif.Spec.RoundedTrig
import Verif.Lemmas.Rounded
import Mathlib.Analysis.SpecialFunctions.Trigonometric.ArctanDeriv
import Mathlib.Analysis.SpecialFunctions.Trigonometric.DerivHyp
import Mathlib.Analysis.Real.Pi.Bounds

/-!
# Errors of computed angles and of their trigonometric functions
-/

namespace PVF

theorem sin_lip (x y : ℝ) : |Real.sin x - Real.sin y| ≤ |x - y| := by
  have h := Real.sin_sub_sin x y
  rw [h, abs_mul, abs_mul, abs_two]
  have h1 : |Real.sin ((x - y) / 2)| ≤ |(x - y) / 2| := Real.abs_sin_le_abs
  have h2 := Real.abs_cos_le_one ((x + y) / 2)
  have h3 := abs_nonneg (Real.sin ((x - y) / 2))
  rw [abs_div, abs_two] at h1
  nlinarith [abs_nonneg (Real.cos ((x + y) / 2))]

theorem cos_lip (x y : ℝ) : |Real.cos x - Real.cos y| ≤ |x - y| := by
  have := sin_lip (Real.pi / 2 - x) (Real.pi / 2 - y)
  rw [Real.sin_pi_div_two_sub, Real.sin_pi_div_two_sub] at this
  refine this.trans (le_of_eq ?_)
  rw [← abs_neg]; congr 1; ring

theorem arctan_lip (x y : ℝ) : |Real.arctan x - Real.arctan y| ≤ |x - y| := by
  have h := (convex_univ (𝕜 := ℝ) (E := ℝ)).norm_image_sub_le_of_norm_deriv_le
    (f := Real.arctan) (C := 1) (x := y) (y := x)
    (fun z _ => (Real.hasDerivAt_arctan z).differentiableAt) (fun z _ => by
      rw [Real.deriv_arctan, Real.norm_eq_abs, abs_of_nonneg (by positivity), div_le_one (by positivity)]
      nlinarith [sq_nonneg z]) (Set.mem_univ _) (Set.mem_univ _)
  simpa using h

/-- Angle of a point above the x-axis. -/
theorem arctan2_eq {y x : ℝ} (hy : 0 < y) :
    arctan2 y x = Real.pi / 2 - Real.arctan (x / y) := by
  have r := arctan2_range (x := x) hy
  have l := Real.neg_pi_div_two_lt_arctan (x / y)
  have u := Real.arctan_lt_pi_div_two (x / y)
  refine Real.injOn_cos ⟨r.1.le, r.2.le⟩ ⟨by linarith, by linarith⟩ ?_
  rw [arctan2_cos hy, Real.cos_pi_div_two_sub, Real.sin_arctan]
  have e : Real.sqrt (y ^ 2 + x ^ 2) = y * Real.sqrt (1 + (x / y) ^ 2) := by
    rw [show y ^ 2 + x ^ 2 = y ^ 2 * (1 + (x / y) ^ 2) by field_simp, Real.sqrt_mul (sq_nonneg y),
      Real.sqrt_sq hy.le]
  rw [e, div_div]

theorem arctan2_lip {y x y' x' : ℝ} (hy : 0 < y) (hy' : 0 < y') :
    |arctan2 y' x' - arctan2 y x| ≤ |x' / y' - x / y| := by
  rw [arctan2_eq hy, arctan2_eq hy', show Real.pi / 2 - Real.arctan (x' / y')
    - (Real.pi / 2 - Real.arctan (x / y)) = Real.arctan (x / y) - Real.arctan (x' / y') by ring]
  refine (arctan_lip _ _).trans (le_of_eq (abs_sub_comm _ _))

/-- The cotangent of an angle that is known up to an error. -/
theorem cot_near {a b K Θ : ℝ} (ha : 1 ≤ K * |Real.sin a|) (hab : |b - a| ≤ Θ) (hΘ : 2 * Θ * K ≤ 1) :
    Real.sin b ≠ 0 ∧ 1 ≤ 2 * K * |Real.sin b| ∧
    |Real.cos b / Real.sin b - Real.cos a / Real.sin a| ≤ 2 * Θ * K ^ 2 := by
  have hs0 := abs_nonneg (Real.sin a)
  have hK : 0 < K := by
    by_contra h
    nlinarith
  have hΘ0 : 0 ≤ Θ := (abs_nonneg _).trans hab
  have hl : |Real.sin b - Real.sin a| ≤ Θ := (sin_lip b a).trans hab
  have hb : 1 ≤ 2 * K * |Real.sin b| := by
    have : |Real.sin a| - Θ ≤ |Real.sin b| := by
      have := abs_sub_abs_le_abs_sub (Real.sin a) (Real.sin b)
      rw [abs_sub_comm] at this
      linarith
    nlinarith
  have sa : Real.sin a ≠ 0 := fun h => by rw [h, abs_zero, mul_zero] at ha; linarith
  have sb : Real.sin b ≠ 0 := fun h => by rw [h, abs_zero, mul_zero] at hb; linarith
  refine ⟨sb, hb, ?_⟩
  have e : Real.cos b / Real.sin b - Real.cos a / Real.sin a
      = Real.sin (a - b) / (Real.sin a * Real.sin b) := by
    rw [Real.sin_sub]; field_simp
  have hd : |Real.sin (a - b)| ≤ Θ := by
    refine Real.abs_sin_le_abs.trans ?_
    rw [abs_sub_comm]; exact hab
  rw [e, abs_div, abs_mul, div_le_iff₀ (mul_pos (abs_pos.2 sa) (abs_pos.2 sb))]
  have h1 : 1 ≤ (K * |Real.sin a|) * (2 * K * |Real.sin b|) := by nlinarith
  calc |Real.sin (a - b)| ≤ Θ := hd
    _ ≤ Θ * ((K * |Real.sin a|) * (2 * K * |Real.sin b|)) := le_mul_of_one_le_right hΘ0 h1
    _ = _ := by ring

/-- The cotangent, computed as reciprocal of a computed tangent. -/
theorem inv_tan_near {ε T b K : ℝ} (h0 : 0 ≤ ε) (h1 : ε ≤ 1 / 8) (hc : Real.cos b ≠ 0)
    (hs : Real.sin b ≠ 0) (hb : 1 ≤ 2 * K * |Real.sin b|)
    (hT : |T - Real.tan b| ≤ ε * |Real.tan b|) :
    T ≠ 0 ∧ |1 / T - Real.cos b / Real.sin b| ≤ 3 * ε * K := by
  have ht : Real.tan b ≠ 0 := by
    rw [Real.tan_eq_sin_div_cos]; exact div_ne_zero hs hc
  have htp := abs_pos.2 ht
  have hT' : 7 / 8 * |Real.tan b| ≤ |T| := by
    have := abs_sub_abs_le_abs_sub (Real.tan b) T
    rw [abs_sub_comm] at this
    nlinarith
  have hT0 : T ≠ 0 := by intro h; rw [h, abs_zero] at hT'; linarith
  refine ⟨hT0, ?_⟩
  have e : 1 / T - Real.cos b / Real.sin b = -((T - Real.tan b) / (T * Real.tan b)) := by
    have : Real.cos b / Real.sin b = 1 / Real.tan b := by
      rw [Real.tan_eq_sin_div_cos, one_div_div]
    rw [this]
    field_simp
    ring
  rw [e, abs_neg, abs_div, abs_mul, div_le_iff₀ (mul_pos (abs_pos.2 hT0) htp)]
  refine hT.trans ?_
  have hK : 1 ≤ 2 * K * |Real.tan b| := by
    refine hb.trans ?_
    have hK0 : 0 ≤ 2 * K := by
      by_contra h
      have := abs_nonneg (Real.sin b)
      nlinarith
    refine mul_le_mul_of_nonneg_left ?_ hK0
    rw [Real.tan_eq_sin_div_cos, abs_div]
    exact le_div_self (abs_nonneg _) (abs_pos.2 hc) (Real.abs_cos_le_one b)
  have hK0 : 0 < K := by
    by_contra h
    nlinarith
  have h2 : 1 ≤ 3 * K * |T| := by nlinarith
  calc ε * |Real.tan b| ≤ ε * |Real.tan b| * (3 * K * |T|) :=
        le_mul_of_one_le_right (by positivity) h2
    _ = _ := by ring

/-- The tangent of an angle that is known up to an error. -/
theorem tan_near {ε T a b K Θ : ℝ} (h0 : 0 ≤ ε) (ha : 1 ≤ K * |Real.cos a|) (hab : |b - a| ≤ Θ)
    (hΘ : 2 * Θ * K ≤ 1) (hT : |T - Real.tan b| ≤ ε * |Real.tan b|) :
    |T - Real.tan a| ≤ 2 * Θ * K ^ 2 + 2 * ε * K := by
  have hc := cot_near (a := Real.pi / 2 - a) (b := Real.pi / 2 - b) (K := K) (Θ := Θ)
    (by rwa [Real.sin_pi_div_two_sub])
    (by rw [show Real.pi / 2 - b - (Real.pi / 2 - a) = -(b - a) by ring, abs_neg]; exact hab) hΘ
  simp only [Real.sin_pi_div_two_sub, Real.cos_pi_div_two_sub] at hc
  obtain ⟨cb, hb, hd⟩ := hc
  rw [← Real.tan_eq_sin_div_cos, ← Real.tan_eq_sin_div_cos] at hd
  have hK0 : 0 < 2 * K := by
    by_contra h
    have := abs_nonneg (Real.cos b)
    nlinarith
  have htb : |Real.tan b| ≤ 2 * K := by
    rw [Real.tan_eq_sin_div_cos, abs_div, div_le_iff₀ (abs_pos.2 cb)]
    exact (Real.abs_sin_le_one b).trans hb
  have e : T - Real.tan a = (T - Real.tan b) + (Real.tan b - Real.tan a) := by ring
  rw [e]
  refine (abs_add_le _ _).trans ?_
  have := mul_le_mul_of_nonneg_left htb h0
  linarith

theorem pi_small : Real.pi / 180 ≤ 7 / 400 := by
  have := Real.pi_lt_d2
  linarith

theorem abs_deg2rad (x : ℝ) : |deg2rad x| = |x| * (Real.pi / 180) := by
  unfold deg2rad
  rw [mul_div_assoc, abs_mul, abs_of_pos (by positivity : (0 : ℝ) < Real.pi / 180)]

namespace TrigArith
variable {ε : ℝ} (A : TrigArith ε)

/-- Conversion of an angle with an error to radians. -/
theorem deg2rad_near (h0 : 0 ≤ ε) {x x' d X : ℝ} (hd : |x' - x| ≤ d) (hX : |x'| ≤ X) :
    |A.deg2rad x' - PVF.deg2rad x| ≤ (ε * X + d) * (7 / 400) := by
  have e : A.deg2rad x' - PVF.deg2rad x = (A.deg2rad x' - PVF.deg2rad x') + PVF.deg2rad (x' - x) := by
    unfold PVF.deg2rad; ring
  rw [e]
  refine (abs_add_le _ _).trans ?_
  have h1 := A.deg2rad_err x'
  rw [abs_deg2rad] at h1 ⊢
  have h2 := pi_small
  have h3 : 0 < Real.pi / 180 := by positivity
  have hd0 := (abs_nonneg _).trans hd
  have hX0 := (abs_nonneg _).trans hX
  have m1 : |x'| * (Real.pi / 180) ≤ X * (7 / 400) := mul_le_mul hX h2 h3.le hX0
  have m2 : |x' - x| * (Real.pi / 180) ≤ d * (7 / 400) := mul_le_mul hd h2 h3.le hd0
  have m3 := mul_le_mul_of_nonneg_left m1 h0
  linarith

theorem sin_near (h0 : 0 ≤ ε) {a a' Q : ℝ} (h : |a' - a| ≤ ε * Q) :
    |A.sin a' - Real.sin a| ≤ ε * (1 + Q) := by
  have e : A.sin a' - Real.sin a = (A.sin a' - Real.sin a') + (Real.sin a' - Real.sin a) := by ring
  rw [e]
  refine (abs_add_le _ _).trans ?_
  have h1 := A.sin_err a'
  have h2 := mul_le_mul_of_nonneg_left (Real.abs_sin_le_one a') h0
  have h3 := sin_lip a' a
  linarith

theorem cos_near (h0 : 0 ≤ ε) {a a' Q : ℝ} (h : |a' - a| ≤ ε * Q) :
    |A.cos a' - Real.cos a| ≤ ε * (1 + Q) := by
  have e : A.cos a' - Real.cos a = (A.cos a' - Real.cos a') + (Real.cos a' - Real.cos a) := by ring
  rw [e]
  refine (abs_add_le _ _).trans ?_
  have h1 := A.cos_err a'
  have h2 := mul_le_mul_of_nonneg_left (Real.abs_cos_le_one a') h0
  have h3 := cos_lip a' a
  linarith

/-- Sines and cosines of given angles in degrees with an error of at most `d * ε`. -/
theorem sincosd_near (h0 : 0 ≤ ε) {x x' d X G : ℝ} (hd : |x' - x| ≤ ε * d) (hX : |x'| ≤ X)
    (hQ : (X + d) * (7 / 400) ≤ 13 + G / 16) :
    |A.deg2rad x' - PVF.deg2rad x| ≤ ε * (13 + G / 16) ∧
    |A.sin (A.deg2rad x') - PVF.sind x| ≤ sineErr ε G ∧
    |A.cos (A.deg2rad x') - PVF.cosd x| ≤ sineErr ε G := by
  have h := A.deg2rad_near h0 hd hX
  have h' : |A.deg2rad x' - PVF.deg2rad x| ≤ ε * (13 + G / 16) := by
    refine h.trans ?_
    have := mul_le_mul_of_nonneg_left hQ h0
    linarith
  refine ⟨h', (A.sin_near h0 h').trans (le_of_eq ?_), (A.cos_near h0 h').trans (le_of_eq ?_)⟩ <;>
  · unfold sineErr; ring

end TrigArith

end PVF
