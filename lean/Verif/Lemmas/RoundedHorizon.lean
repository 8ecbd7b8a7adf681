import Verif.Lemmas.RoundedSun

/-!
# Errors of the light of the horizon band
-/

namespace PVF

theorem quot_near {x' x y' y a b m X : ℝ} (ha : |x' - x| ≤ a) (hb : |y' - y| ≤ b) (hm : 0 < m)
    (hy : m ≤ |y|) (hbm : 2 * b ≤ m) (hX : |x| ≤ X) :
    |x' / y' - x / y| ≤ 2 * (a / m) + 2 * (b / m) * (X / m) := by
  have a0 := (abs_nonneg _).trans ha
  have b0 := (abs_nonneg _).trans hb
  have X0 := (abs_nonneg _).trans hX
  have hy' : m / 2 ≤ |y'| := by
    have := abs_sub_abs_le_abs_sub y y'
    rw [abs_sub_comm] at this
    linarith
  have y0 : y ≠ 0 := abs_pos.1 (by linarith)
  have y0' : y' ≠ 0 := abs_pos.1 (by linarith)
  have e : x' / y' - x / y = (x' - x) * (1 / y') + x * (y - y') * (1 / y') * (1 / y) := by
    field_simp
    ring
  have i1 : |1 / y'| ≤ 2 / m := by
    rw [abs_div, abs_one, div_le_div_iff₀ (by linarith) hm]
    linarith
  have i2 : |1 / y| ≤ 1 / m := by
    rw [abs_div, abs_one]
    exact one_div_le_one_div_of_le hm hy
  rw [e]
  refine (abs_add_le _ _).trans ?_
  have k1 : |(x' - x) * (1 / y')| ≤ a * (2 / m) := by
    rw [abs_mul]
    exact mul_le_mul ha i1 (abs_nonneg _) a0
  have k2 : |x * (y - y') * (1 / y') * (1 / y)| ≤ X * b * (2 / m) * (1 / m) := by
    rw [abs_mul, abs_mul, abs_mul]
    rw [abs_sub_comm] at hb
    exact mul_le_mul (mul_le_mul (mul_le_mul hX hb (abs_nonneg _) X0) i1 (abs_nonneg _) (by positivity))
      i2 (abs_nonneg _) (by positivity)
  refine (add_le_add k1 k2).trans (le_of_eq ?_)
  ring

theorem band_eq {b : ℝ} (hb : 0 < b) (x : ℝ) :
    horizonBandShading x b = 100 * (min (max x 0) b / b) := by
  unfold horizonBandShading
  simp only
  rcases le_or_gt b x with h | h
  · rw [if_neg (by simp; intro; exact h), if_pos h, max_eq_left (by linarith), min_eq_right h]
    field_simp
  · rcases le_or_gt 0 x with h0 | h0
    · rw [if_pos ⟨h0, h⟩, max_eq_left h0, min_eq_left h.le]; ring
    · rw [if_neg (by simp [not_le.2 h0]), if_neg (by simp [h]), max_eq_right h0.le,
        min_eq_left hb.le]; simp

theorem band_lip {b : ℝ} (hb : 0 < b) (x y : ℝ) :
    |horizonBandShading x b - horizonBandShading y b| ≤ 100 * (|x - y| / b) := by
  rw [band_eq hb, band_eq hb, ← mul_sub, ← sub_div, abs_mul, abs_div, abs_of_pos hb,
    abs_of_pos (by norm_num : (0 : ℝ) < 100)]
  refine mul_le_mul_of_nonneg_left (div_le_div_of_nonneg_right ?_ hb.le) (by norm_num)
  exact (abs_min_sub_min_le_max _ _ _ _).trans (max_le
    ((abs_max_sub_max_le_abs _ _ _)) (by simp))

namespace LightArith
variable {ε : ℝ} (h0 : 0 ≤ ε) (hε : ε ≤ 1 / 280) (A : LightArith ε)
include h0 hε

/-- The angle of the edge of another row above the horizon. -/
theorem angle_near {row row' : Line} {pt pt' : Pt} {δ m w : ℝ}
    (hx : |row'.highest.x - row.highest.x| ≤ δ) (hy : |row'.highest.y - row.highest.y| ≤ δ)
    (px : |pt'.x - pt.x| ≤ δ) (py : |pt'.y - pt.y| ≤ δ) (hm : 0 < m) (hδ : 4 * δ ≤ m)
    (far : m ≤ |row.highest.x - pt.x|) (hw : |row.highest.y - pt.y| ≤ w) :
    |A.shadingAngleTo row' pt' - PVF.shadingAngleTo row pt|
      ≤ 240 * (1 + w / m) * (δ / m + 4 * ε) := by
  have δ0 := (abs_nonneg _).trans hx
  have w0 := (abs_nonneg _).trans hw
  unfold shadingAngleTo PVF.shadingAngleTo
  set ny := row'.highest.y - pt'.y with hny
  set nx := row'.highest.x - pt'.x with hnx
  set dy := row.highest.y - pt.y with hdy
  set dx := row.highest.x - pt.x with hdx
  have e1 : |ny - dy| ≤ 2 * δ := by
    rw [show ny - dy = (row'.highest.y - row.highest.y) - (pt'.y - pt.y) by rw [hny, hdy]; ring]
    exact (abs_sub _ _).trans (by linarith)
  have e2 : |nx - dx| ≤ 2 * δ := by
    rw [show nx - dx = (row'.highest.x - row.highest.x) - (pt'.x - pt.x) by rw [hnx, hdx]; ring]
    exact (abs_sub _ _).trans (by linarith)
  have q1 := quot_near e1 e2 hm far (by linarith) hw
  set Q := 1 + w / m with hQ
  set D := δ / m with hD
  have D0 : 0 ≤ D := by positivity
  have D1 : D ≤ 1 / 4 := by
    rw [hD, div_le_iff₀ hm]
    linarith
  have wm : 0 ≤ w / m := by positivity
  have Q1 : 1 ≤ Q := by linarith
  have q2 : |ny / nx - dy / dx| ≤ 4 * (Q * D) := by
    refine q1.trans (le_of_eq ?_)
    rw [hQ, hD]
    ring
  have DQ : Q * D ≤ Q * (1 / 4) := mul_le_mul_of_nonneg_left D1 (by linarith)
  have q3 : |dy / dx| ≤ w / m := by
    rw [abs_div]
    exact div_le_div₀ w0 hw hm far
  have q4 : |ny / nx| ≤ 2 * Q := by
    have := abs_sub_abs_le_abs_sub (ny / nx) (dy / dx)
    linarith
  have nx0 : 0 < |nx| := by
    have := abs_sub_abs_le_abs_sub dx nx
    rw [abs_sub_comm dx nx] at this
    linarith
  have q5 := quot_near (A.sub_err row'.highest.y pt'.y) (A.sub_err row'.highest.x pt'.x) nx0 le_rfl
    (by
      have := mul_le_mul_of_nonneg_right hε nx0.le
      linarith) (le_refl |ny|)
  have q6 : 2 * (ε * |ny| / |nx|) + 2 * (ε * |nx| / |nx|) * (|ny| / |nx|) = 4 * ε * |ny / nx| := by
    rw [abs_div]
    field_simp
    ring
  rw [q6] at q5
  set sy := A.sub row'.highest.y pt'.y
  set sx := A.sub row'.highest.x pt'.x
  have εQ : 0 ≤ ε * Q := by positivity
  have q7 : |sy / sx - ny / nx| ≤ 8 * (ε * Q) := by
    refine q5.trans ?_
    have := mul_le_mul_of_nonneg_left q4 h0
    linarith
  have q8 := A.div_err sy sx
  have q9 : |sy / sx| ≤ 3 * Q := by
    have := abs_sub_abs_le_abs_sub (sy / sx) (ny / nx)
    have := mul_le_mul_of_nonneg_right hε (show 0 ≤ Q by linarith)
    linarith
  have q10 := mul_le_mul_of_nonneg_left q9 h0
  set q' := A.div sy sx
  have q11 : |q' - dy / dx| ≤ 4 * (Q * D) + 11 * (ε * Q) := by
    have i1 := abs_sub_le q' (sy / sx) (dy / dx)
    have i2 := abs_sub_le (sy / sx) (ny / nx) (dy / dx)
    linarith
  have t1 := (arctan_lip q' (dy / dx)).trans q11
  have t2 := A.atan_err q'
  have hpi := Real.pi_lt_d2
  have hpi' := Real.pi_gt_d2
  have t3 : |Real.arctan q'| ≤ 8 / 5 := by
    have h1 := Real.arctan_lt_pi_div_two q'
    have h2 := Real.neg_pi_div_two_lt_arctan q'
    rw [abs_le]
    constructor <;> linarith
  have t4 := mul_le_mul_of_nonneg_left t3 h0
  set a' := A.atan q'
  have t5 : |a'| ≤ 161 / 100 := by
    have := abs_sub_abs_le_abs_sub a' (Real.arctan q')
    linarith
  have t6 : |(|a'| - |Real.arctan (dy / dx)|)| ≤ 4 * (Q * D) + 11 * (ε * Q) + 8 / 5 * ε := by
    refine (abs_abs_sub_abs_le _ _).trans ?_
    have := abs_sub_le a' (Real.arctan q') (Real.arctan (dy / dx))
    linarith
  have rd : ∀ z : ℝ, |PVF.rad2deg z| = |z| * (180 / Real.pi) := fun z => by
    unfold PVF.rad2deg
    rw [mul_div_assoc, _root_.abs_mul, abs_of_pos (by positivity : (0 : ℝ) < 180 / Real.pi)]
  have rd60 : 180 / Real.pi ≤ 574 / 10 := by
    rw [div_le_iff₀ Real.pi_pos]; linarith
  have rd0 : 0 ≤ 180 / Real.pi := by positivity
  have r1 := A.rad2deg_err |a'|
  rw [rd, abs_abs] at r1
  have r2 := mul_le_mul_of_nonneg_left (mul_le_mul t5 rd60 rd0 (by norm_num)) h0
  have r3 : |PVF.rad2deg (|a'|) - PVF.rad2deg (|Real.arctan (dy / dx)|)|
      ≤ (4 * (Q * D) + 11 * (ε * Q) + 8 / 5 * ε) * (574 / 10) := by
    have e : PVF.rad2deg |a'| - PVF.rad2deg |Real.arctan (dy / dx)|
        = PVF.rad2deg (|a'| - |Real.arctan (dy / dx)|) := by unfold PVF.rad2deg; ring
    rw [e, rd]
    exact mul_le_mul t6 rd60 rd0 (by positivity)
  have r4 := abs_sub_le (A.rad2deg |a'|) (PVF.rad2deg |a'|) (PVF.rad2deg |Real.arctan (dy / dx)|)
  have r5 : ε * 1 ≤ ε * Q := mul_le_mul_of_nonneg_left Q1 h0
  have r6 : 0 ≤ Q * D := by positivity
  refine r4.trans ?_
  have : 240 * Q * (D + 4 * ε) = 240 * (Q * D) + 960 * (ε * Q) := by ring
  rw [this]
  linarith

/-- The hidden share of the horizon band in percent. -/
theorem band_near {φ' φ d b : ℝ} (hb : 0 < b) (h : |φ' - φ| ≤ d) :
    |A.horizonBandShading φ' b - PVF.horizonBandShading φ b| ≤ 100 * (d / b + 3 * ε) := by
  have l := band_lip hb φ' φ
  have l2 := div_le_div_of_nonneg_right h hb.le
  have k : |A.horizonBandShading φ' b - PVF.horizonBandShading φ' b| ≤ 300 * ε := by
    unfold horizonBandShading PVF.horizonBandShading
    simp only
    by_cases c : φ' ≥ 0 ∧ φ' < b
    · rw [if_pos c, if_pos c]
      have m1 := A.mul_err 100 φ'
      have m2 := A.div_err (A.mul 100 φ') b
      have φ0 : 0 ≤ φ' / b := div_nonneg c.1 hb.le
      have φ1 : φ' / b ≤ 1 := (div_le_one hb).2 c.2.le
      have e1 : |A.mul 100 φ' / b - 100 * φ' / b| ≤ ε * 100 := by
        rw [← sub_div, abs_div, abs_of_pos hb, div_le_iff₀ hb]
        refine m1.trans ?_
        rw [abs_of_nonneg (mul_nonneg (by norm_num) c.1)]
        have := mul_le_mul_of_nonneg_left c.2.le h0
        linarith
      have e0 : |100 * φ' / b| ≤ 100 := by
        rw [mul_div_assoc, abs_of_nonneg (by positivity)]
        linarith
      have e2 : |A.mul 100 φ' / b| ≤ 101 := by
        have := abs_sub_abs_le_abs_sub (A.mul 100 φ' / b) (100 * φ' / b)
        linarith
      have e3 := mul_le_mul_of_nonneg_left e2 h0
      have := abs_sub_le (A.div (A.mul 100 φ') b) (A.mul 100 φ' / b) (100 * φ' / b)
      linarith
    · rw [if_neg c, if_neg c, sub_self, abs_zero]
      positivity
  have := abs_sub_le (A.horizonBandShading φ' b) (PVF.horizonBandShading φ' b)
    (PVF.horizonBandShading φ b)
  linarith

omit hε in
/-- What is left of the light of the band. -/
theorem open_near (hε : ε ≤ 1 / 280) {h x' x d : ℝ} (hd : |x' - x| ≤ 100 * (d + 3 * ε)) (hx : |x| ≤ 100) :
    |A.mul h (A.sub 1 (A.div x' 100)) - h * (1 - x / 100)| ≤ |h| * (25 / 24 * d + 9 * ε) := by
  have d0 : 0 ≤ d + 3 * ε := by
    have := (abs_nonneg _).trans hd
    linarith
  set e := d + 3 * ε with he
  have x1 : |x' / 100 - x / 100| ≤ e := by
    rw [← sub_div, abs_div, abs_of_pos (by norm_num : (0 : ℝ) < 100), div_le_iff₀ (by norm_num)]
    linarith
  have x2 : |x / 100| ≤ 1 := by
    rw [abs_div, abs_of_pos (by norm_num : (0 : ℝ) < 100), div_le_iff₀ (by norm_num)]
    linarith
  have x3 : |x' / 100| ≤ 1 + e := by
    have := abs_sub_abs_le_abs_sub (x' / 100) (x / 100)
    linarith
  have x4 : |A.div x' 100 - x / 100| ≤ e + ε * (1 + e) := by
    have h1 := A.div_err x' 100
    have h2 := mul_le_mul_of_nonneg_left x3 h0
    have := abs_sub_le (A.div x' 100) (x' / 100) (x / 100)
    linarith
  have εe : ε * e ≤ 1 / 280 * e := mul_le_mul_of_nonneg_right hε d0
  have x5 : |A.div x' 100 - x / 100| ≤ 281 / 280 * e + ε := by linarith
  have x6 := A.toArith.sub_abs h0 (x' := 1) (x := 1) (a := 0) (by simp) x5 (X := 1) (by simp) x2
  have εε : ε * ε ≤ 1 / 280 * ε := mul_le_mul_of_nonneg_right hε h0
  have x7 : |A.sub 1 (A.div x' 100) - (1 - x / 100)| ≤ 51 / 50 * e + 31 / 10 * ε := by
    refine x6.trans ?_
    linarith
  have x8 : |1 - x / 100| ≤ 2 := by
    refine (abs_sub _ _).trans ?_
    rw [abs_one]
    linarith
  have x9 := A.toArith.mul_abs h0 (x' := h) (x := h) (a := 0) (by simp) x7 (le_refl |h|) x8
  refine x9.trans ?_
  have : 0 * (2 + (51 / 50 * e + 31 / 10 * ε)) + |h| * (51 / 50 * e + 31 / 10 * ε)
      + ε * ((|h| + 0) * (2 + (51 / 50 * e + 31 / 10 * ε)))
      = |h| * ((51 / 50 * e + 31 / 10 * ε) + 2 * ε + 51 / 50 * (ε * e) + 31 / 10 * (ε * ε)) := by
    ring
  rw [this]
  refine mul_le_mul_of_nonneg_left ?_ (abs_nonneg _)
  linarith

/-- The middle of a surface. -/
theorem centroid_near {l l' : Line} {τ X : ℝ} (n1 : |l'.b1.x - l.b1.x| ≤ τ) (n2 : |l'.b1.y - l.b1.y| ≤ τ)
    (n3 : |l'.b2.x - l.b2.x| ≤ τ) (n4 : |l'.b2.y - l.b2.y| ≤ τ) (x1 : |l.b1.x| ≤ X) (x2 : |l.b1.y| ≤ X)
    (x3 : |l.b2.x| ≤ X) (x4 : |l.b2.y| ≤ X) :
    |(A.centroid l').x - l.centroid.x| ≤ 3 * τ + 5 * (ε * X) ∧
    |(A.centroid l').y - l.centroid.y| ≤ 3 * τ + 5 * (ε * X) := by
  have τ0 := (abs_nonneg _).trans n1
  have X0 := (abs_nonneg _).trans x1
  have one : ∀ {a' a b' b : ℝ}, |a' - a| ≤ τ → |b' - b| ≤ τ → |a| ≤ X → |b| ≤ X →
      |A.add a' (A.mul 0.5 (A.sub b' a')) - (a + 0.5 * (b - a))| ≤ 3 * τ + 5 * (ε * X) := by
    intro a' a b' b h1 h2 h3 h4
    have s1 := A.toArith.sub_abs h0 h2 h1 h4 h3
    have ετ : ε * τ ≤ 1 / 280 * τ := mul_le_mul_of_nonneg_right hε τ0
    have εX : 0 ≤ ε * X := by positivity
    have s2 : |A.sub b' a' - (b - a)| ≤ 201 / 100 * τ + 2 * (ε * X) := by
      refine s1.trans ?_
      linarith
    have s3 : |b - a| ≤ 2 * X := (abs_sub _ _).trans (by linarith)
    have s4 := A.toArith.mul_abs h0 (x' := 0.5) (x := 0.5) (a := 0) (X := 1 / 2) (by simp) s2
      (by norm_num [abs_of_pos]) s3
    have ee : ε * (ε * X) ≤ 1 / 280 * (ε * X) := mul_le_mul_of_nonneg_right hε εX
    have s5 : |A.mul 0.5 (A.sub b' a') - 0.5 * (b - a)| ≤ 102 / 100 * τ + 202 / 100 * (ε * X) := by
      refine s4.trans ?_
      linarith
    have s6 : |0.5 * (b - a)| ≤ X := by
      rw [_root_.abs_mul, abs_of_pos (by norm_num : (0 : ℝ) < 0.5)]
      linarith
    refine (A.toArith.add_abs h0 h1 s5 h3 s6).trans ?_
    linarith
  exact ⟨one n1 n3 x1 x3, one n2 n4 x2 x4⟩

end LightArith
end PVF
