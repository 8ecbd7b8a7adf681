import Verif.Lemmas.RoundedTrig
import Verif.Props.RoundedScene

/-!
# Accuracy of view factors computed from the inputs
-/

namespace PVF

theorem pyMod_near {d d' m : ℝ} (hd : |d' - d| ≤ m) (hm : ∀ k : ℤ, m < |d - 360 * k|) :
    pyMod d' 360 - pyMod d 360 = d' - d := by
  have h1 := Int.floor_le (d / 360)
  have h2 := Int.lt_floor_add_one (d / 360)
  set k := ⌊d / 360⌋ with hk
  obtain ⟨l, u⟩ := abs_le.1 hd
  have a1 : 360 * (k : ℝ) ≤ d := by linarith [(le_div_iff₀ (by norm_num : (0 : ℝ) < 360)).1 h1]
  have a2 : d < 360 * ((k : ℝ) + 1) := by linarith [(div_lt_iff₀ (by norm_num : (0 : ℝ) < 360)).1 h2]
  have b1 := hm k
  rw [abs_of_nonneg (by linarith)] at b1
  have b2 := hm (k + 1)
  push_cast at b2
  rw [abs_of_neg (by linarith)] at b2
  have hf : ⌊d' / 360⌋ = k := by
    rw [Int.floor_eq_iff, le_div_iff₀ (by norm_num), div_lt_iff₀ (by norm_num)]
    exact ⟨by linarith, by linarith⟩
  unfold pyMod
  rw [hf, ← hk]
  ring

/-- C99: the computed rotation angle is the exact one, for rows that look neither along nor against the
axis. -/
theorem C99_rotation {ε K G : ℝ} (h0 : 0 ≤ ε) (A : TrigArith ε) (p : ArrayParams) (u : StepIn)
    (hu : StepMargin p u ε K G) :
    A.rotation u.surfaceAzimuth p.axisAzimuth u.surfaceTilt
      = rotationFromTiltAzimuth u.surfaceAzimuth p.axisAzimuth u.surfaceTilt := by
  set d := u.surfaceAzimuth - p.axisAzimuth with hdd
  set d' := A.sub u.surfaceAzimuth p.axisAzimuth with hd'
  have hd : |d' - d| ≤ ε * G :=
    (A.sub_err _ _).trans (mul_le_mul_of_nonneg_left hu.surface h0)
  have hm := pyMod_near hd fun k => by
    have := hu.side (2 * k)
    push_cast at this
    rw [show (180 : ℝ) * (2 * k) = 360 * k by ring] at this
    linarith
  have he := A.mod_err d'
  have hb : ε * (G + 360) < |pyMod d 360 - 180| := by
    have := hu.side (2 * ⌊d / 360⌋ + 1)
    push_cast at this
    rwa [show d - 180 * (2 * (⌊d / 360⌋ : ℝ) + 1) = pyMod d 360 - 180 by unfold pyMod; ring] at this
  have hiff : A.mod d' > 180 ↔ pyMod d 360 > 180 := by
    obtain ⟨l1, u1⟩ := abs_le.1 he
    obtain ⟨l2, u2⟩ := abs_le.1 hd
    rcases lt_abs.1 hb with h | h <;> constructor <;> intro _ <;> linarith
  unfold TrigArith.rotation rotationFromTiltAzimuth
  simp only [← hdd, ← hd', hiff]

/-- C99: both components of the computed sun vector are close to the exact ones. -/
theorem C99_sun {ε G : ℝ} (h0 : 0 ≤ ε) (A : TrigArith ε) (zenith azimuth axis : ℝ)
    (hz : |zenith| ≤ 180) (hG : |azimuth - axis| ≤ G) (hS : sineErr ε G ≤ 1 / 20) :
    |(A.sun zenith azimuth axis).x - (solar2dVector zenith azimuth axis).x| ≤ 3 * sineErr ε G ∧
    |(A.sun zenith azimuth axis).y - (solar2dVector zenith azimuth axis).y| ≤ sineErr ε G := by
  have hG0 : 0 ≤ G := (abs_nonneg _).trans hG
  have hS14 : 14 * ε ≤ sineErr ε G := by
    unfold sineErr
    have : 0 ≤ ε * (G / 16) := by positivity
    linarith
  have hε : ε ≤ 1 / 100 := by linarith
  have hS0 : 0 ≤ sineErr ε G := by linarith
  obtain ⟨-, s1, c1⟩ := A.sincosd_near h0 (x := zenith) (x' := zenith) (d := 0) (X := 180) (G := G)
    (by simp) hz (by linarith)
  have e1 : |A.sub azimuth axis - (azimuth - axis)| ≤ ε * G :=
    (A.sub_err _ _).trans (mul_le_mul_of_nonneg_left hG h0)
  set d' := A.sub azimuth axis
  have eG : ε * G ≤ 1 / 100 * G := mul_le_mul_of_nonneg_right hε hG0
  have b1 : |d'| ≤ 101 / 100 * G := by
    have := abs_sub_abs_le_abs_sub d' (azimuth - axis)
    linarith
  have b2 : |d' - 90| ≤ 101 / 100 * G + 90 := by
    refine (abs_sub _ _).trans ?_
    rw [abs_of_pos (by norm_num : (0 : ℝ) < 90)]
    linarith
  have e2 : |A.sub d' 90 - (d' - 90)| ≤ ε * (101 / 100 * G + 90) :=
    (A.sub_err _ _).trans (mul_le_mul_of_nonneg_left b2 h0)
  have e3 : |A.sub d' 90 - (azimuth - axis - 90)| ≤ ε * (201 / 100 * G + 90) := by
    have e : A.sub d' 90 - (azimuth - axis - 90)
        = (A.sub d' 90 - (d' - 90)) + (d' - (azimuth - axis)) := by ring
    rw [e]
    refine (abs_add_le _ _).trans ?_
    linarith
  have b3 : |A.sub d' 90| ≤ 103 / 100 * G + 91 := by
    have := abs_sub_abs_le_abs_sub (A.sub d' 90) (d' - 90)
    have := mul_le_mul_of_nonneg_right hε (by positivity : 0 ≤ 101 / 100 * G + 90)
    linarith
  obtain ⟨-, -, c2⟩ := A.sincosd_near h0 e3 b3 (G := G) (by linarith)
  refine ⟨?_, c1⟩
  set S := sineErr ε G
  set s' := A.sin (A.deg2rad zenith)
  set c' := A.cos (A.deg2rad (A.sub d' 90))
  set s := sind zenith
  set c := cosd (azimuth - axis - 90)
  change |A.mul s' c' - s * c| ≤ 3 * S
  have hs1 : |s| ≤ 1 := Real.abs_sin_le_one _
  have hc1 : |c| ≤ 1 := Real.abs_cos_le_one _
  have hs' : |s'| ≤ 1 + S := by
    have := abs_sub_abs_le_abs_sub s' s
    linarith
  have hc' : |c'| ≤ 1 + S := by
    have := abs_sub_abs_le_abs_sub c' c
    linarith
  have m := A.mul_err s' c'
  rw [abs_mul] at m
  have m1 : |s'| * |c'| ≤ (1 + S) * (1 + S) :=
    mul_le_mul hs' hc' (abs_nonneg _) (by linarith)
  have m2 : ε * (|s'| * |c'|) ≤ ε * (111 / 100) :=
    mul_le_mul_of_nonneg_left (m1.trans (by nlinarith)) h0
  have e : A.mul s' c' - s * c = (A.mul s' c' - s' * c') + ((s' - s) * c' + s * (c' - c)) := by ring
  rw [e]
  refine (abs_add_le _ _).trans ?_
  have t1 : |(s' - s) * c' + s * (c' - c)| ≤ S * (1 + S) + S := by
    refine (abs_add_le _ _).trans ?_
    rw [abs_mul, abs_mul]
    have q1 : |s' - s| * |c'| ≤ S * (1 + S) := mul_le_mul s1 hc' (abs_nonneg _) hS0
    have q2 : |s| * |c' - c| ≤ 1 * S := mul_le_mul hs1 c2 (abs_nonneg _) zero_le_one
    linarith
  nlinarith

/-- What the margins of the inputs say about rotation and sun. -/
theorem SunMargin.facts {p : ArrayParams} {u : StepIn} {K G : ℝ} (h : SunMargin p u K G) :
    let sun := solar2dVector u.solarZenith u.solarAzimuth p.axisAzimuth
    1 ≤ K ∧ 0 ≤ G ∧ 0 < sun.y ∧ 1 ≤ K * sun.y ∧ |sun.x| ≤ 1 ∧ sun.y ≤ 1 ∧ sun.y ^ 2 + sun.x ^ 2 ≤ 1 := by
  intro sun
  have hG : 0 ≤ G := (abs_nonneg _).trans h.azimuth
  have hK := h.one_le
  have hy : 1 ≤ K * sun.y := h.high
  have hy0 : 0 < sun.y := by
    by_contra hy0
    push Not at hy0
    nlinarith
  have hy1 : sun.y ≤ 1 := Real.cos_le_one _
  have hsq : sun.y ^ 2 + sun.x ^ 2 ≤ 1 := by
    have e : sun.x = sind u.solarZenith * cosd (u.solarAzimuth - p.axisAzimuth - 90) := rfl
    have e' : sun.y = cosd u.solarZenith := rfl
    rw [e, e', mul_pow]
    have := cosd_sq_add_sind_sq u.solarZenith
    have h2 := cosd_sq_add_sind_sq (u.solarAzimuth - p.axisAzimuth - 90)
    nlinarith [sq_nonneg (sind u.solarZenith), sq_nonneg (sind (u.solarAzimuth - p.axisAzimuth - 90))]
  refine ⟨hK, hG, hy0, hy, ?_, hy1, hsq⟩
  rw [abs_le]
  constructor <;> nlinarith [sq_nonneg sun.y]

theorem StepMargin.sun {p : ArrayParams} {u : StepIn} {ε K G : ℝ} (h : StepMargin p u ε K G) :
    SunMargin p u K G := by
  refine ⟨?_, h.zenith, h.azimuth, h.high, h.plane⟩
  have hs1 : |sind u.surfaceTilt| ≤ 1 := Real.abs_sin_le_one _
  have hs0 := abs_nonneg (sind u.surfaceTilt)
  have ht := h.tilt
  by_contra hK
  push Not at hK
  rcases le_total 0 K with hk | hk <;> nlinarith

theorem StepMargin.facts {p : ArrayParams} {u : StepIn} {ε K G : ℝ} (h : StepMargin p u ε K G) :
    let sun := solar2dVector u.solarZenith u.solarAzimuth p.axisAzimuth
    1 ≤ K ∧ 0 ≤ G ∧ 0 < sun.y ∧ 1 ≤ K * sun.y ∧ |sun.x| ≤ 1 ∧ sun.y ≤ 1 ∧ sun.y ^ 2 + sun.x ^ 2 ≤ 1 :=
  h.sun.facts

/-- C99: the computed angle of the sun is close to the exact one. -/
theorem C99_alpha {ε K G : ℝ} (h0 : 0 ≤ ε) (A : TrigArith ε) (p : ArrayParams) (u : StepIn)
    (hu : SunMargin p u K G) (hS : 20 * sineErr ε G * K ^ 3 ≤ 1) :
    let sun := solar2dVector u.solarZenith u.solarAzimuth p.axisAzimuth
    let sun' := A.sun u.solarZenith u.solarAzimuth p.axisAzimuth
    |A.atan2 sun'.y sun'.x - arctan2 sun.y sun.x| ≤ 24 / 5 * sineErr ε G * K ^ 2 := by
  intro sun sun'
  obtain ⟨hK, hG, hy0, hy, hx1, hy1, -⟩ := hu.facts
  have hS14 : 14 * ε ≤ sineErr ε G := by
    unfold sineErr
    have : 0 ≤ ε * (G / 16) := by positivity
    linarith
  set S := sineErr ε G with hSd
  have hS0 : 0 ≤ S := by linarith
  have hK2 : 1 ≤ K ^ 2 := by nlinarith
  have hK3 : K ^ 2 ≤ K ^ 3 := by nlinarith [mul_nonneg (by linarith : 0 ≤ K - 1) (sq_nonneg K)]
  have hKK : K ≤ K ^ 2 := by nlinarith
  have hSK2 : S * K ^ 2 ≤ 1 / 20 := by
    have := mul_le_mul_of_nonneg_left hK3 hS0
    linarith
  have hSK : S * K ≤ S * K ^ 2 := mul_le_mul_of_nonneg_left hKK hS0
  have hS1 : S ≤ S * K ^ 2 := le_mul_of_one_le_right hS0 hK2
  obtain ⟨ex, ey⟩ := C99_sun h0 A u.solarZenith u.solarAzimuth p.axisAzimuth hu.zenith hu.azimuth
    (by linarith)
  change |sun'.x - sun.x| ≤ 3 * S at ex
  change |sun'.y - sun.y| ≤ S at ey
  change 0 < sun.y at hy0
  change 1 ≤ K * sun.y at hy
  change |sun.x| ≤ 1 at hx1
  change sun.y ≤ 1 at hy1
  have hSy : S ≤ 1 / 20 * sun.y := by nlinarith
  obtain ⟨yl, yu⟩ := abs_le.1 ey
  have hy' : 19 / 20 * sun.y ≤ sun'.y := by linarith
  have hy0' : 0 < sun'.y := by linarith
  -- the quotients
  have hq : |sun'.x / sun'.y - sun.x / sun.y| ≤ 80 / 19 * S * K ^ 2 := by
    have e : sun'.x / sun'.y - sun.x / sun.y
        = ((sun'.x - sun.x) * sun.y - sun.x * (sun'.y - sun.y)) / (sun'.y * sun.y) := by
      field_simp
      ring
    rw [e, abs_div, abs_of_pos (mul_pos hy0' hy0), div_le_iff₀ (mul_pos hy0' hy0)]
    have n1 : |(sun'.x - sun.x) * sun.y - sun.x * (sun'.y - sun.y)| ≤ 4 * S := by
      refine (abs_sub _ _).trans ?_
      rw [abs_mul, abs_mul, abs_of_pos hy0]
      have q1 : |sun'.x - sun.x| * sun.y ≤ 3 * S * 1 := mul_le_mul ex hy1 hy0.le (by linarith)
      have q2 : |sun.x| * |sun'.y - sun.y| ≤ 1 * S := mul_le_mul hx1 ey (abs_nonneg _) zero_le_one
      linarith
    refine n1.trans ?_
    have k1 : 1 ≤ (K * sun.y) * (K * sun.y) := by nlinarith
    have k2 : 19 / 20 ≤ K ^ 2 * (sun'.y * sun.y) := by
      have : 19 / 20 * sun.y * sun.y ≤ sun'.y * sun.y := mul_le_mul_of_nonneg_right hy' hy0.le
      nlinarith [mul_le_mul_of_nonneg_left this (sq_nonneg K)]
    have := mul_le_mul_of_nonneg_left k2 (by positivity : 0 ≤ 80 / 19 * S)
    linarith
  have ha := (arctan2_lip hy0 hy0' (x := sun.x) (x' := sun'.x)).trans hq
  have hr := arctan2_range (x := sun'.x) hy0'
  have he := A.atan2_err sun'.y sun'.x
  rw [abs_of_pos hr.1] at he
  have hpi := Real.pi_lt_d2
  have e : A.atan2 sun'.y sun'.x - arctan2 sun.y sun.x
      = (A.atan2 sun'.y sun'.x - arctan2 sun'.y sun'.x)
        + (arctan2 sun'.y sun'.x - arctan2 sun.y sun.x) := by ring
  rw [e]
  refine (abs_add_le _ _).trans ?_
  have h3 : ε * arctan2 sun'.y sun'.x ≤ ε * (63 / 20) :=
    mul_le_mul_of_nonneg_left (by linarith [hr.2]) h0
  linarith

/-- The computed values of trigonometric functions of a time step, for any value that is used as tangent of
the rotation angle. -/
theorem trig_near {ε K G : ℝ} (h0 : 0 ≤ ε) (A : TrigArith ε) (p : ArrayParams) (u : StepIn)
    (hst : PhysicalStep p u) (hu : SunMargin p u K G) (hS : 20 * sineErr ε G * K ^ 3 ≤ 1) (X : ℝ) :
    let rot := rotationFromTiltAzimuth u.surfaceAzimuth p.axisAzimuth u.surfaceTilt
    let sun := solar2dVector u.solarZenith u.solarAzimuth p.axisAzimuth
    let sun' := A.sun u.solarZenith u.solarAzimuth p.axisAzimuth
    X ≠ 0 → |1 / X - cosd rot.deg / sind rot.deg| ≤ trigErr ε K G → |cosd rot.deg / sind rot.deg| ≤ K →
    TrigNear rot.deg (arctan2 sun.y sun.x) { A.trig rot.deg (A.atan2 sun'.y sun'.x) with tanRot := X }
      (trigErr ε K G) K := by
  intro rot sun sun' hX1 hX2 hX3
  have hal := C99_alpha h0 A p u hu hS
  dsimp only at hal
  obtain ⟨hK, hG, hy0, hy, hx1, hy1, hsq⟩ := hu.facts
  change 0 < sun.y at hy0
  change 1 ≤ K * sun.y at hy
  change sun.y ^ 2 + sun.x ^ 2 ≤ 1 at hsq
  have hS14 : 14 * ε ≤ sineErr ε G := by
    unfold sineErr
    have : 0 ≤ ε * (G / 16) := by positivity
    linarith
  have hQS : ε * (13 + G / 16) ≤ sineErr ε G := by unfold sineErr; linarith
  set S := sineErr ε G with hSd
  set Q := ε * (13 + G / 16) with hQd
  change |A.atan2 sun'.y sun'.x - arctan2 sun.y sun.x| ≤ 24 / 5 * S * K ^ 2 at hal
  set α := arctan2 sun.y sun.x with hα
  set α' := A.atan2 sun'.y sun'.x with hα'
  have hS0 : 0 ≤ S := by linarith
  have hK0 : 0 < K := by linarith
  have hK2 : 1 ≤ K ^ 2 := by nlinarith
  have hK3 : K ^ 2 ≤ K ^ 3 := by nlinarith [mul_nonneg (by linarith : 0 ≤ K - 1) (sq_nonneg K)]
  have hSK2 : S * K ^ 2 ≤ 1 / 20 := by
    have := mul_le_mul_of_nonneg_left hK3 hS0
    linarith
  have hS1 : S ≤ S * K ^ 2 := le_mul_of_one_le_right hS0 hK2
  have hε : ε ≤ 1 / 100 := by linarith
  set Θ := 8 * S * K ^ 2 with hΘ
  have hΘK : 2 * Θ * K ≤ 1 := by
    have : 2 * Θ * K = 16 * (S * K ^ 3) := by rw [hΘ]; ring
    have h2 : 20 * (S * K ^ 3) ≤ 1 := by linarith
    have h3 : 0 ≤ S * K ^ 3 := by positivity
    linarith
  have hη : trigErr ε K G = 3 * Θ * K ^ 2 := by unfold trigErr; rw [← hSd, hΘ]; ring
  have hΘ0 : 0 ≤ Θ := by positivity
  have hΘη : 2 * Θ * K ^ 2 + 3 * ε * K ≤ trigErr ε K G := by
    rw [hη]
    have : 3 * ε * K ≤ Θ * K ^ 2 := by
      have a1 : 3 * ε ≤ Θ := by linarith
      have a2 : K ≤ K ^ 2 := by nlinarith
      calc 3 * ε * K ≤ Θ * K := mul_le_mul_of_nonneg_right a1 hK0.le
        _ ≤ Θ * K ^ 2 := mul_le_mul_of_nonneg_left a2 hΘ0
    linarith
  have hSη : S ≤ trigErr ε K G := by
    have : Θ ≤ Θ * K ^ 2 := le_mul_of_one_le_right hΘ0 hK2
    rw [hη]; linarith
  -- the rotation
  have hlo : -180 < rot.deg := (rotation_range' hst.tilt_nonneg hst.tilt_lt).1
  have hhi : rot.deg < 180 := (rotation_range' hst.tilt_nonneg hst.tilt_lt).2
  have hrot : |rot.deg| ≤ 180 := abs_le.2 ⟨hlo.le, hhi.le⟩
  obtain ⟨r0, r1, r2⟩ := A.sincosd_near h0 (x := rot.deg) (x' := rot.deg) (d := 0) (X := 180) (G := G)
    (by simp) hrot (by linarith)
  have b180 : |rot.deg + 180| ≤ 360 := by rw [abs_le]; constructor <;> linarith
  have e180 : |A.add rot.deg 180 - (rot.deg + 180)| ≤ ε * 360 :=
    (A.add_err _ _).trans (mul_le_mul_of_nonneg_left b180 h0)
  have b180' : |A.add rot.deg 180| ≤ 364 := by
    have := abs_sub_abs_le_abs_sub (A.add rot.deg 180) (rot.deg + 180)
    linarith
  obtain ⟨-, s1, s2⟩ := A.sincosd_near h0 e180 b180' (G := G) (by linarith)
  have b90 : |90 - rot.deg| ≤ 270 := by rw [abs_le]; constructor <;> linarith
  have e90 : |A.sub 90 rot.deg - (90 - rot.deg)| ≤ ε * 270 :=
    (A.sub_err _ _).trans (mul_le_mul_of_nonneg_left b90 h0)
  have b90' : |A.sub 90 rot.deg| ≤ 273 := by
    have := abs_sub_abs_le_abs_sub (A.sub 90 rot.deg) (90 - rot.deg)
    linarith
  obtain ⟨-, t1, t2⟩ := A.sincosd_near h0 e90 b90' (G := G) (by linarith)
  -- angles
  have hpi := Real.pi_lt_d2
  have hpi3 := Real.pi_gt_three
  have hαr := arctan2_range (x := sun.x) hy0
  rw [← hα] at hαr
  have hα'b : |α'| ≤ 34 / 10 := by
    have := abs_sub_abs_le_abs_sub α' α
    rw [abs_of_pos hαr.1] at this
    linarith [hαr.2]
  have hsqp : 0 < Real.sqrt (sun.y ^ 2 + sun.x ^ 2) := Real.sqrt_pos.2 (by positivity)
  have hsq1 : Real.sqrt (sun.y ^ 2 + sun.x ^ 2) ≤ 1 := Real.sqrt_le_one.2 hsq
  have hsα : 1 ≤ K * |Real.sin α| := by
    have : sun.y ≤ |Real.sin α| := by
      refine le_trans ?_ (le_abs_self _)
      rw [hα, arctan2_sin, le_div_iff₀ hsqp]
      exact mul_le_of_le_one_right hy0.le hsq1
    exact hy.trans (mul_le_mul_of_nonneg_left this hK0.le)
  set β := deg2rad (90 - rot.deg + rad2deg α) with hβ
  have hβe : β = Real.pi / 2 - deg2rad rot.deg + α := by
    rw [hβ]; unfold deg2rad rad2deg
    have := Real.pi_ne_zero
    field_simp
    ring
  have hcβ : 1 ≤ K * |Real.cos β| := by
    have h2 := hu.plane
    have : |frontDotSun rot.deg sun| ≤ |Real.cos β| := by
      have e : Real.cos β = (sind rot.deg * sun.x - cosd rot.deg * sun.y)
          / Real.sqrt (sun.y ^ 2 + sun.x ^ 2) := by
        rw [hβe, show Real.pi / 2 - deg2rad rot.deg + α = Real.pi / 2 - (deg2rad rot.deg - α) by ring,
          Real.cos_pi_div_two_sub, Real.sin_sub, hα, arctan2_sin, arctan2_cos hy0]
        unfold sind cosd
        ring
      rw [e, abs_div, abs_of_pos hsqp, le_div_iff₀ hsqp]
      unfold frontDotSun
      rw [abs_sub_comm]
      exact mul_le_of_le_one_right (abs_nonneg _) hsq1
    exact h2.trans (mul_le_mul_of_nonneg_left this hK0.le)
  -- the tangents
  obtain ⟨x1, hx1, cx1, tx1⟩ := A.tan_err α'
  have dx1 : |x1 - α| ≤ Θ := by
    have e : x1 - α = (x1 - α') + (α' - α) := by ring
    have := mul_le_mul_of_nonneg_left hα'b h0
    rw [e]
    refine (abs_add_le _ _).trans ?_
    linarith
  obtain ⟨sx1, kx1, nx1⟩ := cot_near hsα dx1 hΘK
  obtain ⟨zx1, mx1⟩ := inv_tan_near h0 (by linarith) cx1 sx1 kx1 tx1
  set γ := A.add (A.sub 90 rot.deg) (A.rad2deg α') with hγ
  obtain ⟨x3, hx3, -, tx3⟩ := A.tan_err (A.deg2rad γ)
  -- degrees of the sun angle
  have rd : ∀ z : ℝ, |rad2deg z| = |z| * (180 / Real.pi) := fun z => by
    unfold rad2deg
    rw [mul_div_assoc, abs_mul, abs_of_pos (by positivity : (0 : ℝ) < 180 / Real.pi)]
  have rd60 : 180 / Real.pi ≤ 60 := by
    rw [div_le_iff₀ Real.pi_pos]; linarith
  have rdp : 0 < 180 / Real.pi := by positivity
  have q1 : |rad2deg α'| ≤ 204 := by
    rw [rd]
    have := mul_le_mul hα'b rd60 rdp.le (by norm_num)
    linarith
  have q2 : |A.rad2deg α' - rad2deg α'| ≤ ε * 204 :=
    (A.rad2deg_err _).trans (mul_le_mul_of_nonneg_left q1 h0)
  set σ := A.sub 90 rot.deg + A.rad2deg α' with hσ
  have q3 : |σ| ≤ 480 := by
    have h1 := abs_sub_abs_le_abs_sub (A.rad2deg α') (rad2deg α')
    refine (abs_add_le _ _).trans ?_
    linarith
  have q4 : |γ - σ| ≤ ε * 480 := (A.add_err _ _).trans (mul_le_mul_of_nonneg_left q3 h0)
  have q5 : |γ| ≤ 485 := by
    have h1 := abs_sub_abs_le_abs_sub γ σ
    linarith
  -- in degrees, up to the error of the sun angle
  have q6 : |γ - (90 - rot.deg + rad2deg α')| ≤ ε * 954 := by
    have e : γ - (90 - rot.deg + rad2deg α') = (γ - σ) + ((A.sub 90 rot.deg - (90 - rot.deg))
      + (A.rad2deg α' - rad2deg α')) := by rw [hσ]; ring
    rw [e]
    refine (abs_add_le _ _).trans ?_
    have := abs_add_le (A.sub 90 rot.deg - (90 - rot.deg)) (A.rad2deg α' - rad2deg α')
    linarith
  have q7 := A.deg2rad_near h0 q6 q5
  have q8 : deg2rad (90 - rot.deg + rad2deg α') - β = α' - α := by
    rw [hβ]; unfold deg2rad rad2deg
    have := Real.pi_ne_zero
    field_simp
    ring
  have q9 : |A.deg2rad γ - β| ≤ ε * 26 + 24 / 5 * S * K ^ 2 := by
    have e : A.deg2rad γ - β = (A.deg2rad γ - deg2rad (90 - rot.deg + rad2deg α'))
      + (deg2rad (90 - rot.deg + rad2deg α') - β) := by ring
    rw [e, q8]
    refine (abs_add_le _ _).trans ?_
    linarith
  have b3 : |A.deg2rad γ| ≤ 9 := by
    have h1 := A.deg2rad_err γ
    have h2 : |deg2rad γ| ≤ 485 * (7 / 400) := by
      rw [abs_deg2rad]
      exact mul_le_mul q5 pi_small (by positivity) (by norm_num)
    have h3 := abs_sub_abs_le_abs_sub (A.deg2rad γ) (deg2rad γ)
    have h4 := mul_le_mul_of_nonneg_left h2 h0
    linarith
  have dx3 : |x3 - β| ≤ Θ := by
    have e : x3 - β = (x3 - A.deg2rad γ) + (A.deg2rad γ - β) := by ring
    have := mul_le_mul_of_nonneg_left b3 h0
    rw [e]
    refine (abs_add_le _ _).trans ?_
    linarith
  have nx3 := tan_near h0 hcβ dx3 hΘK tx3
  have inv : ∀ {z c : ℝ}, 1 ≤ K * |z| → |c| ≤ 1 → |c / z| ≤ K := fun {z c} hz hc => by
    have : 0 < |z| := by
      by_contra h
      have : |z| = 0 := le_antisymm (not_lt.1 h) (abs_nonneg _)
      rw [this, mul_zero] at hz
      linarith
    rw [abs_div, div_le_iff₀ this]
    exact hc.trans hz
  refine
    { cs := r2.trans hSη
      sn := r1.trans hSη
      cs180 := s2.trans hSη
      sn180 := s1.trans hSη
      tanSun := zx1
      cotSun := ?_
      tanRot := hX1
      cotRot := hX2
      sinTheta := t1.trans hSη
      cosTheta := t2.trans hSη
      tanBeta := ?_
      cotSun_le := inv hsα (Real.abs_cos_le_one _)
      cotRot_le := hX3
      tanBeta_le := ?_ }
  · change |1 / A.tan α' - Real.cos α / Real.sin α| ≤ _
    have e : 1 / A.tan α' - Real.cos α / Real.sin α = (1 / A.tan α' - Real.cos x1 / Real.sin x1)
      + (Real.cos x1 / Real.sin x1 - Real.cos α / Real.sin α) := by ring
    rw [e]
    refine (abs_add_le _ _).trans ?_
    linarith
  · change |A.tan (A.deg2rad γ) - Real.tan β| ≤ _
    have : 2 * ε * K ≤ 3 * ε * K := by
      have := mul_nonneg h0 hK0.le
      linarith
    linarith
  · rw [Real.tan_eq_sin_div_cos]
    exact inv hcβ (Real.abs_sin_le_one _)

/-- C99: all computed values of trigonometric functions of a time step are close to the exact ones. -/
theorem C99_trig {ε K G : ℝ} (h0 : 0 ≤ ε) (A : TrigArith ε) (p : ArrayParams) (u : StepIn)
    (hst : PhysicalStep p u) (hu : StepMargin p u ε K G) (hS : 20 * sineErr ε G * K ^ 3 ≤ 1) :
    let rot := rotationFromTiltAzimuth u.surfaceAzimuth p.axisAzimuth u.surfaceTilt
    let sun := solar2dVector u.solarZenith u.solarAzimuth p.axisAzimuth
    let sun' := A.sun u.solarZenith u.solarAzimuth p.axisAzimuth
    TrigNear rot.deg (arctan2 sun.y sun.x) (A.trig rot.deg (A.atan2 sun'.y sun'.x)) (trigErr ε K G)
      K := by
  intro rot sun sun'
  obtain ⟨hK, hG, hy0, hy, hx1, hy1, hsq⟩ := hu.facts
  change 0 < sun.y at hy0
  change 1 ≤ K * sun.y at hy
  change sun.y ^ 2 + sun.x ^ 2 ≤ 1 at hsq
  have hS14 : 14 * ε ≤ sineErr ε G := by
    unfold sineErr
    have : 0 ≤ ε * (G / 16) := by positivity
    linarith
  have hQS : ε * (13 + G / 16) ≤ sineErr ε G := by unfold sineErr; linarith
  set S := sineErr ε G with hSd
  set Q := ε * (13 + G / 16) with hQd
  have hS0 : 0 ≤ S := by linarith
  have hK0 : 0 < K := by linarith
  have hK2 : 1 ≤ K ^ 2 := by nlinarith
  have hK3 : K ^ 2 ≤ K ^ 3 := by nlinarith [mul_nonneg (by linarith : 0 ≤ K - 1) (sq_nonneg K)]
  have hSK2 : S * K ^ 2 ≤ 1 / 20 := by
    have := mul_le_mul_of_nonneg_left hK3 hS0
    linarith
  have hS1 : S ≤ S * K ^ 2 := le_mul_of_one_le_right hS0 hK2
  have hε : ε ≤ 1 / 100 := by linarith
  set Θ := 8 * S * K ^ 2 with hΘ
  have hΘK : 2 * Θ * K ≤ 1 := by
    have : 2 * Θ * K = 16 * (S * K ^ 3) := by rw [hΘ]; ring
    have h2 : 20 * (S * K ^ 3) ≤ 1 := by linarith
    have h3 : 0 ≤ S * K ^ 3 := by positivity
    linarith
  have hη : trigErr ε K G = 3 * Θ * K ^ 2 := by unfold trigErr; rw [← hSd, hΘ]; ring
  have hΘ0 : 0 ≤ Θ := by positivity
  have hΘη : 2 * Θ * K ^ 2 + 3 * ε * K ≤ trigErr ε K G := by
    rw [hη]
    have : 3 * ε * K ≤ Θ * K ^ 2 := by
      have a1 : 3 * ε ≤ Θ := by linarith
      have a2 : K ≤ K ^ 2 := by nlinarith
      calc 3 * ε * K ≤ Θ * K := mul_le_mul_of_nonneg_right a1 hK0.le
        _ ≤ Θ * K ^ 2 := mul_le_mul_of_nonneg_left a2 hΘ0
    linarith
  have hSη : S ≤ trigErr ε K G := by
    have : Θ ≤ Θ * K ^ 2 := le_mul_of_one_le_right hΘ0 hK2
    rw [hη]; linarith
  -- the rotation
  have hlo : -180 < rot.deg := (rotation_range' hst.tilt_nonneg hst.tilt_lt).1
  have hhi : rot.deg < 180 := (rotation_range' hst.tilt_nonneg hst.tilt_lt).2
  have hrot : |rot.deg| ≤ 180 := abs_le.2 ⟨hlo.le, hhi.le⟩
  obtain ⟨r0, r1, r2⟩ := A.sincosd_near h0 (x := rot.deg) (x' := rot.deg) (d := 0) (X := 180) (G := G)
    (by simp) hrot (by linarith)
  have hpi := Real.pi_lt_d2
  have hsr : 1 ≤ K * |Real.sin (deg2rad rot.deg)| := by
    have := rotation_sind_abs u p hst.tilt_nonneg hst.tilt_lt
    have h2 := hu.tilt
    have h3 : 0 ≤ sind u.surfaceTilt := by
      rcases hst.tilt_nonneg.lt_or_eq with h | h
      · exact (sind_pos h hst.tilt_lt).le
      · rw [← h, sind_zero]
    rw [abs_of_nonneg h3, ← this] at h2
    exact h2
  obtain ⟨x2, hx2, cx2, tx2⟩ := A.tan_err (A.deg2rad rot.deg)
  have b2 : |A.deg2rad rot.deg| ≤ 4 := by
    have h1 := abs_sub_abs_le_abs_sub (A.deg2rad rot.deg) (deg2rad rot.deg)
    have h2 : |deg2rad rot.deg| ≤ 180 * (7 / 400) := by
      rw [abs_deg2rad]
      exact mul_le_mul hrot pi_small (by positivity) (by norm_num)
    linarith
  have dx2 : |x2 - deg2rad rot.deg| ≤ Θ := by
    have e : x2 - deg2rad rot.deg = (x2 - A.deg2rad rot.deg) + (A.deg2rad rot.deg - deg2rad rot.deg) := by
      ring
    have := mul_le_mul_of_nonneg_left b2 h0
    rw [e]
    refine (abs_add_le _ _).trans ?_
    linarith
  obtain ⟨sx2, kx2, nx2⟩ := cot_near hsr dx2 hΘK
  obtain ⟨zx2, mx2⟩ := inv_tan_near h0 (by linarith) cx2 sx2 kx2 tx2
  have inv : ∀ {z c : ℝ}, 1 ≤ K * |z| → |c| ≤ 1 → |c / z| ≤ K := fun {z c} hz hc => by
    have : 0 < |z| := by
      by_contra h
      have : |z| = 0 := le_antisymm (not_lt.1 h) (abs_nonneg _)
      rw [this, mul_zero] at hz
      linarith
    rw [abs_div, div_le_iff₀ this]
    exact hc.trans hz
  refine trig_near h0 A p u hst hu.sun hS (A.tan (A.deg2rad rot.deg)) zx2 ?_ (inv hsr (Real.abs_cos_le_one _))
  change |1 / A.tan (A.deg2rad rot.deg)
    - Real.cos (deg2rad rot.deg) / Real.sin (deg2rad rot.deg)| ≤ _
  have e : 1 / A.tan (A.deg2rad rot.deg) - Real.cos (deg2rad rot.deg) / Real.sin (deg2rad rot.deg)
    = (1 / A.tan (A.deg2rad rot.deg) - Real.cos x2 / Real.sin x2)
    + (Real.cos x2 / Real.sin x2 - Real.cos (deg2rad rot.deg) / Real.sin (deg2rad rot.deg)) := by ring
  rw [e]
  refine (abs_add_le _ _).trans ?_
  linarith

/-- Another sun vector in a scene changes no coordinates. -/
theorem CoordsNear.sun {ε τ : ℝ} {A : Arith ε} {p : ArrayParams} {g : StepGeom} {rot : Rot} {s s' : Pt}
    {T : Trig} (h : CoordsNear p g (A.fitGeom p rot s T) τ) : CoordsNear p g (A.fitGeom p rot s' T) τ :=
  ⟨h.tilt, fun a ha => by
    have e : (A.fitGeom p rot s' T).coords a = (A.fitGeom p rot s T).coords a := by
      match a with
      | .gnd true e z => rfl
      | .gnd false e z => rfl
      | .pv i .front k sh => rfl
      | .pv i .back k sh => rfl
    rw [e]; exact h.ends a ha, fun r s k sh ha => by
    have e : (A.fitGeom p rot s' T).coords (.pv r s k sh)
        = (A.fitGeom p rot ‹Pt› T).coords (.pv r s k sh) := by
      cases s <;> rfl
    rw [e]; exact h.high r s k sh ha, fun r hr => h.edge r hr⟩

/-- Rows that the sun does not shine along shade a part of the next row that has more than a small length,
or leave such a part free. -/
theorem SunMargin.delta {p : ArrayParams} {u : StepIn} {K G s : ℝ} (hu : SunMargin p u K G)
    (hp : PhysicalArray p) (hst : PhysicalStep p u) (s0 : 0 ≤ s) (hd : s * K < p.distance) :
    s < |shadingDelta p.distance (fitStep p u).alpha (fitStep p u).rot.deg| := by
  obtain ⟨hK, hG, hy0, hy, hx1, hy1, hsq⟩ := hu.facts
  set rot := rotationFromTiltAzimuth u.surfaceAzimuth p.axisAzimuth u.surfaceTilt with hrot
  set sun := solar2dVector u.solarZenith u.solarAzimuth p.axisAzimuth with hsun
  change s < |shadingDelta p.distance (arctan2 sun.y sun.x) rot.deg|
  set α := arctan2 sun.y sun.x with hα
  have hsqp : 0 < Real.sqrt (sun.y ^ 2 + sun.x ^ 2) := Real.sqrt_pos.2 (by positivity)
  have hsα : sun.y ≤ |Real.sin α| := by
    refine le_trans ?_ (le_abs_self _)
    rw [hα, arctan2_sin, le_div_iff₀ hsqp]
    exact mul_le_of_le_one_right hy0.le (Real.sqrt_le_one.2 hsq)
  have hβ : deg2rad (90 - rot.deg + rad2deg α) = deg2rad (90 - rot.deg) + α := by
    unfold deg2rad rad2deg
    have := Real.pi_ne_zero
    field_simp
  have hdist : 0 < p.distance := div_pos hp.width_pos hp.gcr_pos
  have hc : Real.cos (deg2rad (90 - rot.deg) + α) ≠ 0 := by
    have e : Real.cos (deg2rad (90 - rot.deg) + α) = -frontDotSun rot.deg sun
        / Real.sqrt (sun.y ^ 2 + sun.x ^ 2) := by
      rw [show deg2rad (90 - rot.deg) + α = Real.pi / 2 - (deg2rad rot.deg - α) by
          unfold deg2rad; ring,
        Real.cos_pi_div_two_sub, Real.sin_sub, hα, arctan2_sin, arctan2_cos hy0]
      unfold frontDotSun sind cosd
      ring
    rw [e]
    exact div_ne_zero (neg_ne_zero.2 hst.sun_front) hsqp.ne'
  have e : Real.sin (deg2rad (90 - rot.deg)) - Real.cos (deg2rad (90 - rot.deg))
      * Real.tan (deg2rad (90 - rot.deg) + α) = -Real.sin α / Real.cos (deg2rad (90 - rot.deg) + α) := by
    rw [Real.tan_eq_sin_div_cos]
    have h2 : Real.sin α = Real.sin (deg2rad (90 - rot.deg) + α) * Real.cos (deg2rad (90 - rot.deg))
        - Real.cos (deg2rad (90 - rot.deg) + α) * Real.sin (deg2rad (90 - rot.deg)) := by
      rw [← Real.sin_sub]; congr 1; ring
    rw [h2]
    field_simp
    ring
  unfold shadingDelta
  dsimp only
  rw [hβ, e, abs_mul, abs_of_pos hdist, abs_div, abs_neg]
  have h5 : sun.y ≤ |Real.sin α| / |Real.cos (deg2rad (90 - rot.deg) + α)| :=
    hsα.trans (le_div_self (abs_nonneg _) (abs_pos.2 hc) (Real.abs_cos_le_one _))
  have h6 : p.distance * sun.y
      ≤ p.distance * (|Real.sin α| / |Real.cos (deg2rad (90 - rot.deg) + α)|) :=
    mul_le_mul_of_nonneg_left h5 hdist.le
  refine lt_of_lt_of_le ?_ h6
  calc s ≤ s * (K * sun.y) := le_mul_of_one_le_right s0 hy
    _ = s * K * sun.y := by ring
    _ < p.distance * sun.y := mul_lt_mul_of_pos_right hd hy0

theorem StepMargin.delta {p : ArrayParams} {u : StepIn} {ε K G s : ℝ} (hu : StepMargin p u ε K G)
    (hp : PhysicalArray p) (hst : PhysicalStep p u) (s0 : 0 ≤ s) (hd : s * K < p.distance) :
    s < |shadingDelta p.distance (fitStep p u).alpha (fitStep p u).rot.deg| := hu.sun.delta hp hst s0 hd

/-- C99: all coordinates that are computed from the inputs of a time step are close to the exact ones. -/
theorem C99_step {ε B K G w : ℝ} (h0 : 0 ≤ ε) (A : TrigArith ε) (p : ArrayParams) (u : StepIn)
    (hp : PhysicalArray p) (hst : PhysicalStep p u) (hB : ArraySize p B) (hu : StepMargin p u ε K G)
    (hS : 20 * sineErr ε G * K ^ 3 ≤ 1)
    (hd : shadeErr ε (trigErr ε K G) B K * K < p.distance)
    (hT : shadeErr ε (trigErr ε K G) B K < TOL)
    (hf : ∀ x, x = (interrowShading p (fitStep p u).alpha (fitStep p u).rot.deg).1 ∨
      x = (interrowShading p (fitStep p u).alpha (fitStep p u).rot.deg).2 → x = 0 ∨ 2 * TOL ≤ x)
    (hw : w ≤ p.width)
    (hlong : ∀ a ∈ surfaces p, ((fitStep p u).coords a).length = 0 ∨
      w ≤ ((fitStep p u).coords a).length)
    (hτ : 2 * K * sceneErr ε (trigErr ε K G) B K (1 / K) < w) :
    CoordsNear p (fitStep p u) (A.fitStep p u) (sceneErr ε (trigErr ε K G) B K (1 / K)) := by
  have htr := C99_trig h0 A p u hst hu hS
  obtain ⟨hK, hG, hy0, hy, hx1, hy1, hsq⟩ := hu.facts
  dsimp only at htr
  set rot := rotationFromTiltAzimuth u.surfaceAzimuth p.axisAzimuth u.surfaceTilt with hrot
  set sun := solar2dVector u.solarZenith u.solarAzimuth p.axisAzimuth with hsun
  set sun' := A.sun u.solarZenith u.solarAzimuth p.axisAzimuth with hsun'
  set T := A.trig rot.deg (A.atan2 sun'.y sun'.x) with hTd
  set η := trigErr ε K G with hη
  have hS0 : 14 * ε ≤ sineErr ε G := by
    unfold sineErr
    have : 0 ≤ ε * (G / 16) := by positivity
    linarith
  have hK0 : 0 < K := by linarith
  have hK3 : 1 ≤ K ^ 3 := one_le_pow₀ hK
  have h1 : ε < 1 := by
    have : sineErr ε G * 1 ≤ sineErr ε G * K ^ 3 := mul_le_mul_of_nonneg_left hK3 (by linarith)
    linarith
  have hη0 : 0 ≤ η := (abs_nonneg _).trans htr.cs
  have hsp : 1 / K ≤ |sind rot.deg| := by
    have h3 : 0 ≤ sind u.surfaceTilt := by
      rcases hst.tilt_nonneg.lt_or_eq with h | h
      · exact (sind_pos h hst.tilt_lt).le
      · rw [← h, sind_zero]
    have h2 := hu.tilt
    rw [abs_of_nonneg h3] at h2
    have h4 : |sind rot.deg| = sind u.surfaceTilt := rotation_sind_abs u p hst.tilt_nonneg hst.tilt_lt
    rw [h4, div_le_iff₀ hK0]
    linarith
  have hKi : 0 < 1 / K := by positivity
  have hB0 : 0 < B := hB.width_pos.trans_le hB.width
  have e0 : 0 ≤ endErr ε η B := by
    have := grow_pow_one h0 h1 5
    unfold endErr
    exact add_nonneg (mul_nonneg (by linarith) (by positivity)) (by positivity)
  have s0 : 0 ≤ shadeErr ε η B K := by
    have := grow_pow_one h0 h1 5
    unfold shadeErr
    exact add_nonneg (mul_nonneg (by linarith) (by positivity)) (by positivity)
  have g0 : 0 ≤ groundErr ε η B K := by
    have := grow_pow_one h0 h1 3
    unfold groundErr
    exact add_nonneg (add_nonneg (mul_nonneg (by linarith) (by positivity)) (by positivity))
      (by positivity)
  have hmono : sceneErr ε η B K |sind rot.deg| ≤ sceneErr ε η B K (1 / K) := by
    unfold sceneErr
    have := one_div_le_one_div_of_le hKi hsp
    have := mul_le_mul_of_nonneg_left this (by positivity : 0 ≤ 2 * (endErr ε η B + shadeErr ε η B K))
    linarith
  have hsc0 : 0 ≤ sceneErr ε η B K (1 / K) := by
    unfold sceneErr; positivity
  have hw0 : 0 < w := lt_of_le_of_lt (by positivity) hτ
  have hrot0 : rot.deg ≠ 0 := fun h => by
    rw [h, sind_zero, abs_zero] at hsp
    linarith
  have hdel : shadeErr ε η B K < |shadingDelta p.distance (arctan2 sun.y sun.x) rot.deg| :=
    hu.delta hp hst s0 hd
  have main : CoordsNear p (fitStep p u) (A.fitGeom p rot sun T) (sceneErr ε η B K |sind rot.deg|) := by
    refine C98_step h0 h1 A.toArith p u T hp hst hB htr hrot0 (fun _ => hdel) (fun x hx => ?_) hw hlong
      ?_
    · rcases hf x hx with h | h
      · rw [h, zero_sub, abs_neg, abs_of_pos TOL_pos]; exact hT
      · exact hT.trans_le ((by linarith : TOL ≤ x - TOL).trans (le_abs_self _))
    · change 2 * sceneErr ε η B K |sind rot.deg| < w * |sind rot.deg|
      have h5 : 2 * sceneErr ε η B K (1 / K) < w * (1 / K) := by
        rw [mul_one_div, lt_div_iff₀ hK0]
        linarith
      have h6 := mul_le_mul_of_nonneg_left hsp hw0.le
      linarith
  have e : A.fitStep p u = A.fitGeom p rot sun' T := by
    unfold TrigArith.fitStep
    rw [C99_rotation h0 A p u hu]
  rw [e]
  exact (main.mono hmono).sun

/-- C99: all view factors that are computed from the inputs of a run, with rounding errors in all
operations and in trigonometric functions, are close to the exact ones. -/
theorem C99_view_factors {ι : Type*} [Fintype ι] {ε B K G D w c : ℝ} (h0 : 0 ≤ ε)
    (A : TrigArith ε) (T : SumTree) (p : ArrayParams) (u : ι → StepIn) (t : ι)
    (hp : PhysicalArray p) (hst : ∀ t, PhysicalStep p (u t)) (hB : ArraySize p B)
    (hu : ∀ t, StepMargin p (u t) ε K G) (hS : 20 * sineErr ε G * K ^ 3 ≤ 1)
    (hd : shadeErr ε (trigErr ε K G) B K * K < p.distance)
    (hTOL : shadeErr ε (trigErr ε K G) B K < TOL)
    (hf : ∀ t x, x = (interrowShading p (fitStep p (u t)).alpha (fitStep p (u t)).rot.deg).1 ∨
      x = (interrowShading p (fitStep p (u t)).alpha (fitStep p (u t)).rot.deg).2 →
        x = 0 ∨ 2 * TOL ≤ x)
    (hw : w ≤ p.width)
    (hlong : ∀ t, ∀ a ∈ surfaces p, ((fitStep p (u t)).coords a).length = 0 ∨
      w ≤ ((fitStep p (u t)).coords a).length)
    (hT : T.leaves = Multiset.range (nTsSurfaces p))
    (hs : SceneSize p (fitStep p (u t)) (isEmptyTs fun t => fitStep p (u t)) D w)
    (hc : c ≤ p.height - p.width / 2 * sind (u t).surfaceTilt)
    (τ : ℝ) (hτd : τ = sceneErr ε (trigErr ε K G) B K (1 / K)) (hτ : 2 * K * τ < w)
    (hτT : 4 * τ ≤ TOL) (hτn : Fintype.card ι * (2 * τ) < TOL) (hτc : 4 * τ < c)
    (hw2 : 2 * TOL ≤ w - 2 * τ) (a : SurfRef) (ha : a ∈ surfaces p) :
    let g' := fun t => A.fitStep p (u t)
    let F := A.vfMatrix T p (g' t) (isEmptyTs g')
    let E := entryBound ε (D + 2 * τ) (w - 2 * τ) (c - 2 * τ) (2 * τ)
      + entryMove (D + 2 * τ) (w - 2 * τ) (c - 2 * τ) (2 * τ) τ
    (∀ b ∈ surfaces p, |vfBetween p F a b - vfBetween p (tsVfMatrix p u t) a b| ≤ E) ∧
    ∑ b ∈ surfaces p, |vfBetween p F a b - vfBetween p (tsVfMatrix p u t) a b|
      + |vfToSky p F a - vfToSky p (tsVfMatrix p u t) a| ≤ rowErrors (nTsSurfaces p) ε E := by
  intro g' F E
  have hn : ∀ t, CoordsNear p (fitStep p (u t)) (g' t) τ := fun t => by
    rw [hτd]
    exact C99_step h0 A p (u t) hp (hst t) hB (hu t) hS hd hTOL (hf t) hw (hlong t) (hτd ▸ hτ)
  obtain ⟨hK, hG, -⟩ := (hu t).facts
  have h1 : ε ≤ 1 / 8 := by
    have hS0 : 14 * ε ≤ sineErr ε G := by
      unfold sineErr
      have : 0 ≤ ε * (G / 16) := by positivity
      linarith
    have : sineErr ε G * 1 ≤ sineErr ε G * K ^ 3 :=
      mul_le_mul_of_nonneg_left (one_le_pow₀ hK) (by linarith)
    linarith
  have hτ0 : 0 ≤ τ := (Real.sqrt_nonneg _).trans ((hn t).ends a ha).1
  exact C98_computed h0 h1 A.toArith T p u t g' hp (hst t) hT hs hlong hc hn hτ0 hτT hτn hτc hw2 a ha

/-- C99: the light that full mode returns when everything from the inputs to the view factors is computed
with rounding errors and the linear system is solved up to small residuals is close to that of exact
full mode. -/
theorem C99_full_mode {ι : Type*} [Fintype ι] {ε B K G D w c : ℝ} (h0 : 0 ≤ ε)
    (A : TrigArith ε) (T : SumTree) (p : ArrayParams) (u : ι → StepIn) (s : ι → IrrStep)
    (aoi : ι → Option (List Asg)) (o : ι → FullOut) (hrun : runFullMode p u s aoi = some o)
    (hinv : ∀ t, InverseOk p (s t)) (t : ι)
    (hp : PhysicalArray p) (hst : ∀ t, PhysicalStep p (u t)) (hB : ArraySize p B)
    (hu : ∀ t, StepMargin p (u t) ε K G) (hS : 20 * sineErr ε G * K ^ 3 ≤ 1)
    (hd : shadeErr ε (trigErr ε K G) B K * K < p.distance)
    (hTOL : shadeErr ε (trigErr ε K G) B K < TOL)
    (hf : ∀ t x, x = (interrowShading p (fitStep p (u t)).alpha (fitStep p (u t)).rot.deg).1 ∨
      x = (interrowShading p (fitStep p (u t)).alpha (fitStep p (u t)).rot.deg).2 →
        x = 0 ∨ 2 * TOL ≤ x)
    (hw : w ≤ p.width)
    (hlong : ∀ t, ∀ a ∈ surfaces p, ((fitStep p (u t)).coords a).length = 0 ∨
      w ≤ ((fitStep p (u t)).coords a).length)
    (hT : T.leaves = Multiset.range (nTsSurfaces p))
    (hs : SceneSize p (fitStep p (u t)) (isEmptyTs fun t => fitStep p (u t)) D w)
    (hc : c ≤ p.height - p.width / 2 * sind (u t).surfaceTilt)
    (τ : ℝ) (hτd : τ = sceneErr ε (trigErr ε K G) B K (1 / K)) (hτ : 2 * K * τ < w)
    (hτT : 4 * τ ≤ TOL) (hτn : Fintype.card ι * (2 * τ) < TOL) (hτc : 4 * τ < c)
    (hw2 : 2 * TOL ≤ w - 2 * τ)
    (r : ℝ) (hr : ∀ a ∈ surfaces p, 0 ≤ (s t).rho a ∧ (s t).rho a ≤ r) (hr1 : r < 1)
    (e' q0' qinc' : SurfRef → ℝ) (sky' η₁ η₂ η₃ M : ℝ)
    (hsol : NearlySolved p (A.vfMatrix T p (A.fitStep p (u t)) (isEmptyTs fun t => A.fitStep p (u t)))
      (fun a => ((s t).comp a).sum) (s t).rho (s t).sky e' q0' qinc' sky' η₁ η₂ η₃ M) :
    let E := entryBound ε (D + 2 * τ) (w - 2 * τ) (c - 2 * τ) (2 * τ)
      + entryMove (D + 2 * τ) (w - 2 * τ) (c - 2 * τ) (2 * τ) τ
    ∀ a ∈ surfaces p, |qinc' a - (o t).qinc a|
      ≤ (η₁ + η₂ + η₃ + rowErrors (nTsSurfaces p) ε E * M) / (1 - r) := fun a ha =>
  (C96_system p (tsVfMatrix p u t) _ _ e' _ _ _ q0' qinc' _ sky' r _ η₁ η₂ η₃ M
    (C06_radiosity p u s aoi o hrun hinv t).1 (C02_viewFactorsOk p u t hp (hst t)) hr hr1
    (fun a ha => (C99_view_factors h0 A T p u t hp hst hB hu hS hd hTOL hf hw hlong hT hs hc τ hτd hτ
      hτT hτn hτc hw2 a ha).2) hsol a ha).1

/-! ## Witness -/

open Classical in
/-- Operations and functions that give numbers that are too large by a factor of `1 + ε`. -/
noncomputable def tooLargeTrig (ε : ℝ) (h : 0 < ε) : TrigArith ε :=
  have err : ∀ z : ℝ, |(1 + ε) * z - z| ≤ ε * |z| := fun z => by
    rw [show (1 + ε) * z - z = ε * z by ring, abs_mul, abs_of_pos h]
  { tooLarge ε h.le with
    sin := fun x => (1 + ε) * Real.sin x
    cos := fun x => (1 + ε) * Real.cos x
    tan := fun x => (1 + ε) * Real.tan (if Real.cos x = 0 then x + min (ε * |x|) 1 else x)
    deg2rad := fun x => (1 + ε) * deg2rad x
    rad2deg := fun x => (1 + ε) * rad2deg x
    mod := fun x => pyMod x 360
    sin_err := fun _ => err _
    cos_err := fun _ => err _
    tan_err := fun x => by
      refine ⟨if Real.cos x = 0 then x + min (ε * |x|) 1 else x, ?_, ?_, err _⟩
      · split_ifs
        · rw [add_sub_cancel_left, abs_of_nonneg (le_min (by positivity) zero_le_one)]
          exact min_le_left _ _
        · rw [sub_self, abs_zero]; positivity
      · split_ifs with hc
        · have hx : x ≠ 0 := fun hx => by rw [hx, Real.cos_zero] at hc; exact one_ne_zero hc
          have hm : 0 < min (ε * |x|) 1 := lt_min (mul_pos h (abs_pos.2 hx)) one_pos
          have hs : Real.sin (min (ε * |x|) 1) ≠ 0 :=
            (Real.sin_pos_of_pos_of_lt_pi hm
              ((min_le_right _ _).trans_lt (by linarith [Real.pi_gt_three]))).ne'
          have hsx : Real.sin x ≠ 0 := fun hs => by
            have := Real.sin_sq_add_cos_sq x
            rw [hs, hc] at this
            norm_num at this
          rw [Real.cos_add, hc, zero_mul, zero_sub]
          exact neg_ne_zero.2 (mul_ne_zero hsx hs)
        · exact hc
    deg2rad_err := fun _ => err _
    rad2deg_err := fun _ => err _
    mod_err := fun x => by rw [sub_self, abs_zero]; positivity }

theorem vert_margin : StepMargin vertArray vertStep (1 / 2 ^ 53) (3 / 2) 270 where
  zenith := by norm_num [vertStep]
  azimuth := by norm_num [vertStep, vertArray]
  surface := by norm_num [vertStep, vertArray]
  side := fun k => by
    have e : vertStep.surfaceAzimuth - vertArray.axisAzimuth - 180 * (k : ℝ)
        = 90 * ((3 - 2 * k : ℤ) : ℝ) := by
      simp only [vertStep, vertArray]; push_cast; ring
    have h : (1 : ℝ) ≤ |((3 - 2 * k : ℤ) : ℝ)| := by
      have : (1 : ℤ) ≤ |3 - 2 * k| := Int.one_le_abs (by omega)
      exact_mod_cast this
    rw [e, abs_mul, abs_of_pos (by norm_num : (0 : ℝ) < 90)]
    norm_num at h ⊢
    linarith
  high := by
    have h2 : (4 / 3 : ℝ) ≤ Real.sqrt 2 := Real.le_sqrt_of_sq_le (by norm_num)
    have : cosd vertStep.solarZenith = Real.sqrt 2 / 2 := cosd_45
    rw [this]; linarith
  tilt := by
    have : sind vertStep.surfaceTilt = 1 := sind_90
    rw [this]; norm_num
  plane := by
    have h2 : (4 / 3 : ℝ) ≤ Real.sqrt 2 := Real.le_sqrt_of_sq_le (by norm_num)
    rw [vert_rot, vert_sun]
    unfold frontDotSun
    simp only [cosd_90, sind_90]
    rw [abs_of_pos (by linarith)]
    linarith

/-- Witness for C99: two vertical rows; everything is computed from the angles of sun and rows with
results that are too large by 2 ^ (-53), so that the upper end of the first row is not above its
center.  All coordinates are right up to 1e-10 and all view factors up to
0.002. -/
theorem C99_demo (t : Fin 1) :
    let A := tooLargeTrig (1 / 2 ^ 53) (by norm_num)
    let g := fitStep vertArray vertStep
    let g' := A.fitStep vertArray vertStep
    (g'.row 0).full.b2.x ≠ (g.row 0).full.b2.x ∧
    CoordsNear vertArray g g' (1 / 10 ^ 10) ∧
    ∀ a ∈ surfaces vertArray, ∀ b ∈ surfaces vertArray,
      |vfBetween vertArray (A.vfMatrix (inOrder 24) vertArray g' (isEmptyTs fun _ : Fin 1 => g')) a b
        - vfBetween vertArray (tsVfMatrix vertArray (fun _ : Fin 1 => vertStep) t) a b|
        ≤ 1 / 500 := by
  intro A g g'
  have hrot : g.rot = ⟨90, false⟩ := vert_rot
  have hdeg : g.rot.deg = 90 := by rw [hrot]
  have hal : g.alpha = 3 * Real.pi / 4 := by
    have : g = _ := vert_fit
    rw [this]; exact vert_alpha
  have hlong : ∀ a ∈ surfaces vertArray, (g.coords a).length = 0 ∨ 1 / 2 ≤ (g.coords a).length :=
    vert_half
  have hf : ∀ x, x = (interrowShading vertArray g.alpha g.rot.deg).1 ∨
      x = (interrowShading vertArray g.alpha g.rot.deg).2 → x = 0 ∨ 2 * TOL ≤ x := by
    rw [hdeg, hal, vert_interrow]
    rintro x (rfl | rfl) <;> exact Or.inl rfl
  have b1 : 20 * sineErr (1 / 2 ^ 53) 270 * (3 / 2) ^ 3 ≤ 1 := by norm_num [sineErr]
  have b2 : shadeErr (1 / 2 ^ 53) (trigErr (1 / 2 ^ 53) (3 / 2) 270) 5 (3 / 2) < 1 / 10 ^ 9 := by
    norm_num [shadeErr, grow, trigErr, sineErr]
  have b3 : sceneErr (1 / 2 ^ 53) (trigErr (1 / 2 ^ 53) (3 / 2) 270) 5 (3 / 2) (1 / (3 / 2))
      ≤ 1 / 10 ^ 10 := by
    norm_num [sceneErr, shadeErr, endErr, groundErr, grow, trigErr, sineErr]
  have hd : shadeErr (1 / 2 ^ 53) (trigErr (1 / 2 ^ 53) (3 / 2) 270) 5 (3 / 2) * (3 / 2)
      < vertArray.distance := by
    have : vertArray.distance = 5 := by norm_num [vertArray, ArrayParams.distance]
    rw [this]
    norm_num at b2 ⊢
    linarith
  have hT : shadeErr (1 / 2 ^ 53) (trigErr (1 / 2 ^ 53) (3 / 2) 270) 5 (3 / 2) < TOL :=
    b2.trans (by norm_num [TOL])
  have hn : CoordsNear vertArray g g' (1 / 10 ^ 10) := by
    refine (C99_step (w := 1 / 2) (by norm_num) A vertArray vertStep vert_physicalArray vert_physicalStep
      vert_size vert_margin b1 hd hT hf (by norm_num [vertArray]) hlong ?_).mono b3
    norm_num at b3 ⊢
    linarith
  refine ⟨?_, hn, fun a ha b hb => ?_⟩
  · have e : (g.row 0).full.b2.x = 0 := by
      change vertArray.width / 2 * cosd g.rot.deg + (X_ORIGIN + (0 : ℕ) * vertArray.distance) = 0
      rw [hdeg, cosd_90]
      norm_num [X_ORIGIN]
    have hr : A.rotation vertStep.surfaceAzimuth vertArray.axisAzimuth vertStep.surfaceTilt
        = ⟨90, false⟩ := (C99_rotation (by norm_num) A vertArray vertStep vert_margin).trans vert_rot
    have e' : (g'.row 0).full.b2.x = A.add (A.mul (A.div 2 2) (A.cosd
        (A.rotation vertStep.surfaceAzimuth vertArray.axisAzimuth vertStep.surfaceTilt).deg))
        (A.add X_ORIGIN (A.mul (0 : ℕ) (A.distance vertArray))) := rfl
    have ec : A.cosd 90 = -((1 + 1 / 2 ^ 53) * Real.sin (1 / 2 ^ 53 * (Real.pi / 2))) := by
      change (1 + 1 / 2 ^ 53) * Real.cos ((1 + 1 / 2 ^ 53) * deg2rad 90) = _
      rw [show (1 + 1 / 2 ^ 53) * deg2rad 90 = 1 / 2 ^ 53 * (Real.pi / 2) + Real.pi / 2 by
        unfold deg2rad; ring, Real.cos_add_pi_div_two]
      ring
    have hs : 0 < Real.sin (1 / 2 ^ 53 * (Real.pi / 2)) :=
      Real.sin_pos_of_pos_of_lt_pi (by positivity) (by
        have := Real.pi_pos
        nlinarith)
    have ea : (g'.row 0).full.b2.x = -((1 + 1 / 2 ^ 53) ^ 4 * Real.sin (1 / 2 ^ 53 * (Real.pi / 2))) := by
      rw [e', hr, ec]
      change (1 + 1 / 2 ^ 53) * ((1 + 1 / 2 ^ 53) * ((1 + 1 / 2 ^ 53) * (2 / 2)
        * -((1 + 1 / 2 ^ 53) * Real.sin (1 / 2 ^ 53 * (Real.pi / 2))))
        + (1 + 1 / 2 ^ 53) * (X_ORIGIN + (1 + 1 / 2 ^ 53) * ((0 : ℕ) * _))) = _
      simp only [X_ORIGIN, Nat.cast_zero, zero_mul, mul_zero, add_zero]
      ring
    rw [e, ea]
    exact (neg_neg_of_pos (by positivity)).ne
  · have hc : vertArray.height - vertArray.width / 2 * sind vertStep.surfaceTilt = 1 / 2 := by
      norm_num [vertArray, vertStep, sind_90]
    refine ((C99_view_factors (ε := 1 / 2 ^ 53) (w := 1 / 2) (by norm_num) A (inOrder 24) vertArray
      (fun _ : Fin 1 => vertStep) t vert_physicalArray (fun _ => vert_physicalStep) vert_size
      (fun _ => vert_margin) b1 hd hT (fun _ => hf) (by norm_num [vertArray]) (fun _ => hlong)
      (by rw [inOrder_leaves, vert_count]) (vert_sceneSize _) hc.ge _ rfl
      (by norm_num at b3 ⊢; linarith) (by norm_num [TOL] at b3 ⊢; linarith)
      (by norm_num [TOL] at b3 ⊢; linarith) (by norm_num at b3 ⊢; linarith)
      (by norm_num [TOL] at b3 ⊢; linarith) a ha).1 b hb).trans ?_
    norm_num [entryBound, rowBound, grow, entryMove, sceneErr, shadeErr, endErr, groundErr, trigErr,
      sineErr]

end PVF
