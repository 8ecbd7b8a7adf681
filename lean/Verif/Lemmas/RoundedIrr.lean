import Verif.Spec.RoundedIrr
import Verif.Lemmas.RoundedTrig
import Verif.Lemmas.RoundedScene
import Verif.Props.Irradiance

/-!
# Errors of the angle of incidence and of light on surfaces
-/

namespace PVF

namespace Arith
variable {ε : ℝ} (h0 : 0 ≤ ε) (A : Arith ε)
include h0

theorem mul_abs {x' x y' y a b X Y : ℝ} (ha : |x' - x| ≤ a) (hb : |y' - y| ≤ b) (hX : |x| ≤ X)
    (hY : |y| ≤ Y) : |A.mul x' y' - x * y| ≤ a * (Y + b) + X * b + ε * ((X + a) * (Y + b)) := by
  have a0 := (abs_nonneg _).trans ha
  have X0 := (abs_nonneg _).trans hX
  have b1 : |x'| ≤ X + a := by
    have := abs_sub_abs_le_abs_sub x' x
    linarith
  have b2 : |y'| ≤ Y + b := by
    have := abs_sub_abs_le_abs_sub y' y
    linarith
  have e : A.mul x' y' - x * y = (A.mul x' y' - x' * y') + ((x' - x) * y' + x * (y' - y)) := by ring
  rw [e]
  refine (abs_add_le _ _).trans ?_
  have m := A.mul_err x' y'
  rw [abs_mul] at m
  have m1 := mul_le_mul_of_nonneg_left (mul_le_mul b1 b2 (abs_nonneg _) (by linarith)) h0
  have t : |(x' - x) * y' + x * (y' - y)| ≤ a * (Y + b) + X * b := by
    refine (abs_add_le _ _).trans ?_
    rw [_root_.abs_mul, _root_.abs_mul]
    exact add_le_add (mul_le_mul ha b2 (abs_nonneg _) a0) (mul_le_mul hX hb (abs_nonneg _) X0)
  linarith

theorem add_abs {x' x y' y a b X Y : ℝ} (ha : |x' - x| ≤ a) (hb : |y' - y| ≤ b) (hX : |x| ≤ X)
    (hY : |y| ≤ Y) : |A.add x' y' - (x + y)| ≤ a + b + ε * (X + Y + a + b) := by
  have e : A.add x' y' - (x + y) = (A.add x' y' - (x' + y')) + ((x' - x) + (y' - y)) := by ring
  have m := A.add_err x' y'
  have s : |x' + y'| ≤ X + Y + a + b := by
    have e : x' + y' = (x' - x) + (y' - y) + (x + y) := by ring
    rw [e]
    refine (abs_add_le _ _).trans ?_
    linarith [abs_add_le (x' - x) (y' - y), abs_add_le x y]
  have := mul_le_mul_of_nonneg_left s h0
  rw [e]
  refine (abs_add_le _ _).trans ?_
  linarith [abs_add_le (x' - x) (y' - y)]

theorem sub_abs {x' x y' y a b X Y : ℝ} (ha : |x' - x| ≤ a) (hb : |y' - y| ≤ b) (hX : |x| ≤ X)
    (hY : |y| ≤ Y) : |A.sub x' y' - (x - y)| ≤ a + b + ε * (X + Y + a + b) := by
  have e : A.sub x' y' - (x - y) = (A.sub x' y' - (x' - y')) + ((x' - x) - (y' - y)) := by ring
  have m := A.sub_err x' y'
  have s : |x' - y'| ≤ X + Y + a + b := by
    have e : x' - y' = ((x' - x) - (y' - y)) + (x - y) := by ring
    rw [e]
    refine (abs_add_le _ _).trans ?_
    linarith [abs_sub (x' - x) (y' - y), abs_sub x y]
  have := mul_le_mul_of_nonneg_left s h0
  rw [e]
  refine (abs_add_le _ _).trans ?_
  linarith [abs_sub (x' - x) (y' - y)]

end Arith

namespace LightArith
variable {ε G : ℝ} (h0 : 0 ≤ ε) (A : LightArith ε) {q : IrrParams} {v : IrrIn}
  (hv : LightInput A q v G) (hS : sineErr ε G ≤ 1 / 20)
include h0 hv hS

omit hS in
theorem eps_le : 14 * ε ≤ sineErr ε G := by
  have hG := (abs_nonneg _).trans hv.azimuth
  unfold sineErr
  have : 0 ≤ ε * (G / 16) := by positivity
  linarith

omit hv in
/-- The computed cosine of the angle of incidence. -/
theorem projection_near (hz : |v.solarZenith| ≤ 180) (htl : |v.surfaceTilt| ≤ 180)
    (haz : |v.solarAzimuth - v.surfaceAzimuth| ≤ G) :
    |A.aoiProjection v.surfaceTilt v.surfaceAzimuth v.solarZenith v.solarAzimuth
      - PVF.aoiProjection v.surfaceTilt v.surfaceAzimuth v.solarZenith v.solarAzimuth|
      ≤ 8 * sineErr ε G := by
  have hG := (abs_nonneg _).trans haz
  have h14 : 14 * ε ≤ sineErr ε G := by
    unfold sineErr
    have : 0 ≤ ε * (G / 16) := by positivity
    linarith
  obtain ⟨-, sz, cz⟩ := A.sincosd_near h0 (x := v.solarZenith) (x' := v.solarZenith) (d := 0) (X := 180)
    (G := G) (by simp) hz (by linarith)
  obtain ⟨-, st, ct⟩ := A.sincosd_near h0 (x := v.surfaceTilt) (x' := v.surfaceTilt) (d := 0) (X := 180)
    (G := G) (by simp) htl (by linarith)
  have e1 : |A.sub v.solarAzimuth v.surfaceAzimuth - (v.solarAzimuth - v.surfaceAzimuth)| ≤ ε * G :=
    (A.sub_err _ _).trans (mul_le_mul_of_nonneg_left haz h0)
  have eG : ε * G ≤ 1 / 100 * G := mul_le_mul_of_nonneg_right (by linarith) hG
  have b1 : |A.sub v.solarAzimuth v.surfaceAzimuth| ≤ 101 / 100 * G := by
    have := abs_sub_abs_le_abs_sub (A.sub v.solarAzimuth v.surfaceAzimuth)
      (v.solarAzimuth - v.surfaceAzimuth)
    linarith [haz]
  obtain ⟨-, -, ca⟩ := A.sincosd_near h0 e1 b1 (G := G) (by linarith)
  set S := sineErr ε G
  have S0 : 0 ≤ S := by linarith
  have m1 := A.toArith.mul_abs h0 ct cz (Real.abs_cos_le_one _) (Real.abs_cos_le_one _)
  have m2 := A.toArith.mul_abs h0 st sz (Real.abs_sin_le_one _) (Real.abs_sin_le_one _)
  have q0 : ∀ {c d : ℝ}, c ≤ d → ε * c ≤ ε * d := fun h => mul_le_mul_of_nonneg_left h h0
  have k1 : S * (1 + S) + 1 * S + ε * ((1 + S) * (1 + S)) ≤ 5 / 2 * S := by
    have := q0 (show (1 + S) * (1 + S) ≤ 3 by nlinarith)
    nlinarith
  have m2' := m2.trans k1
  have m3 := A.toArith.mul_abs h0 m2' ca (X := 1) (by
    rw [_root_.abs_mul]
    exact mul_le_one₀ (Real.abs_sin_le_one _) (abs_nonneg _) (Real.abs_sin_le_one _))
    (Real.abs_cos_le_one _)
  have k2 : 5 / 2 * S * (1 + S) + 1 * S + ε * ((1 + 5 / 2 * S) * (1 + S)) ≤ 4 * S := by
    have := q0 (show (1 + 5 / 2 * S) * (1 + S) ≤ 3 by nlinarith)
    nlinarith
  have m4 := A.toArith.add_abs h0 (m1.trans k1) (m3.trans k2) (X := 1) (Y := 1) (by
    rw [_root_.abs_mul]
    exact mul_le_one₀ (Real.abs_cos_le_one _) (abs_nonneg _) (Real.abs_cos_le_one _)) (by
    rw [_root_.abs_mul, _root_.abs_mul]
    exact mul_le_one₀ (mul_le_one₀ (Real.abs_sin_le_one _) (abs_nonneg _) (Real.abs_sin_le_one _))
      (abs_nonneg _) (Real.abs_cos_le_one _))
  refine m4.trans ?_
  have := q0 (show 1 + 1 + 5 / 2 * S + 4 * S ≤ 3 by linarith)
  linarith

/-- The computed angle of incidence: it is in the range of angles of incidence, its cosine is close to the
exact one, and the computed cosines on both sides are close to that. -/
theorem incidence_near :
    (0 ≤ A.aoiFront v ∧ A.aoiFront v ≤ 182) ∧
    |cosd (A.aoiFront v) - PVF.aoiProjection v.surfaceTilt v.surfaceAzimuth v.solarZenith v.solarAzimuth|
      ≤ 9 * sineErr ε G ∧
    |A.cosd (A.aoiFront v) - cosd (A.aoiFront v)| ≤ sineErr ε G ∧
    |A.cosd (A.aoiBack v) + cosd (A.aoiFront v)| ≤ sineErr ε G := by
  have h14 := eps_le h0 A hv
  have hG := (abs_nonneg _).trans hv.azimuth
  have hp := projection_near h0 A (v := v) hS hv.zenith hv.tilt hv.azimuth
  have hε : ε ≤ 1 / 280 := by linarith
  set c := PVF.aoiProjection v.surfaceTilt v.surfaceAzimuth v.solarZenith v.solarAzimuth
  have hdom := hv.domain
  unfold aoiBack
  set a' := A.aoiFront v with ha'
  unfold aoiFront at ha'
  set c' := A.aoiProjection v.surfaceTilt v.surfaceAzimuth v.solarZenith v.solarAzimuth
  have ht := A.acos_err c' hdom
  set θ := Real.arccos c' with hθ
  have θ0 : 0 ≤ θ := Real.arccos_nonneg _
  have θ1 : θ ≤ Real.pi := Real.arccos_le_pi _
  rw [abs_of_nonneg θ0] at ht
  set t := A.acos c'
  have hpi := Real.pi_pos
  have ha := A.rad2deg_err t
  rw [← ha'] at ha
  have r0 : ∀ {x}, 0 ≤ x → 0 ≤ rad2deg x := fun {x} h => by unfold rad2deg; positivity
  have rθ : rad2deg θ ≤ 180 := by
    unfold rad2deg
    rw [div_le_iff₀ hpi]
    linarith
  have rt : |rad2deg t - rad2deg θ| ≤ ε * rad2deg θ := by
    have e : rad2deg t - rad2deg θ = (t - θ) * (180 / Real.pi) := by unfold rad2deg; ring
    rw [e, _root_.abs_mul, abs_of_pos (by positivity : 0 < 180 / Real.pi)]
    have := mul_le_mul_of_nonneg_right ht (by positivity : 0 ≤ 180 / Real.pi)
    refine this.trans (le_of_eq ?_)
    unfold rad2deg; ring
  have m1 := mul_le_mul_of_nonneg_left rθ h0
  have rθ0 := r0 θ0
  obtain ⟨l1, u1⟩ := abs_le.1 rt
  have m2 := mul_le_mul_of_nonneg_right (show ε ≤ 1 by linarith) rθ0
  have rt0 : 0 ≤ rad2deg t := by linarith
  rw [abs_of_nonneg rt0] at ha
  have rt1 : rad2deg t ≤ 181 := by linarith
  have m3 := mul_le_mul_of_nonneg_left rt1 h0
  have m4 := mul_le_mul_of_nonneg_right (show ε ≤ 1 by linarith) rt0
  obtain ⟨l2, u2⟩ := abs_le.1 ha
  have a0 : 0 ≤ a' := by linarith
  have a1 : a' ≤ 182 := by linarith
  have ad : |a' - rad2deg θ| ≤ ε * 361 := by
    rw [abs_le]
    constructor <;> linarith
  obtain ⟨-, -, cf⟩ := A.sincosd_near h0 (x := a') (x' := a') (d := 0) (X := 182) (G := G) (by simp)
    (by rwa [abs_of_nonneg a0]) (by linarith)
  have hs : |180 - a'| ≤ 180 := by rw [abs_le]; constructor <;> linarith
  have hs' := (A.sub_err 180 a').trans (mul_le_mul_of_nonneg_left hs h0)
  obtain ⟨-, -, cb⟩ := A.sincosd_near h0 (x := 180 - a') (x' := A.sub 180 a') (d := 180) (X := 181)
    (G := G) hs' (by
      have := abs_sub_abs_le_abs_sub (A.sub 180 a') (180 - a')
      linarith) (by linarith)
  refine ⟨⟨a0, a1⟩, ?_, cf, ?_⟩
  · have e : cosd (rad2deg θ) = c' := by
      rw [cosd_rad2deg, hθ, Real.cos_arccos (abs_le.1 hdom).1 (abs_le.1 hdom).2]
    have l : |cosd a' - cosd (rad2deg θ)| ≤ sineErr ε G := by
      refine (cos_lip _ _).trans ?_
      have e : deg2rad a' - deg2rad (rad2deg θ) = deg2rad (a' - rad2deg θ) := by unfold deg2rad; ring
      rw [e, abs_deg2rad]
      have := mul_le_mul ad pi_small (by positivity) (by positivity)
      linarith
    rw [e] at l
    have := abs_sub_le (cosd a') c' c
    linarith
  · have e : cosd (180 - a') = -cosd a' := by
      rw [show (180 : ℝ) - a' = -a' + 180 by ring, cosd_add_180, cosd_neg]
    rw [e, sub_neg_eq_add] at cb
    exact cb

omit hS in
/-- Light that passes the modules. -/
theorem through_near (hε : ε ≤ 1 / 280) {x' x d X : ℝ} (hd : |x' - x| ≤ d) (hX : |x| ≤ X) :
    |A.throughModules q x' - PVF.throughModules q x| ≤ d + 5 * ε * (X + d) ∧ |PVF.throughModules q x| ≤ X := by
  obtain ⟨s0, s1⟩ := hv.spacing
  obtain ⟨t0, t1⟩ := hv.transparency
  have h1 : ε < 1 := by linarith
  set r := q.moduleSpacingRatio
  set t := q.moduleTransparency
  set f := r + (1 - r) * t with hf
  have f0 : 0 ≤ f := by have := mul_nonneg (show 0 ≤ 1 - r by linarith) t0; linarith
  have f1 : f ≤ 1 := by nlinarith
  have ef : ∀ y, PVF.throughModules q y = y * f := fun y => by unfold PVF.throughModules; rw [hf]; ring
  rw [ef]
  have d0 := (abs_nonneg _).trans hd
  have X0 := (abs_nonneg _).trans hX
  have n1 := ((near_self (ε := ε) (le_refl |x'|)).mul h0 h1 (near_self (x := r)
    (abs_of_nonneg s0).le)).round h0 h1 (A.mul_err _ _)
  have n2 := (near_self (ε := ε) (x := 1 - r) (abs_of_nonneg (by linarith)).le).round h0 h1
    (A.sub_err 1 r)
  have n3 := ((near_self (ε := ε) (le_refl |x'|)).mul h0 h1 n2).round h0 h1 (A.mul_err _ _)
  have n4 := (n3.mul h0 h1 (near_self (x := t) (abs_of_nonneg t0).le)).round h0 h1 (A.mul_err _ _)
  have n5 := ((n1.mono h0 h1 (show 0 + 0 + 1 ≤ 0 + (0 + 1) + 1 + 0 + 1 by norm_num)).add h0 h1
    n4).round h0 h1 (A.add_err _ _)
  have n6 := n5.1
  have ex : |x'| ≤ X + d := by
    have := abs_sub_abs_le_abs_sub x' x
    linarith
  have g : grow ε ^ 4 - 1 ≤ 5 * ε := by
    unfold grow
    rw [div_pow, one_pow, sub_le_iff_le_add, div_le_iff₀ (pow_pos (by linarith) 4)]
    have : (1 - ε) ^ 4 ≥ 1 - 4 * ε := by nlinarith [sq_nonneg ε, mul_nonneg h0 (sq_nonneg ε), sq_nonneg (ε ^ 2)]
    nlinarith
  have g0 := grow_pow_one h0 h1 4
  refine ⟨?_, ?_⟩
  · have e : A.throughModules q x' - x * f = (A.throughModules q x' - (x' * r + x' * (1 - r) * t))
        + (x' - x) * f := by rw [hf]; ring
    rw [e]
    refine (abs_add_le _ _).trans ?_
    have k1 : |(x' - x) * f| ≤ d := by
      rw [_root_.abs_mul, abs_of_nonneg f0]
      have := mul_le_mul hd f1 f0 d0
      linarith
    have k2 : (grow ε ^ 4 - 1) * (|x'| * r + |x'| * (1 - r) * t) ≤ 5 * ε * (X + d) := by
      have e : |x'| * r + |x'| * (1 - r) * t = |x'| * f := by rw [hf]; ring
      rw [e]
      refine mul_le_mul g ?_ (by positivity) (by positivity)
      have := mul_le_mul ex f1 f0 (by linarith)
      linarith
    have k3 : |A.throughModules q x' - (x' * r + x' * (1 - r) * t)|
        ≤ (grow ε ^ 4 - 1) * (|x'| * r + |x'| * (1 - r) * t) := n6
    linarith
  · rw [_root_.abs_mul, abs_of_nonneg f0]
    have := mul_le_mul hX f1 f0 X0
    linarith

end LightArith
end PVF
