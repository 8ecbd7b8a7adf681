import Verif.Lemmas.RoundedIrr

/-!
# Errors of direct and circumsolar light
-/

namespace PVF
namespace LightArith
variable {ε G : ℝ} (h0 : 0 ≤ ε) (A : LightArith ε) {q : IrrParams} {v : IrrIn}
  (hv : LightInput A q v G) (hS : sineErr ε G ≤ 1 / 20)
include h0 hv hS

/-- On which side the sun is, by the computed angle of incidence. -/
theorem side_iff : (A.aoiFront v ≤ 90 → 0 ≤ cosd (A.aoiFront v)) ∧
    (¬ A.aoiFront v ≤ 90 → cosd (A.aoiFront v) < 0) := by
  obtain ⟨⟨a0, a1⟩, -, -, -⟩ := incidence_near h0 A hv hS
  set a := A.aoiFront v
  have hpi := Real.pi_pos
  unfold cosd deg2rad
  constructor
  · intro h
    apply Real.cos_nonneg_of_mem_Icc
    constructor
    · have : 0 ≤ a * Real.pi / 180 := by positivity
      linarith
    · have := mul_le_mul_of_nonneg_right h hpi.le
      linarith
  · intro h
    rw [not_le] at h
    apply Real.cos_neg_of_pi_div_two_lt_of_lt
    · have := mul_lt_mul_of_pos_right h hpi
      linarith
    · have := mul_le_mul_of_nonneg_right a1 hpi.le
      linarith

theorem direct_near :
    let c' := A.directCats q v
    let c := PVF.directCats q v
    let E := sineErr ε G * |v.dni|
    (|c'.groundIllum - c.groundIllum| ≤ 2 * E ∧ |c.groundIllum| ≤ |v.dni|) ∧
    (|c'.groundShaded - c.groundShaded| ≤ 12 * E ∧ |c.groundShaded| ≤ |v.dni|) ∧
    (|c'.frontIllum - c.frontIllum| ≤ 11 * E ∧ |c.frontIllum| ≤ |v.dni|) ∧
    (|c'.frontShaded - c.frontShaded| ≤ 12 * E ∧ |c.frontShaded| ≤ |v.dni|) ∧
    (|c'.backIllum - c.backIllum| ≤ 11 * E ∧ |c.backIllum| ≤ |v.dni|) ∧
    |c'.backShaded - c.backShaded| ≤ 12 * E ∧ |c.backShaded| ≤ |v.dni| := by
  intro c' c E
  obtain ⟨-, hz, hf, hb⟩ := incidence_near h0 A hv hS
  obtain ⟨sf, sb⟩ := side_iff h0 A hv hS
  have h14 := eps_le h0 A hv
  have hG := (abs_nonneg _).trans hv.azimuth
  have hε : ε ≤ 1 / 280 := by linarith
  obtain ⟨-, -, cz⟩ := A.sincosd_near h0 (x := v.solarZenith) (x' := v.solarZenith) (d := 0) (X := 180)
    (G := G) (by simp) hv.zenith (by linarith)
  set N := |v.dni|
  have N0 : 0 ≤ N := abs_nonneg _
  set S := sineErr ε G
  have S0 : 0 ≤ S := by linarith
  have E0 : 0 ≤ E := mul_nonneg S0 N0
  have eN : ε * N ≤ E / 14 := by
    have := mul_le_mul_of_nonneg_right h14 N0
    linarith
  have eE : ε * E ≤ E / 280 := by
    have := mul_le_mul_of_nonneg_right hε E0
    linarith
  have one : ∀ {y' y : ℝ}, |y' - y| ≤ S → |y| ≤ 1 → |A.mul v.dni y' - v.dni * y| ≤ 2 * E := by
    intro y' y h h'
    have := A.toArith.mul_abs h0 (x' := v.dni) (x := v.dni) (a := 0) (by simp) h (le_refl N) h'
    have k : 0 * (1 + S) + N * S + ε * ((N + 0) * (1 + S)) = E + ε * N + ε * E := by ring
    rw [k] at this
    linarith
  have thr : ∀ {x' x : ℝ}, |x' - x| ≤ 11 * E → |x| ≤ N →
      |A.throughModules q x' - PVF.throughModules q x| ≤ 12 * E ∧ |PVF.throughModules q x| ≤ N := by
    intro x' x h h'
    obtain ⟨k1, k2⟩ := through_near h0 A hv hε h h'
    refine ⟨k1.trans ?_, k2⟩
    have : 5 * ε * (N + 11 * E) = 5 * (ε * N) + 55 * (ε * E) := by ring
    rw [this]
    linarith
  have small : ∀ {x : ℝ}, |x| ≤ 1 → |v.dni * x| ≤ N := fun {x} h => by
    rw [_root_.abs_mul]
    have := mul_le_mul_of_nonneg_left h N0
    linarith
  have g1 := one cz (Real.abs_cos_le_one _)
  have hc1 : |PVF.aoiProjection v.surfaceTilt v.surfaceAzimuth v.solarZenith v.solarAzimuth| ≤ 1 :=
    abs_le.2 (aoiProjection_mem _ _ _ _)
  have ef := direct_front q v
  have eb := direct_back q v
  rw [← aoiProjection_eq_dot] at ef eb
  set x := PVF.aoiProjection v.surfaceTilt v.surfaceAzimuth v.solarZenith v.solarAzimuth
  set z := cosd (A.aoiFront v)
  have hz1 : |z| ≤ 1 := Real.abs_cos_le_one _
  have lip : ∀ {y w : ℝ}, |y - w| ≤ 9 * S → |v.dni * max 0 y - v.dni * max 0 w| ≤ 9 * E := by
    intro y w h
    rw [← mul_sub, _root_.abs_mul]
    have k : |max 0 y - max 0 w| ≤ 9 * S := by
      rw [max_comm 0 y, max_comm 0 w]
      exact (abs_max_sub_max_le_abs _ _ _).trans h
    have := mul_le_mul_of_nonneg_left k N0
    have e : N * (9 * S) = 9 * E := by ring
    rw [e] at this
    exact this
  have m1 : ∀ {y : ℝ}, |y| ≤ 1 → |max 0 y| ≤ 1 := fun {y} h => by
    obtain ⟨h1, h2⟩ := abs_le.1 h
    exact abs_le.2 ⟨by linarith [le_max_left 0 y], max_le zero_le_one h2⟩
  have F : |c'.frontIllum - c.frontIllum| ≤ 11 * E ∧ |c.frontIllum| ≤ N := by
    change |c'.frontIllum - (PVF.directCats q v).frontIllum| ≤ _ ∧ |(PVF.directCats q v).frontIllum| ≤ _
    rw [ef]
    refine ⟨?_, small (m1 hc1)⟩
    have k : |c'.frontIllum - v.dni * max 0 z| ≤ 2 * E := by
      change |(if A.aoiFront v ≤ 90 then A.mul v.dni (A.cosd (A.aoiFront v)) else 0) - _| ≤ _
      split_ifs with h
      · rw [max_eq_right (sf h)]; exact one hf hz1
      · rw [max_eq_left (sb h).le]; simp [E0]
    have := lip hz
    have := abs_sub_le c'.frontIllum (v.dni * max 0 z) (v.dni * max 0 x)
    linarith
  have Bk : |c'.backIllum - c.backIllum| ≤ 11 * E ∧ |c.backIllum| ≤ N := by
    change |c'.backIllum - (PVF.directCats q v).backIllum| ≤ _ ∧ |(PVF.directCats q v).backIllum| ≤ _
    rw [eb]
    refine ⟨?_, small (m1 (by rwa [abs_neg]))⟩
    have k : |c'.backIllum - v.dni * max 0 (-z)| ≤ 2 * E := by
      change |(if ¬ A.aoiFront v ≤ 90 then A.mul v.dni (A.cosd (A.aoiBack v)) else 0) - _| ≤ _
      by_cases h : A.aoiFront v ≤ 90
      · rw [if_neg (not_not.2 h), max_eq_left (by linarith [sf h])]; simp [E0]
      · rw [if_pos h, max_eq_right (by linarith [sb h])]
        exact one (by rw [sub_neg_eq_add]; exact hb) (by rwa [abs_neg])
    have := lip (y := -z) (w := -x) (by rw [neg_sub_neg, abs_sub_comm]; exact hz)
    have := abs_sub_le c'.backIllum (v.dni * max 0 (-z)) (v.dni * max 0 (-x))
    linarith
  have Gd : |c'.groundIllum - c.groundIllum| ≤ 2 * E ∧ |c.groundIllum| ≤ N :=
    ⟨g1, small (Real.abs_cos_le_one _)⟩
  exact ⟨Gd, thr (Gd.1.trans (by linarith)) Gd.2, F, thr F.1 F.2, Bk, thr Bk.1 Bk.2⟩

theorem ghi_near :
    |A.ghiUsed v - v.ghiUsed| ≤ 3 * sineErr ε G * (|v.dni| + |v.dhi|) := by
  obtain ⟨⟨g1, g2⟩, -⟩ := direct_near h0 A hv hS
  have h14 := eps_le h0 A hv
  set S := sineErr ε G
  have N0 : 0 ≤ |v.dni| := abs_nonneg _
  have D0 : 0 ≤ |v.dhi| := abs_nonneg _
  have e1 := mul_le_mul_of_nonneg_right h14 N0
  have e2 := mul_le_mul_of_nonneg_right h14 D0
  have S0 : 0 ≤ S := by linarith
  have E0 := mul_nonneg S0 N0
  have F0 := mul_nonneg S0 D0
  have e3 := mul_le_mul_of_nonneg_right (show ε ≤ 1 by linarith) E0
  unfold ghiUsed IrrIn.ghiUsed
  cases v.ghi with
  | some x => simp only [Option.getD_some, sub_self, abs_zero]; positivity
  | none =>
    have := A.toArith.add_abs h0 g1 (y' := v.dhi) (y := v.dhi) (b := 0) (by simp) g2 (le_refl _)
    refine LE.le.trans this ?_
    nlinarith

set_option maxHeartbeats 1600000 in
/-- Circumsolar light, if the one on the front is at most `Kc` times the cosine of the angle of incidence
and the sun is above the horizon by a margin. -/
theorem circumsolar_near {K Kc : ℝ} (Kc0 : 0 ≤ Kc) (hK : 1 ≤ K) (hz : 1 ≤ K * PVF.cosd v.solarZenith)
    (hSK : sineErr ε G * K ≤ 1 / 20)
    (hKc : |v.perez.poaCircumsolar| ≤ Kc
      * |PVF.aoiProjection v.surfaceTilt v.surfaceAzimuth v.solarZenith v.solarAzimuth|) :
    let c' := A.circumsolarCats q v
    let c := PVF.circumsolarCats q v
    let L := |v.perez.luminanceCircumsolar| + Kc
    let E := sineErr ε G * (K ^ 2 * L)
    c'.groundIllum = c.groundIllum ∧ |c.groundIllum| ≤ K * L ∧
    (|c'.groundShaded - c.groundShaded| ≤ 13 * E ∧ |c.groundShaded| ≤ K * L) ∧
    (|c'.frontIllum - c.frontIllum| ≤ 12 * E ∧ |c.frontIllum| ≤ K * L) ∧
    (|c'.frontShaded - c.frontShaded| ≤ 13 * E ∧ |c.frontShaded| ≤ K * L) ∧
    (|c'.backIllum - c.backIllum| ≤ 12 * E ∧ |c.backIllum| ≤ K * L) ∧
    |c'.backShaded - c.backShaded| ≤ 13 * E ∧ |c.backShaded| ≤ K * L := by
  intro c' c L E
  obtain ⟨-, hzz, hf, hb⟩ := incidence_near h0 A hv hS
  obtain ⟨sf, sb⟩ := side_iff h0 A hv hS
  have h14 := eps_le h0 A hv
  have hG := (abs_nonneg _).trans hv.azimuth
  have hε : ε ≤ 1 / 280 := by linarith
  obtain ⟨-, -, cz⟩ := A.sincosd_near h0 (x := v.solarZenith) (x' := v.solarZenith) (d := 0) (X := 180)
    (G := G) (by simp) hv.zenith (by linarith)
  set S := sineErr ε G
  have S0 : 0 ≤ S := by linarith
  have K0 : 0 < K := by linarith
  have hc1 : |PVF.aoiProjection v.surfaceTilt v.surfaceAzimuth v.solarZenith v.solarAzimuth| ≤ 1 :=
    abs_le.2 (aoiProjection_mem _ _ _ _)
  have ai := aoiFront_le_iff v
  have ab := cosd_aoiBack v
  rw [← aoiProjection_eq_dot] at ai ab
  set x := PVF.aoiProjection v.surfaceTilt v.surfaceAzimuth v.solarZenith v.solarAzimuth
  set z := PVF.cosd (A.aoiFront v)
  have hz1 : |z| ≤ 1 := Real.abs_cos_le_one _
  set Λ := v.perez.luminanceCircumsolar
  set P := v.perez.poaCircumsolar
  have Λ0 : 0 ≤ |Λ| := abs_nonneg _
  have L0 : 0 ≤ L := add_nonneg Λ0 Kc0
  have KK : 1 ≤ K ^ 2 := one_le_pow₀ hK
  have KL : K * L ≤ K ^ 2 * L := mul_le_mul_of_nonneg_right (by nlinarith) L0
  have LK : L ≤ K * L := by nlinarith
  have E0 : 0 ≤ E := by positivity
  have eL : ε * (K * L) ≤ E / 14 := by
    have h1 := mul_le_mul_of_nonneg_left KL h0
    have h2 := mul_le_mul_of_nonneg_right h14 (show 0 ≤ K ^ 2 * L by positivity)
    have h3 : E = S * (K ^ 2 * L) := rfl
    linarith
  have eE : ε * E ≤ E / 280 := by
    have := mul_le_mul_of_nonneg_right hε E0
    linarith
  have thr : ∀ {y' y : ℝ}, |y' - y| ≤ 12 * E → |y| ≤ K * L →
      |A.throughModules q y' - PVF.throughModules q y| ≤ 13 * E ∧ |PVF.throughModules q y| ≤ K * L := by
    intro y' y h h'
    obtain ⟨k1, k2⟩ := through_near h0 A hv hε h h'
    refine ⟨k1.trans ?_, k2⟩
    have : 5 * ε * (K * L + 12 * E) = 5 * (ε * (K * L)) + 60 * (ε * E) := by ring
    rw [this]
    linarith
  have Gd : |c.groundIllum| ≤ K * L := (show |Λ| ≤ L by linarith).trans LK
  have Fr : |c'.frontIllum - c.frontIllum| ≤ 12 * E ∧ |c.frontIllum| ≤ K * L := by
    have PL : |P| ≤ L := hKc.trans (by
      have := mul_le_mul_of_nonneg_left hc1 Kc0
      linarith)
    change |(if A.aoiFront v ≤ 90 then P else 0) - (if v.aoiFront ≤ 90 then P else 0)| ≤ _ ∧
      |if v.aoiFront ≤ 90 then P else 0| ≤ _
    have bad : |x| ≤ 9 * S → |P| ≤ 12 * E := fun h => by
      have h1 := mul_le_mul_of_nonneg_left h Kc0
      have h2 : Kc * S ≤ E := by
        change Kc * S ≤ S * (K ^ 2 * L)
        rw [mul_comm]
        refine mul_le_mul_of_nonneg_left ?_ S0
        exact (show Kc ≤ L by linarith).trans (LK.trans KL)
      linarith
    obtain ⟨d1, d2⟩ := abs_le.1 hzz
    constructor
    · by_cases h : A.aoiFront v ≤ 90 <;> by_cases h' : v.aoiFront ≤ 90
      · rw [if_pos h, if_pos h', sub_self, abs_zero]; positivity
      · rw [if_pos h, if_neg h', sub_zero]
        have := sf h
        rw [ai, not_le] at h'
        exact bad (by rw [abs_of_neg h']; linarith)
      · rw [if_neg h, if_pos h', zero_sub, abs_neg]
        have := sb h
        rw [ai] at h'
        exact bad (by rw [abs_of_nonneg h']; linarith)
      · rw [if_neg h, if_neg h', sub_self, abs_zero]; positivity
    · split_ifs
      · exact PL.trans LK
      · rw [abs_zero]; positivity
  have Bk : |c'.backIllum - c.backIllum| ≤ 12 * E ∧ |c.backIllum| ≤ K * L := by
    set y := PVF.cosd v.solarZenith
    set y' := A.cosd v.solarZenith
    have y0 : 0 < y := by
      by_contra hc
      rw [not_lt] at hc
      nlinarith
    have yi : 1 / y ≤ K := by rw [div_le_iff₀ y0]; exact hz
    have eback : c.backIllum = Λ * (max 0 (-x) / y) := by
      change (if ¬ v.aoiFront ≤ 90 then Λ * (PVF.cosd v.aoiBack / y) else 0) = _
      simp only [ai, ab]
      by_cases h : 0 ≤ x
      · rw [if_neg (not_not.2 h), max_eq_left (by linarith), zero_div, mul_zero]
      · rw [if_pos h, max_eq_right (by linarith)]
    have quot : ∀ w : ℝ, |w| ≤ 1 → |w / y| ≤ K := fun w h => by
      rw [abs_div, abs_of_pos y0, div_eq_mul_one_div]
      have := mul_le_mul h yi (by positivity) zero_le_one
      linarith
    have m1 : ∀ {w : ℝ}, |w| ≤ 1 → |max 0 w| ≤ 1 := fun {w} h => by
      obtain ⟨h1, h2⟩ := abs_le.1 h
      exact abs_le.2 ⟨by linarith [le_max_left 0 w], max_le zero_le_one h2⟩
    have SKE : S * K ^ 2 * |Λ| ≤ E := by
      change S * K ^ 2 * |Λ| ≤ S * (K ^ 2 * L)
      rw [mul_assoc]
      exact mul_le_mul_of_nonneg_left (mul_le_mul_of_nonneg_left (by linarith) (by positivity)) S0
    have SK0 : 0 ≤ S * K := by positivity
    have k1 : |c'.backIllum - Λ * (max 0 (-z) / y)| ≤ 3 * (S * K ^ 2) * |Λ| := by
      change |(if ¬ A.aoiFront v ≤ 90 then A.mul Λ (A.div (A.cosd (A.aoiBack v)) y') else 0) - _| ≤ _
      by_cases h : A.aoiFront v ≤ 90
      · rw [if_neg (not_not.2 h), max_eq_left (by linarith [sf h])]
        simp only [zero_div, mul_zero, sub_self, abs_zero]
        positivity
      · rw [if_pos h, max_eq_right (by linarith [sb h])]
        set b := A.cosd (A.aoiBack v)
        obtain ⟨l1, u1⟩ := abs_le.1 cz
        have y1 : 19 / 20 * y ≤ y' := by
          have h1 : S * 1 ≤ S * (K * y) := mul_le_mul_of_nonneg_left hz S0
          have h2 : S * K * y ≤ 1 / 20 * y := mul_le_mul_of_nonneg_right hSK y0.le
          have h3 : y' - y ≥ -S := l1
          linarith
        have y'0 : 0 < y' := by linarith
        have yi' : 1 / y' ≤ 20 / 19 * K := by
          rw [div_le_iff₀ y'0]
          have : K * (19 / 20 * y) ≤ K * y' := mul_le_mul_of_nonneg_left y1 K0.le
          linarith
        have q1 : |b / y' - -z / y| ≤ 20 / 19 * (S * K) + 20 / 19 * (S * K ^ 2) := by
          have e : b / y' - -z / y = (b + z) * (1 / y') + z * (y' - y) * (1 / y) * (1 / y') := by
            field_simp
            ring
          rw [e]
          refine (abs_add_le _ _).trans ?_
          have i1 : |(b + z) * (1 / y')| ≤ 20 / 19 * (S * K) := by
            rw [_root_.abs_mul, abs_of_pos (show 0 < 1 / y' by positivity)]
            have := mul_le_mul hb yi' (by positivity) S0
            linarith
          have i2 : |z * (y' - y) * (1 / y) * (1 / y')| ≤ 20 / 19 * (S * K ^ 2) := by
            rw [_root_.abs_mul, _root_.abs_mul, _root_.abs_mul, abs_of_pos (show 0 < 1 / y' by positivity),
              abs_of_pos (show 0 < 1 / y by positivity)]
            have j1 := mul_le_mul hz1 cz (abs_nonneg _) zero_le_one
            have j2 := mul_le_mul j1 yi (by positivity) (by linarith)
            have j3 := mul_le_mul j2 yi' (by positivity) (by positivity)
            refine LE.le.trans j3 (le_of_eq ?_)
            ring
          linarith
        have SKK : S * K ≤ S * K ^ 2 := mul_le_mul_of_nonneg_left (by nlinarith) S0
        have SKK2 : S * K ^ 2 ≤ 1 / 20 * K := by
          have := mul_le_mul_of_nonneg_right hSK K0.le
          linarith
        have q2 : |b / y' - -z / y| ≤ 40 / 19 * (S * K ^ 2) := by linarith
        have qz := quot (-z) (by rwa [abs_neg])
        have b1 : |b / y'| ≤ K + 40 / 19 * (S * K ^ 2) := by
          have := abs_sub_abs_le_abs_sub (b / y') (-z / y)
          linarith
        have eK : ε * K ≤ S * K ^ 2 / 14 := by
          have := mul_le_mul_of_nonneg_right h14 K0.le
          linarith
        have q3 : |A.div b y' - -z / y| ≤ 5 / 2 * (S * K ^ 2) := by
          have h1 := A.div_err b y'
          have h2 := mul_le_mul_of_nonneg_left b1 h0
          have h3 := mul_le_mul_of_nonneg_left SKK2 h0
          have := abs_sub_le (A.div b y') (b / y') (-z / y)
          linarith
        have := A.toArith.mul_abs h0 (x' := Λ) (x := Λ) (a := 0) (by simp) q3 (le_refl |Λ|) qz
        refine LE.le.trans this ?_
        have h3 := mul_le_mul_of_nonneg_left SKK2 h0
        have h4 : ε * (K + 5 / 2 * (S * K ^ 2)) ≤ 1 / 2 * (S * K ^ 2) := by linarith
        have h5 := mul_le_mul_of_nonneg_left h4 Λ0
        linarith
    have k2 : |Λ * (max 0 (-z) / y) - Λ * (max 0 (-x) / y)| ≤ 9 * (S * K ^ 2) * |Λ| := by
      rw [← mul_sub, ← sub_div, _root_.abs_mul, abs_div, abs_of_pos y0, div_eq_mul_one_div]
      have i1 : |max 0 (-z) - max 0 (-x)| ≤ 9 * S := by
        rw [max_comm 0 (-z), max_comm 0 (-x)]
        refine (abs_max_sub_max_le_abs _ _ _).trans ?_
        rw [neg_sub_neg, abs_sub_comm]
        exact hzz
      have i2 := mul_le_mul i1 yi (by positivity) (by positivity)
      have i3 : 9 * S * K ≤ 9 * (S * K ^ 2) := by
        have := mul_le_mul_of_nonneg_left (show K ≤ K ^ 2 by nlinarith) S0
        linarith
      have := mul_le_mul_of_nonneg_left (i2.trans i3) Λ0
      linarith
    rw [eback]
    constructor
    · have := abs_sub_le c'.backIllum (Λ * (max 0 (-z) / y)) (Λ * (max 0 (-x) / y))
      linarith
    · rw [_root_.abs_mul]
      have h1 := mul_le_mul_of_nonneg_left (quot _ (m1 (by rwa [abs_neg] : |-x| ≤ 1))) Λ0
      have h2 : |Λ| * K ≤ K * L := by
        rw [mul_comm]
        exact mul_le_mul_of_nonneg_left (by linarith) K0.le
      linarith
  exact ⟨rfl, Gd, thr (by change |Λ - Λ| ≤ _; rw [sub_self, abs_zero]; positivity) Gd, Fr,
    thr Fr.1 Fr.2, Bk, thr Bk.1 Bk.2⟩

end LightArith
end PVF
