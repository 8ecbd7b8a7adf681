import Verif.Lemmas.Wedge
import Verif.Lemmas.RayPoint
import Verif.Spec.Absorbed
import Mathlib.Analysis.SpecialFunctions.Trigonometric.Bounds

/-! # The sections of the AOI methods approximate an integral over directions -/

namespace PVF
open Real MeasureTheory

/-- Angle from the surface (degrees) to angle from the normal (radians). -/
noncomputable def rn (x : ℝ) : ℝ := (x - 90) * (π / 180)

theorem rn_mono {x y : ℝ} (h : x ≤ y) : rn x ≤ rn y := by
  unfold rn; have := pi_pos; gcongr

theorem rn_zero : rn 0 = -(π / 2) := by unfold rn; ring

theorem rn_180 : rn 180 = π / 2 := by unfold rn; ring

theorem rn_inv (x : ℝ) : 90 + rn x * (180 / π) = x := by
  unfold rn; have := pi_pos.ne'; field_simp; ring

theorem sin_rn (x : ℝ) : sin (rn x) = -cosd x := by
  unfold rn cosd deg2rad
  rw [show (x - 90) * (π / 180) = x * π / 180 - π / 2 by ring, sin_sub_pi_div_two]

theorem inv_mem {a : ℝ} (h1 : -(π / 2) ≤ a) (h2 : a ≤ π / 2) :
    90 + a * (180 / π) ∈ Set.Icc (0:ℝ) 180 := by
  have := pi_pos
  have e1 : a * (180 / π) = a / π * 180 := by ring
  have l1 : -(1 / 2) ≤ a / π := by rw [le_div_iff₀ this]; linarith
  have l2 : a / π ≤ 1 / 2 := by rw [div_le_iff₀ this]; linarith
  rw [e1]
  constructor <;> linarith

theorem cont_kept {f : ℝ → ℝ} (hf : ContinuousOn f (Set.Icc 0 180)) {x y : ℝ} (hx : -(π / 2) ≤ x)
    (hxy : x ≤ y) (hy : y ≤ π / 2) :
    IntervalIntegrable (fun a => f (90 + a * (180 / π)) * cos a) volume x y := by
  apply ContinuousOn.intervalIntegrable
  rw [Set.uIcc_of_le hxy]
  apply ContinuousOn.mul
  · refine hf.comp (by fun_prop) fun a ha => inv_mem (hx.trans ha.1) (ha.2.trans hy)
  · exact continuous_cos.continuousOn

/-- Within a part of a section, `f` may be replaced by its value at the middle. -/
theorem part_bound {f : ℝ → ℝ} (hf : ContinuousOn f (Set.Icc 0 180)) {m w x y : ℝ} (hx : 0 ≤ x)
    (hxy : x ≤ y) (hy : y ≤ 180) (hw : ∀ z, x ≤ z → z ≤ y → |f m - f z| ≤ w) :
    |f m * ((cosd x - cosd y) / 2) - 1 / 2 * ∫ a in rn x..rn y, f (90 + a * (180 / π)) * cos a|
      ≤ w * ((cosd x - cosd y) / 2) := by
  have b1 : -(π / 2) ≤ rn x := by rw [← rn_zero]; exact rn_mono hx
  have b2 : rn y ≤ π / 2 := by rw [← rn_180]; exact rn_mono hy
  have b3 := rn_mono hxy
  have hcos : ∫ a in rn x..rn y, cos a = cosd x - cosd y := by
    rw [integral_cos, sin_rn, sin_rn]; ring
  have hi := cont_kept hf b1 b3 b2
  have hic : IntervalIntegrable cos volume (rn x) (rn y) := continuous_cos.intervalIntegrable _ _
  have e : f m * ((cosd x - cosd y) / 2) - 1 / 2 * ∫ a in rn x..rn y, f (90 + a * (180 / π)) * cos a
      = 1 / 2 * ∫ a in rn x..rn y, (f m * cos a - f (90 + a * (180 / π)) * cos a) := by
    rw [intervalIntegral.integral_sub (hic.const_mul _) hi, intervalIntegral.integral_const_mul,
      hcos]; ring
  rw [e, abs_mul, abs_of_pos (by norm_num : (0:ℝ) < 1 / 2)]
  have : |∫ a in rn x..rn y, (f m * cos a - f (90 + a * (180 / π)) * cos a)|
      ≤ ∫ a in rn x..rn y, w * cos a := by
    rw [← Real.norm_eq_abs]
    apply intervalIntegral.norm_integral_le_of_norm_le b3 _ (hic.const_mul _)
    refine Filter.Eventually.of_forall fun a ha => ?_
    rw [Real.norm_eq_abs, ← sub_mul, abs_mul]
    have c0 : 0 ≤ cos a := cos_nonneg_of_mem_Icc ⟨b1.trans ha.1.le, ha.2.trans b2⟩
    rw [abs_of_nonneg c0]
    apply mul_le_mul_of_nonneg_right _ c0
    have hpi := pi_pos
    have k : ∀ u v : ℝ, u ≤ v → 90 + u * (180 / π) ≤ 90 + v * (180 / π) := by
      intro u v huv; gcongr
    have k1 := k _ _ ha.1.le
    have k2 := k _ _ ha.2
    rw [rn_inv] at k1 k2
    exact hw _ k1 k2
  rw [intervalIntegral.integral_const_mul, hcos] at this
  linarith

theorem band_widen {n : ℕ} (hn : 0 < n) {lo hi : ℝ} (h0 : 0 ≤ lo) (h : lo ≤ hi) (h1 : hi ≤ 180) :
    vfBand (max (lo - 180 / n) 0) (min (hi + 180 / n) 180) ≤ vfBand lo hi + π / n := by
  have hn' : (0:ℝ) < n := by exact_mod_cast hn
  have hd : (0:ℝ) ≤ 180 / n := by positivity
  have hpi := pi_pos
  have L1 : max (lo - 180 / n) 0 ≤ lo := max_le (by linarith) h0
  have L2 : lo - 180 / n ≤ max (lo - 180 / n) 0 := le_max_left _ _
  have H1 : hi ≤ min (hi + 180 / n) 180 := le_min (by linarith) h1
  have H2 : min (hi + 180 / n) 180 ≤ hi + 180 / n := min_le_left _ _
  have lip : ∀ x y : ℝ, x ≤ y → y - x ≤ 180 / n → cosd x - cosd y ≤ π / n := by
    intro x y hxy hle
    have := (le_abs_self _).trans (abs_cos_sub_cos_le (x * π / 180) (y * π / 180))
    unfold cosd deg2rad
    refine this.trans ?_
    rw [abs_sub_comm, show y * π / 180 - x * π / 180 = (y - x) * (π / 180) by ring,
      abs_of_nonneg (mul_nonneg (by linarith) (by positivity))]
    calc (y - x) * (π / 180) ≤ 180 / n * (π / 180) := by gcongr
      _ = π / n := by field_simp
  have a1 := lip _ _ L1 (by linarith)
  have a2 := lip _ _ H1 (by linarith)
  rw [vfBand_of_le (le_max_right _ _) (min_le_right _ _) (L1.trans (h.trans H1)),
    vfBand_of_le h0 h1 h]
  linarith

theorem band_small {lo hi : ℝ} (h0 : 0 ≤ lo) (h : lo ≤ hi) (h1 : hi ≤ 180) :
    vfBand lo hi ≤ hi - lo := by
  rw [vfBand_of_le h0 h1 h]
  have := (le_abs_self _).trans (abs_cos_sub_cos_le (lo * π / 180) (hi * π / 180))
  unfold cosd deg2rad
  rw [abs_sub_comm, show hi * π / 180 - lo * π / 180 = (hi - lo) * (π / 180) by ring,
    abs_of_nonneg (mul_nonneg (by linarith) (by have := pi_pos; positivity))] at this
  have hp : π / 180 ≤ 1 := by linarith [pi_le_four]
  nlinarith

/-- The wedge, against the integral over its directions. -/
theorem wedge_integral {f : ℝ → ℝ} {n : ℕ} (hn : 0 < n) {lo hi d w : ℝ} (h0 : 0 ≤ lo) (h : lo ≤ hi)
    (h1 : hi ≤ 180) (hf : ContinuousOn f (Set.Icc 0 180))
    (hd : ∀ x, 0 ≤ x → x ≤ 180 → |f x| ≤ d)
    (hw : ∀ x y : ℝ, 0 ≤ x → x ≤ 180 → 0 ≤ y → y ≤ 180 → |x - y| ≤ 90 / n → |f x - f y| ≤ w) :
    |vfAoiWedge f n lo hi - 1 / 2 * ∫ a in rn lo..rn hi, f (90 + a * (180 / π)) * cos a|
      ≤ w + d * (π / n) + d * TOL := by
  classical
  have hT0 : (0 : ℝ) < TOL := by unfold TOL; norm_num
  have hd0 : 0 ≤ d := (abs_nonneg _).trans (hd 0 le_rfl (by norm_num))
  have hw0 : 0 ≤ w := (abs_nonneg _).trans (hw 0 0 le_rfl (by norm_num) le_rfl (by norm_num)
    (by rw [sub_self, abs_zero]; positivity))
  have hn' : (0:ℝ) < n := by exact_mod_cast hn
  have hpin : 0 ≤ d * (π / n) := by have := pi_pos; positivity
  by_cases hT : TOL ≤ hi - lo
  · have hcl : ∀ k, lo ≤ clip (aoiLow n k) lo hi ∧ clip (aoiLow n k) lo hi ≤ hi := fun k =>
      ⟨le_min (le_max_right _ _) h, min_le_right _ _⟩
    have hclm : ∀ k, clip (aoiLow n k) lo hi ≤ clip (aoiLow n (k + 1)) lo hi := fun k =>
      min_le_min_right _ (max_le_max_right _ (aoiLow_lt_succ hn).le)
    have hsum : ∑ k ∈ Finset.range n, (1 / 2 * ∫ a in rn (clip (aoiLow n k) lo hi)..rn
        (clip (aoiLow n (k + 1)) lo hi), f (90 + a * (180 / π)) * cos a)
        = 1 / 2 * ∫ a in rn lo..rn hi, f (90 + a * (180 / π)) * cos a := by
      rw [← Finset.mul_sum, intervalIntegral.sum_integral_adjacent_intervals
        (a := fun k => rn (clip (aoiLow n k) lo hi))]
      · rw [aoiLow_zero, aoiLow_self hn]
        unfold clip
        rw [max_eq_right h0, min_eq_left h, max_eq_left (h.trans h1), min_eq_right h1]
      · intro k _
        refine cont_kept hf ?_ (rn_mono (hclm k)) ?_
        · rw [← rn_zero]; exact rn_mono (h0.trans (hcl k).1)
        · rw [← rn_180]; exact rn_mono ((hcl _).2.trans h1)
    have hone : ∑ k ∈ Finset.range n, ((if lo ≤ aoiHigh n k ∧ hi > aoiLow n k then
        vfBand (aoiLow n k) (aoiHigh n k) else 0)
        - (cosd (clip (aoiLow n k) lo hi) - cosd (clip (aoiLow n (k + 1)) lo hi)) / 2) ≤ π / n := by
      rw [Finset.sum_sub_distrib, sum_clip hn h0 h h1]
      have hu := wedge_upper (f := fun _ => 1) (c := 1) hn h0 h1 h zero_le_one
        (fun _ _ _ => ⟨zero_le_one, le_rfl⟩)
      rw [wedge_eq hT, one_mul] at hu
      simp only [aoiIntegrand, one_mul] at hu
      have := band_widen hn h0 h h1
      linarith
    have key : ∀ k ∈ Finset.range n,
        |(if lo ≤ aoiHigh n k ∧ hi > aoiLow n k then aoiIntegrand f n k else 0)
          - 1 / 2 * ∫ a in rn (clip (aoiLow n k) lo hi)..rn (clip (aoiLow n (k + 1)) lo hi),
            f (90 + a * (180 / π)) * cos a|
        ≤ d * ((if lo ≤ aoiHigh n k ∧ hi > aoiLow n k then
            vfBand (aoiLow n k) (aoiHigh n k) else 0)
          - (cosd (clip (aoiLow n k) lo hi) - cosd (clip (aoiLow n (k + 1)) lo hi)) / 2)
        + w * ((cosd (clip (aoiLow n k) lo hi) - cosd (clip (aoiLow n (k + 1)) lo hi)) / 2) := by
      intro k hk
      have hk := Finset.mem_range.1 hk
      have hm := aoiMiddle_mem hk
      have hlt := aoiLow_lt_succ (k := k) hn
      by_cases hin : lo ≤ aoiHigh n k ∧ hi > aoiLow n k
      · rw [if_pos hin, if_pos hin]
        rw [aoiHigh_eq] at hin
        unfold aoiIntegrand
        rw [sectionVf hk]
        have e1 : clip (aoiLow n k) lo hi = max (aoiLow n k) lo := by
          unfold clip; exact min_eq_left (max_le hin.2.le h)
        have e2 : clip (aoiLow n (k + 1)) lo hi = min (aoiLow n (k + 1)) hi := by
          unfold clip; rw [max_eq_left hin.1]
        have i1 : aoiLow n k ≤ clip (aoiLow n k) lo hi := by rw [e1]; exact le_max_left _ _
        have i2 : clip (aoiLow n (k + 1)) lo hi ≤ aoiLow n (k + 1) := by
          rw [e2]; exact min_le_left _ _
        have a1 : cosd (clip (aoiLow n k) lo hi) ≤ cosd (aoiLow n k) :=
          cosd_anti (aoiLow_nonneg n k) ((hcl k).2.trans h1) i1
        have a2 : cosd (aoiLow n (k + 1)) ≤ cosd (clip (aoiLow n (k + 1)) lo hi) :=
          cosd_anti (h0.trans (hcl _).1) (aoiLow_le hk) i2
        have pb := part_bound hf (m := aoiMiddle n k) (w := w) (h0.trans (hcl k).1) (hclm k)
          ((hcl _).2.trans h1) (fun z z1 z2 => by
            apply hw _ _ hm.1 hm.2 (by linarith [(hcl k).1]) (by linarith [(hcl (k+1)).2])
            have q1 := i1.trans z1
            have q2 := z2.trans i2
            rw [← aoiHigh_eq] at q2
            unfold aoiHigh at q2
            unfold aoiMiddle
            have : aoiInterval n / 2 = 90 / n := by unfold aoiInterval; ring
            rw [← this, abs_le]
            constructor <;> linarith)
        have dm := hd _ hm.1 hm.2
        set S := (cosd (aoiLow n k) - cosd (aoiLow n (k + 1))) / 2
        set C := (cosd (clip (aoiLow n k) lo hi) - cosd (clip (aoiLow n (k + 1)) lo hi)) / 2
        have hSC : 0 ≤ S - C := by
          have : S - C = ((cosd (aoiLow n k) - cosd (clip (aoiLow n k) lo hi))
            + (cosd (clip (aoiLow n (k + 1)) lo hi) - cosd (aoiLow n (k + 1)))) / 2 := by
            simp only [S, C]; ring
          rw [this]; linarith
        set J := 1 / 2 * ∫ a in rn (clip (aoiLow n k) lo hi)..rn (clip (aoiLow n (k + 1)) lo hi),
            f (90 + a * (180 / π)) * cos a
        have e : f (aoiMiddle n k) * S - J
            = f (aoiMiddle n k) * (S - C) + (f (aoiMiddle n k) * C - J) := by ring
        rw [e]
        refine (abs_add_le _ _).trans (add_le_add ?_ pb)
        rw [abs_mul, abs_of_nonneg hSC]
        exact mul_le_mul_of_nonneg_right dm hSC
      · rw [if_neg hin, if_neg hin]
        rw [aoiHigh_eq] at hin
        have e : clip (aoiLow n k) lo hi = clip (aoiLow n (k + 1)) lo hi := by
          unfold clip
          rcases not_and_or.1 hin with h | h
          · push Not at h
            rw [max_eq_right h.le, max_eq_right (by linarith)]
          · push Not at h
            rw [max_eq_left (by linarith : lo ≤ aoiLow n k),
              max_eq_left (by linarith : lo ≤ aoiLow n (k+1)), min_eq_right h,
              min_eq_right (by linarith)]
        rw [e]; simp
    rw [wedge_eq hT, ← hsum, ← Finset.sum_sub_distrib]
    refine (Finset.abs_sum_le_sum_abs _ _).trans ((Finset.sum_le_sum key).trans ?_)
    rw [Finset.sum_add_distrib, ← Finset.mul_sum, ← Finset.mul_sum, sum_clip hn h0 h h1]
    have hb1 : vfBand lo hi ≤ 1 := by
      rw [vfBand_of_le h0 h1 h]
      unfold cosd
      linarith [cos_le_one (deg2rad lo), neg_one_le_cos (deg2rad hi)]
    have t1 := mul_le_mul_of_nonneg_left hone hd0
    have t2 := mul_le_mul_of_nonneg_left hb1 hw0
    have t3 : 0 ≤ d * TOL := by positivity
    linarith
  · have hz : vfAoiWedge f n lo hi = 0 := by
      unfold vfAoiWedge
      rw [if_pos (by rw [abs_of_nonneg (by linarith)]; linarith)]
    rw [hz]
    have pb : |1 / 2 * ∫ a in rn lo..rn hi, f (90 + a * (180 / π)) * cos a|
        ≤ d * vfBand lo hi := by
      have b1 : -(π / 2) ≤ rn lo := by rw [← rn_zero]; exact rn_mono h0
      have b2 : rn hi ≤ π / 2 := by rw [← rn_180]; exact rn_mono h1
      have b3 := rn_mono h
      have hic : IntervalIntegrable cos volume (rn lo) (rn hi) :=
        continuous_cos.intervalIntegrable _ _
      have hcos : ∫ a in rn lo..rn hi, cos a = cosd lo - cosd hi := by
        rw [integral_cos, sin_rn, sin_rn]; ring
      rw [abs_mul, abs_of_pos (by norm_num : (0:ℝ) < 1 / 2), vfBand_of_le h0 h1 h]
      have : |∫ a in rn lo..rn hi, f (90 + a * (180 / π)) * cos a|
          ≤ ∫ a in rn lo..rn hi, d * cos a := by
        rw [← Real.norm_eq_abs]
        apply intervalIntegral.norm_integral_le_of_norm_le b3 _ (hic.const_mul _)
        refine Filter.Eventually.of_forall fun a ha => ?_
        have q1 := b1.trans ha.1.le
        have q2 := ha.2.trans b2
        have c0 : 0 ≤ cos a := cos_nonneg_of_mem_Icc ⟨q1, q2⟩
        rw [Real.norm_eq_abs, abs_mul, abs_of_nonneg c0]
        obtain ⟨m1, m2⟩ := inv_mem q1 q2
        exact mul_le_mul_of_nonneg_right (hd _ m1 m2) c0
      rw [intervalIntegral.integral_const_mul, hcos] at this
      linarith
    have hb := band_small h0 h h1
    have : d * vfBand lo hi ≤ d * TOL := mul_le_mul_of_nonneg_left (by linarith) hd0
    rw [zero_sub, abs_neg]
    linarith

open Classical in
/-- Directions between two sines, weighted. -/
theorem Between.kept {n : Pt} {Q : Pt → Prop} {s1 s2 : ℝ} (h : Between n Q s1 s2) (f : ℝ → ℝ) :
    keptShare f n Q
      = 1 / 2 * ∫ a in arcsin s1..arcsin s2, f (90 + a * (180 / π)) * cos a := by
  unfold keptShare
  congr 1
  set a1 := arcsin s1 with ha1
  set a2 := arcsin s2 with ha2
  have l1 : -(π / 2) ≤ a1 := neg_pi_div_two_le_arcsin _
  have l2 : a2 ≤ π / 2 := arcsin_le_pi_div_two _
  have l12 : a1 ≤ a2 := monotone_arcsin h.le
  have e1 : sin a1 = s1 := sin_arcsin h.lo (h.le.trans h.hi)
  have e2 : sin a2 = s2 := sin_arcsin (h.lo.trans h.le) h.hi
  have hpi : -(π / 2) ≤ π / 2 := by linarith [pi_pos]
  have hae : ∀ᵐ a ∂(volume : Measure ℝ), a ∉ ({a1, a2, π / 2} : Set ℝ) :=
    Set.Countable.ae_notMem (Set.toFinite _).countable _
  have hc : ∫ a in (-(π / 2))..(π / 2), (if Q (turn n a) then f (90 + a * (180 / π)) * cos a else 0)
      = ∫ a in (-(π / 2))..(π / 2), (Set.Ioc a1 a2).indicator
          (fun a => f (90 + a * (180 / π)) * cos a) a := by
    apply intervalIntegral.integral_congr_ae
    filter_upwards [hae] with a ha hIoc
    rw [Set.uIoc_of_le hpi] at hIoc
    simp only [Set.mem_insert_iff, Set.mem_singleton_iff, not_or] at ha
    obtain ⟨n1, n2, n3⟩ := ha
    have b1 : -(π / 2) < a := hIoc.1
    have b2 : a < π / 2 := lt_of_le_of_ne hIoc.2 n3
    by_cases hq : Q (turn n a)
    · rw [if_pos hq, Set.indicator_of_mem]
      obtain ⟨q1, q2⟩ := h.outside a b1 b2 hq
      constructor
      · apply lt_of_le_of_ne _ (Ne.symm n1)
        rw [ha1]; rw [arcsin_le_iff_le_sin' ⟨b1.le, b2⟩]; exact q1
      · rw [ha2, le_arcsin_iff_sin_le' ⟨b1, b2.le⟩]; exact q2
    · rw [if_neg hq, Set.indicator_of_notMem]
      rintro ⟨q1, q2⟩
      apply hq
      refine h.inside a b1 b2 ?_ ?_
      · rw [← e1]; exact sin_lt_sin_of_lt_of_le_pi_div_two l1 b2.le q1
      · rw [← e2]; exact sin_lt_sin_of_lt_of_le_pi_div_two b1.le l2 (lt_of_le_of_ne q2 n2)
  rw [hc, intervalIntegral.integral_of_le hpi, setIntegral_indicator measurableSet_Ioc,
    Set.inter_eq_right.2 (Set.Ioc_subset_Ioc l1 l2), ← intervalIntegral.integral_of_le l12]

theorem NoWay.kept {n : Pt} {Q : Pt → Prop} (h : NoWay n Q) (f : ℝ → ℝ) : keptShare f n Q = 0 := by
  have hb : Between n Q 0 0 := ⟨by norm_num, le_rfl, by norm_num,
    fun a _ _ h1 h2 => absurd h1 (not_lt.2 h2.le), fun a h1 h2 h3 => absurd h3 (h a h1 h2)⟩
  rw [hb.kept]; simp

/-- Angle from the surface at which a direction with a given sine is seen. -/
noncomputable def seenAt (s : ℝ) : ℝ := 90 + arcsin s * (180 / π)

theorem rn_seenAt (s : ℝ) : rn (seenAt s) = arcsin s := by
  unfold rn seenAt; have := pi_pos.ne'; field_simp; ring

theorem seenAt_mem (s : ℝ) : 0 ≤ seenAt s ∧ seenAt s ≤ 180 :=
  inv_mem (neg_pi_div_two_le_arcsin s) (arcsin_le_pi_div_two s)

theorem seenAt_mono {s1 s2 : ℝ} (h : s1 ≤ s2) : seenAt s1 ≤ seenAt s2 := by
  unfold seenAt
  have := monotone_arcsin h
  have := pi_pos
  gcongr

theorem cosd_seenAt {s : ℝ} (h1 : -1 ≤ s) (h2 : s ≤ 1) : cosd (seenAt s) = -s := by
  have := sin_rn (seenAt s)
  rw [rn_seenAt, sin_arcsin h1 h2] at this
  linarith

theorem angles_ordered {f : ℝ → ℝ} {n : ℕ} {x y : ℝ} (h : x ≤ y) :
    vfAoiAngles f n x y = vfAoiWedge f n x y ∧ vfAoiAngles f n y x = vfAoiWedge f n x y := by
  unfold vfAoiAngles
  rcases eq_or_lt_of_le h with rfl | h'
  · simp
  · simp [h', h'.le.not_gt]

/-- The wedge between two sines, against the light coming from between them. -/
theorem Between.wedge {n : Pt} {Q : Pt → Prop} {s1 s2 : ℝ} (h : Between n Q s1 s2) {f : ℝ → ℝ} {N : ℕ}
    (hN : 0 < N) {d w : ℝ} (hf : ContinuousOn f (Set.Icc 0 180))
    (hd : ∀ x, 0 ≤ x → x ≤ 180 → |f x| ≤ d)
    (hw : ∀ x y : ℝ, 0 ≤ x → x ≤ 180 → 0 ≤ y → y ≤ 180 → |x - y| ≤ 90 / N → |f x - f y| ≤ w) :
    |vfAoiWedge f N (seenAt s1) (seenAt s2) - keptShare f n Q| ≤ w + d * (π / N) + d * TOL := by
  have := wedge_integral hN (seenAt_mem s1).1 (seenAt_mono h.le) (seenAt_mem s2).2 hf hd hw
  rw [rn_seenAt, rn_seenAt, ← h.kept] at this
  exact this

/-- Bounds without continuity. -/
theorem Between.wedge_bounds {n : Pt} {Q : Pt → Prop} {s1 s2 : ℝ} (h : Between n Q s1 s2) {f : ℝ → ℝ}
    {N : ℕ} (hN : 0 < N) {c d : ℝ} (hc : 0 ≤ c)
    (hf : ∀ x, 0 ≤ x → x ≤ 180 → c ≤ f x ∧ f x ≤ d) :
    c * (lightShare n Q - TOL) ≤ vfAoiWedge f N (seenAt s1) (seenAt s2) ∧
      vfAoiWedge f N (seenAt s1) (seenAt s2) ≤ d * (lightShare n Q + π / N) := by
  have hT0 : (0 : ℝ) < TOL := by unfold TOL; norm_num
  have hcd : 0 ≤ d := by have := hf 0 le_rfl (by norm_num); linarith [this.1, this.2]
  have m1 := seenAt_mem s1
  have m2 := seenAt_mem s2
  have hle := seenAt_mono h.le
  have hb : vfBand (seenAt s1) (seenAt s2) = lightShare n Q := by
    rw [vfBand_of_le m1.1 m2.2 hle, h.share, cosd_seenAt h.lo (h.le.trans h.hi),
      cosd_seenAt (h.lo.trans h.le) h.hi]; ring
  constructor
  · by_cases hT : TOL ≤ seenAt s2 - seenAt s1
    · have := wedge_lower hN m1.1 m2.2 hT hc (fun x a b => (hf x a b).1)
      rw [hb] at this
      nlinarith
    · have hz : vfAoiWedge f N (seenAt s1) (seenAt s2) = 0 := by
        unfold vfAoiWedge
        rw [if_pos (by rw [abs_of_nonneg (by linarith)]; linarith)]
      rw [hz]
      have := band_small m1.1 hle m2.2
      rw [hb] at this
      exact mul_nonpos_of_nonneg_of_nonpos hc (by linarith)
  · refine (wedge_upper hN m1.1 m2.2 hle hcd fun x a b => ⟨hc.trans (hf x a b).1, (hf x a b).2⟩).trans ?_
    have := band_widen hN m1.1 hle m2.2
    rw [hb] at this
    exact mul_le_mul_of_nonneg_left this hcd

/-- Mirror images. -/
theorem Between.mir {left : Bool} {n : Pt} {Q Q' : Pt → Prop} {s1 s2 : ℝ}
    (h : Between (mirB left n) Q s1 s2) (hQ : ∀ d, Q' d ↔ Q (mirB left d)) :
    Between n Q' (if left then s1 else -s2) (if left then s2 else -s1) := by
  cases left
  · have e : ∀ a, mirB false (turn n a) = turn (mirB false n) (-a) := by
      intro a
      simp only [turn, mirB, Pt.mir, Bool.false_eq_true, if_false, cos_neg, sin_neg, Pt.mk.injEq]
      constructor <;> ring
    simp only [Bool.false_eq_true, if_false]
    refine ⟨by linarith [h.hi], by linarith [h.le], by linarith [h.lo], ?_, ?_⟩
    · intro a a1 a2 b1 b2
      rw [hQ, e]
      exact h.inside _ (by linarith) (by linarith) (by rw [sin_neg]; linarith)
        (by rw [sin_neg]; linarith)
    · intro a a1 a2 hq
      rw [hQ, e] at hq
      have := h.outside _ (by linarith) (by linarith) hq
      rw [sin_neg] at this
      constructor <;> linarith [this.1, this.2]
  · simp only [if_true]
    have e : Q' = Q := by funext d; exact propext (hQ d)
    rw [e]; exact h

theorem NoWay.mir {left : Bool} {n : Pt} {Q Q' : Pt → Prop}
    (h : NoWay (mirB left n) Q) (hQ : ∀ d, Q' d ↔ Q (mirB left d)) : NoWay n Q' := by
  cases left
  · have e : ∀ a, mirB false (turn n a) = turn (mirB false n) (-a) := by
      intro a
      simp only [turn, mirB, Pt.mir, Bool.false_eq_true, if_false, cos_neg, sin_neg, Pt.mk.injEq]
      constructor <;> ring
    intro a a1 a2 hq
    rw [hQ, e] at hq
    exact h _ (by linarith) (by linarith) hq
  · have e : Q' = Q := by funext d; exact propext (hQ d)
    rw [e]; exact h

end PVF
