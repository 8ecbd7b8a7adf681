import Verif.Lemmas.AOI
import Mathlib.Algebra.BigOperators.Intervals
import Mathlib.Algebra.BigOperators.Field

/-! # Integration sections of the AOI methods -/

namespace PVF
open Finset

theorem cosd_anti {x y : ℝ} (hx : 0 ≤ x) (hy : y ≤ 180) (h : x ≤ y) : cosd y ≤ cosd x := by
  unfold cosd deg2rad
  have := Real.pi_pos
  apply Real.cos_le_cos_of_nonneg_of_le_pi
  · positivity
  · nlinarith
  · gcongr

theorem vfBand_of_le {x y : ℝ} (hx : 0 ≤ x) (hy : y ≤ 180) (h : x ≤ y) :
    vfBand x y = (cosd x - cosd y) / 2 := by
  unfold vfBand
  rw [abs_of_nonneg (by linarith [cosd_anti hx hy h])]; ring

theorem aoiInterval_pos {n : ℕ} (hn : 0 < n) : 0 < aoiInterval n := by
  unfold aoiInterval; positivity

theorem aoiHigh_eq (n k : ℕ) : aoiHigh n k = aoiLow n (k + 1) := by
  unfold aoiHigh aoiLow; push_cast; ring

theorem aoiLow_nonneg (n k : ℕ) : 0 ≤ aoiLow n k := by unfold aoiLow aoiInterval; positivity

theorem aoiLow_mono {n k l : ℕ} (h : k ≤ l) : aoiLow n k ≤ aoiLow n l := by
  unfold aoiLow aoiInterval
  have : (k : ℝ) ≤ l := by exact_mod_cast h
  gcongr

theorem aoiLow_zero (n : ℕ) : aoiLow n 0 = 0 := by simp [aoiLow]

theorem aoiLow_self {n : ℕ} (hn : 0 < n) : aoiLow n n = 180 := by
  unfold aoiLow aoiInterval
  have : (n : ℝ) ≠ 0 := by exact_mod_cast hn.ne'
  field_simp

theorem aoiLow_le {n k : ℕ} (hk : k ≤ n) : aoiLow n k ≤ 180 := by
  rcases Nat.eq_zero_or_pos n with rfl | hn
  · obtain rfl : k = 0 := by omega
    rw [aoiLow_zero]; norm_num
  · rw [← aoiLow_self hn]; exact aoiLow_mono hk

theorem aoiLow_lt_succ {n k : ℕ} (hn : 0 < n) : aoiLow n k < aoiLow n (k + 1) := by
  rw [← aoiHigh_eq]; unfold aoiHigh; linarith [aoiInterval_pos hn]

theorem aoiMiddle_mem {n k : ℕ} (hk : k < n) : 0 ≤ aoiMiddle n k ∧ aoiMiddle n k ≤ 180 := by
  have h0 := aoiLow_nonneg n k
  have h1 := aoiLow_le (n := n) (k := k + 1) hk
  rw [← aoiHigh_eq] at h1
  have h2 := aoiInterval_pos (n := n) (by omega)
  unfold aoiHigh at h1
  unfold aoiMiddle
  constructor <;> linarith

theorem sectionVf {n k : ℕ} (hk : k < n) :
    vfBand (aoiLow n k) (aoiHigh n k) = (cosd (aoiLow n k) - cosd (aoiLow n (k + 1))) / 2 := by
  rw [aoiHigh_eq, vfBand_of_le (aoiLow_nonneg n k) (aoiLow_le hk) (aoiLow_mono (by omega))]

theorem vfBand_nonneg (x y : ℝ) : 0 ≤ vfBand x y := by unfold vfBand; positivity

theorem sum_sections {n : ℕ} (hn : 0 < n) :
    ∑ k ∈ range n, vfBand (aoiLow n k) (aoiHigh n k) = 1 := by
  rw [sum_congr rfl fun k hk => sectionVf (mem_range.1 hk), ← sum_div,
    sum_range_sub' (fun k => cosd (aoiLow n k)), aoiLow_zero, aoiLow_self hn, cosd_zero, cosd_180]
  norm_num

/-- Nonnegative parts of a telescoping sum cut off at two angles. -/
theorem sum_clip {n : ℕ} (hn : 0 < n) {lo hi : ℝ} (h0 : 0 ≤ lo) (h : lo ≤ hi) (h1 : hi ≤ 180) :
    ∑ k ∈ range n, (cosd (clip (aoiLow n k) lo hi) - cosd (clip (aoiLow n (k + 1)) lo hi)) / 2
      = vfBand lo hi := by
  rw [← sum_div, sum_range_sub' (fun k => cosd (clip (aoiLow n k) lo hi)), aoiLow_zero,
    aoiLow_self hn, vfBand_of_le h0 h1 h]
  unfold clip
  rw [max_eq_right h0, min_eq_left h, max_eq_left (h.trans h1), min_eq_right h1]

theorem wedge_eq {f : ℝ → ℝ} {n : ℕ} {lo hi : ℝ} (h : TOL ≤ hi - lo) :
    vfAoiWedge f n lo hi = ∑ k ∈ range n, open Classical in
      if lo ≤ aoiHigh n k ∧ hi > aoiLow n k then aoiIntegrand f n k else 0 := by
  unfold vfAoiWedge
  have hT : (0 : ℝ) < TOL := by unfold TOL; norm_num
  rw [if_neg (by rw [abs_of_nonneg (by linarith)]; linarith)]

theorem wedge_lower {f : ℝ → ℝ} {c : ℝ} {n : ℕ} (hn : 0 < n) {lo hi : ℝ} (h0 : 0 ≤ lo)
    (h1 : hi ≤ 180) (hT : TOL ≤ hi - lo) (hc : 0 ≤ c) (hf : ∀ x, 0 ≤ x → x ≤ 180 → c ≤ f x) :
    c * vfBand lo hi ≤ vfAoiWedge f n lo hi := by
  classical
  have hT0 : (0 : ℝ) < TOL := by unfold TOL; norm_num
  have hle : lo ≤ hi := by linarith
  rw [wedge_eq hT, ← sum_clip hn h0 hle h1, mul_sum]
  apply sum_le_sum
  intro k hk
  have hk := mem_range.1 hk
  have hm := aoiMiddle_mem hk
  have hlt := aoiLow_lt_succ (k := k) hn
  by_cases hin : lo ≤ aoiHigh n k ∧ hi > aoiLow n k
  · rw [if_pos hin]
    rw [aoiHigh_eq] at hin
    unfold aoiIntegrand
    rw [sectionVf hk]
    have e1 : clip (aoiLow n k) lo hi = max (aoiLow n k) lo := by
      unfold clip; exact min_eq_left (max_le hin.2.le hle)
    have e2 : clip (aoiLow n (k + 1)) lo hi = min (aoiLow n (k + 1)) hi := by
      unfold clip; rw [max_eq_left hin.1]
    have a1 : cosd (clip (aoiLow n k) lo hi) ≤ cosd (aoiLow n k) := by
      rw [e1]; exact cosd_anti (aoiLow_nonneg n k) (max_le (aoiLow_le hk.le) (by linarith))
        (le_max_left _ _)
    have a2 : cosd (aoiLow n (k + 1)) ≤ cosd (clip (aoiLow n (k + 1)) lo hi) := by
      rw [e2]
      exact cosd_anti (le_min (aoiLow_nonneg n _) (by linarith)) (aoiLow_le hk) (min_le_left _ _)
    have a3 : cosd (aoiLow n (k + 1)) ≤ cosd (aoiLow n k) :=
      cosd_anti (aoiLow_nonneg n k) (aoiLow_le hk) hlt.le
    have a4 := hf _ hm.1 hm.2
    calc c * ((cosd (clip (aoiLow n k) lo hi) - cosd (clip (aoiLow n (k + 1)) lo hi)) / 2)
        ≤ c * ((cosd (aoiLow n k) - cosd (aoiLow n (k + 1))) / 2) := by
          apply mul_le_mul_of_nonneg_left _ hc; linarith
      _ ≤ f (aoiMiddle n k) * ((cosd (aoiLow n k) - cosd (aoiLow n (k + 1))) / 2) := by
          apply mul_le_mul_of_nonneg_right a4; linarith
  · rw [if_neg hin]
    rw [aoiHigh_eq] at hin
    have e : clip (aoiLow n k) lo hi = clip (aoiLow n (k + 1)) lo hi := by
      unfold clip
      rcases not_and_or.1 hin with h | h
      · push Not at h
        rw [max_eq_right h.le, max_eq_right (by linarith)]
      · push Not at h
        rw [max_eq_left (by linarith : lo ≤ aoiLow n k), max_eq_left (by linarith : lo ≤ aoiLow n (k+1)),
          min_eq_right h, min_eq_right (by linarith)]
    rw [e]; simp

theorem wedge_upper {f : ℝ → ℝ} {c : ℝ} {n : ℕ} (hn : 0 < n) {lo hi : ℝ} (h0 : 0 ≤ lo)
    (h1 : hi ≤ 180) (hle : lo ≤ hi) (hc : 0 ≤ c)
    (hf : ∀ x, 0 ≤ x → x ≤ 180 → 0 ≤ f x ∧ f x ≤ c) :
    vfAoiWedge f n lo hi
      ≤ c * vfBand (max (lo - 180 / n) 0) (min (hi + 180 / n) 180) := by
  classical
  by_cases hT : TOL ≤ hi - lo
  · have hi0 := aoiInterval_pos hn
    rw [show (180 / n : ℝ) = aoiInterval n from rfl]
    set L := max (lo - aoiInterval n) 0
    set H := min (hi + aoiInterval n) 180
    have hL0 : 0 ≤ L := le_max_right _ _
    have hH1 : H ≤ 180 := min_le_right _ _
    have hLH : L ≤ H := le_min (max_le (by linarith) (by linarith)) (max_le (by linarith) (by norm_num))
    rw [wedge_eq hT, ← sum_clip hn hL0 hLH hH1, mul_sum]
    apply sum_le_sum
    intro k hk
    have hk := mem_range.1 hk
    have hm := aoiMiddle_mem hk
    have hlt := aoiLow_lt_succ (k := k) hn
    have hh : aoiLow n (k + 1) = aoiLow n k + aoiInterval n := by rw [← aoiHigh_eq]; rfl
    have a0 := aoiLow_nonneg n k
    have a1 := aoiLow_le (n := n) (k := k + 1) hk
    by_cases hin : lo ≤ aoiHigh n k ∧ hi > aoiLow n k
    · rw [if_pos hin]
      rw [aoiHigh_eq] at hin
      unfold aoiIntegrand
      rw [sectionVf hk]
      have b1 : L ≤ aoiLow n k := max_le (by linarith [hin.1]) a0
      have b2 : aoiLow n (k + 1) ≤ H := le_min (by linarith [hin.2]) a1
      have e1 : clip (aoiLow n k) L H = aoiLow n k := by
        unfold clip; rw [max_eq_left b1, min_eq_left (by linarith)]
      have e2 : clip (aoiLow n (k + 1)) L H = aoiLow n (k + 1) := by
        unfold clip; rw [max_eq_left (by linarith), min_eq_left b2]
      rw [e1, e2]
      have a3 : cosd (aoiLow n (k + 1)) ≤ cosd (aoiLow n k) := cosd_anti a0 a1 hlt.le
      exact mul_le_mul_of_nonneg_right (hf _ hm.1 hm.2).2 (by linarith)
    · rw [if_neg hin]
      apply mul_nonneg hc
      have : cosd (clip (aoiLow n (k + 1)) L H) ≤ cosd (clip (aoiLow n k) L H) := by
        apply cosd_anti
        · exact le_min (hL0.trans (le_max_right _ _)) (hL0.trans hLH)
        · exact (min_le_right _ _).trans hH1
        · exact min_le_min (max_le_max hlt.le le_rfl) le_rfl
      linarith
  · have : vfAoiWedge f n lo hi = 0 := by
      unfold vfAoiWedge
      rw [if_pos (by rw [abs_of_nonneg (by linarith)]; linarith)]
    rw [this]
    exact mul_nonneg hc (vfBand_nonneg _ _)

end PVF
