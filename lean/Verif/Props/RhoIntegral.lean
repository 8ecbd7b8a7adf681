import Verif.Lemmas.WedgeIntegral
import Verif.Props.AOI
import Mathlib.Topology.UniformSpace.HeineCantor

/-!
# C31: the reflectivity from a fAOI function is that of light from all directions
-/

namespace PVF
open Real MeasureTheory

/-- C31 (meaning).  For a continuous fAOI function, `rho_from_faoi_fn` is the reflected share of light
that comes from all directions alike, with an error of at most the change of the function over half a
section. -/
theorem C31_integral {f : ℝ → ℝ} {N : ℕ} (hN : 0 < N) (n : Pt) {w : ℝ}
    (hf : ContinuousOn f (Set.Icc 0 180))
    (hw : ∀ x y : ℝ, 0 ≤ x → x ≤ 180 → 0 ≤ y → y ≤ 180 → |x - y| ≤ 90 / N → |f x - f y| ≤ w) :
    |rhoFromFaoi f N - (1 - keptShare f n fun _ => True)| ≤ w := by
  have hN' : (0:ℝ) < N := by exact_mod_cast hN
  have hl : ∀ k : ℕ, aoiLow N k = 180 * (k / N) := fun k => by unfold aoiLow aoiInterval; ring
  have hlow : ∀ k ≤ N, 0 ≤ aoiLow N k ∧ aoiLow N k ≤ 180 := by
    intro k hk
    rw [hl]
    have h1 : (k : ℝ) / N ≤ 1 := (div_le_one hN').2 (by exact_mod_cast hk)
    have h2 : 0 ≤ (k : ℝ) / N := by positivity
    constructor <;> linarith
  have hhigh : ∀ k, aoiHigh N k = aoiLow N (k + 1) := fun k => by
    unfold aoiHigh aoiLow; push_cast; ring
  have hle : ∀ k, aoiLow N k ≤ aoiLow N (k + 1) := fun k => by
    rw [hl, hl]; gcongr; exact_mod_cast Nat.le_succ k
  have hk : keptShare f n (fun _ => True)
      = ∑ k ∈ Finset.range N, 1 / 2 * ∫ a in rn (aoiLow N k)..rn (aoiLow N (k + 1)),
          f (90 + a * (180 / π)) * cos a := by
    unfold keptShare
    simp only [if_true]
    rw [← Finset.mul_sum, intervalIntegral.sum_integral_adjacent_intervals
      (a := fun k => rn (aoiLow N k))]
    · rw [hl 0, hl N, div_self hN'.ne', Nat.cast_zero, zero_div, mul_zero, mul_one, rn_zero, rn_180]
    · intro k hk
      refine cont_kept hf ?_ (rn_mono (hle k)) ?_
      · rw [← rn_zero]; exact rn_mono (hlow k hk.le).1
      · rw [← rn_180]; exact rn_mono (hlow (k + 1) hk).2
  have e : rhoFromFaoi f N - (1 - keptShare f n fun _ => True)
      = -∑ k ∈ Finset.range N, (f (aoiMiddle N k) * ((cosd (aoiLow N k) - cosd (aoiLow N (k + 1))) / 2)
        - 1 / 2 * ∫ a in rn (aoiLow N k)..rn (aoiLow N (k + 1)), f (90 + a * (180 / π)) * cos a) := by
    rw [hk, Finset.sum_sub_distrib]
    have : ∑ k ∈ Finset.range N, aoiIntegrand f N k = ∑ k ∈ Finset.range N,
        f (aoiMiddle N k) * ((cosd (aoiLow N k) - cosd (aoiLow N (k + 1))) / 2) := by
      refine Finset.sum_congr rfl fun k hk => ?_
      have hk := Finset.mem_range.1 hk
      rw [aoiIntegrand, hhigh, vfBand_of_le (hlow k hk.le).1 (hlow (k + 1) hk).2 (hle k)]
    rw [rhoFromFaoi, this]
    ring
  rw [e, abs_neg]
  refine (Finset.abs_sum_le_sum_abs _ _).trans ?_
  have h1 : ∑ k ∈ Finset.range N, w * ((cosd (aoiLow N k) - cosd (aoiLow N (k + 1))) / 2) = w := by
    rw [← Finset.mul_sum, ← Finset.sum_div, Finset.sum_range_sub' (fun k => cosd (aoiLow N k)), hl 0,
      hl N, div_self hN'.ne']
    simp [cosd, deg2rad]
  refine le_of_le_of_eq (Finset.sum_le_sum fun k hk => ?_) h1
  have hk := Finset.mem_range.1 hk
  refine part_bound hf (hlow k hk.le).1 (hle k) (hlow (k + 1) hk).2 fun z h1 h2 => ?_
  have hm := aoiMiddle_mem hk
  refine hw _ _ hm.1 hm.2 ((hlow k hk.le).1.trans h1) (h2.trans (hlow (k + 1) hk).2) ?_
  have e1 : aoiLow N (k + 1) = aoiLow N k + 180 / N := by
    rw [← hhigh]; rfl
  have e2 : aoiMiddle N k = aoiLow N k + 90 / N := by
    unfold aoiMiddle aoiInterval; ring
  have e3 : (180 : ℝ) / N = 90 / N + 90 / N := by ring
  rw [e2, abs_le]
  constructor <;> linarith

/-- C31 (limit).  With more and more sections the reflectivity tends to that value. -/
theorem C31_limit {f : ℝ → ℝ} (n : Pt) (hf : ContinuousOn f (Set.Icc 0 180)) :
    Filter.Tendsto (rhoFromFaoi f) Filter.atTop (nhds (1 - keptShare f n fun _ => True)) := by
  have hu := isCompact_Icc.uniformContinuousOn_of_continuous hf
  rw [Metric.tendsto_atTop]
  intro ε hε
  obtain ⟨δ, hδ, h⟩ := Metric.uniformContinuousOn_iff.1 hu (ε / 2) (by linarith)
  obtain ⟨M, hM⟩ := exists_nat_gt (90 / δ)
  refine ⟨M + 1, fun N hN => ?_⟩
  have hN0 : 0 < N := by omega
  have hN' : (0:ℝ) < N := by exact_mod_cast hN0
  have hlt : 90 / (N : ℝ) < δ := by
    rw [div_lt_iff₀ hN', mul_comm, ← div_lt_iff₀ hδ]
    exact hM.trans_le (by exact_mod_cast (by omega : M ≤ N))
  rw [Real.dist_eq]
  refine (C31_integral hN0 n hf (w := ε / 2) fun x y hx hx' hy hy' hxy => ?_).trans_lt (by linarith)
  have := h x ⟨hx, hx'⟩ y ⟨hy, hy'⟩ (by rw [Real.dist_eq]; exact hxy.trans_lt hlt)
  rw [Real.dist_eq] at this
  exact this.le

/-- A case for C31: if the transmitted fraction is the sine of the angle from the surface, the
reflectivity tends to `1 - π / 4`. -/
theorem C31_limit_demo : Filter.Tendsto (rhoFromFaoi sind) Filter.atTop (nhds (1 - π / 4)) := by
  have h := C31_limit (f := sind) ⟨0, 1⟩ (Continuous.continuousOn (by unfold sind deg2rad; fun_prop))
  convert h using 3
  unfold keptShare
  simp only [if_true]
  have e : ∀ a : ℝ, sind (90 + a * (180 / π)) * cos a = cos a ^ 2 := by
    intro a
    unfold sind deg2rad
    rw [show (90 + a * (180 / π)) * π / 180 = a + π / 2 by field_simp [pi_pos.ne']; ring,
      sin_add_pi_div_two]
    ring
  simp only [e, integral_cos_sq, cos_pi_div_two, sin_pi_div_two, cos_neg, sin_neg]
  ring

end PVF
