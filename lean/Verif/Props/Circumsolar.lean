import Verif.Model.Circumsolar
import Verif.Spec.Circumsolar
import Verif.Props.Irradiance
import Mathlib.Analysis.Real.Pi.Bounds
import Mathlib.MeasureTheory.Measure.Lebesgue.Integral
import Mathlib.MeasureTheory.Integral.IntervalIntegral.FundThmCalculus
import Mathlib.Analysis.SpecialFunctions.Integrals.Basic
import Mathlib.Analysis.SpecialFunctions.Trigonometric.InverseDeriv
import Mathlib.Analysis.SpecialFunctions.Gaussian.GaussianIntegral

/-!
# C57: circumsolar shading against areas and integrals
-/

namespace PVF
open Real MeasureTheory

/-! ## Uniform disk -/

/-- Area of the part of the unit disk to the left of `m`. -/
theorem disk_left (m : ℝ) (h0 : -1 ≤ m) (h1 : m ≤ 1) {M : ℝ} (hM : m = 1 → 1 ≤ M) (hM' : m < 1 → M = m) :
    (volume {P : ℝ × ℝ | P.1 ^ 2 + P.2 ^ 2 < 1 ∧ P.1 < M}).toReal
      = m * √(1 - m ^ 2) + arcsin m + π / 2 := by
  have hset : {P : ℝ × ℝ | P.1 ^ 2 + P.2 ^ 2 < 1 ∧ P.1 < M}
      = regionBetween (fun t => -√(1 - t ^ 2)) (fun t => √(1 - t ^ 2)) (Set.Ioo (-1) m) := by
    ext ⟨x, y⟩
    simp only [Set.mem_setOf_eq, regionBetween, Set.mem_Ioo]
    rw [show x ^ 2 + y ^ 2 < 1 ↔ y ^ 2 < 1 - x ^ 2 by constructor <;> intro h <;> linarith,
      Real.sq_lt]
    constructor
    · rintro ⟨⟨a, b⟩, c⟩
      have h3 : 0 < √(1 - x ^ 2) := by linarith
      have h4 := Real.sqrt_pos.1 h3
      refine ⟨⟨by nlinarith, ?_⟩, a, b⟩
      rcases h1.lt_or_eq with h | h
      · rwa [← hM' h]
      · rw [h]; nlinarith
    · rintro ⟨⟨a, b⟩, c, d⟩
      refine ⟨⟨c, d⟩, ?_⟩
      rcases h1.lt_or_eq with h | h
      · rwa [hM' h]
      · have := hM h; linarith
  have hcont : Continuous fun t : ℝ => √(1 - t ^ 2) := by fun_prop
  have hInt : ∀ f : ℝ → ℝ, Continuous f → IntegrableOn f (Set.Ioo (-1) m) := fun f hf =>
    (hf.integrableOn_Icc (a := -1) (b := m)).mono_set Set.Ioo_subset_Icc_self
  rw [hset, Measure.volume_eq_prod]
  rw [volume_regionBetween_eq_integral (hInt (fun t => -√(1 - t ^ 2)) hcont.neg) (hInt _ hcont) measurableSet_Ioo
    (fun x _ => by have := Real.sqrt_nonneg (1 - x ^ 2); linarith)]
  have hI : (∫ y in Set.Ioo (-1) m, ((fun t : ℝ => √(1 - t ^ 2)) - fun t => -√(1 - t ^ 2)) y)
      = m * √(1 - m ^ 2) + arcsin m + π / 2 := by
    rw [← integral_Ioc_eq_integral_Ioo, ← intervalIntegral.integral_of_le h0]
    have hd : ∀ x ∈ Set.Ioo (-1:ℝ) m, HasDerivAt (fun t => t * √(1 - t ^ 2) + arcsin t)
        (((fun t : ℝ => √(1 - t ^ 2)) - fun t => -√(1 - t ^ 2)) x) x := by
      rintro x ⟨a, b⟩
      have b1 : x < 1 := by linarith
      have hpos : 0 < 1 - x ^ 2 := by nlinarith
      have hs := Real.sqrt_pos.2 hpos
      have d1 : HasDerivAt (fun t : ℝ => 1 - t ^ 2) (-(2 * x)) x := by
        simpa using ((hasDerivAt_pow 2 x).const_sub 1)
      have d2 := d1.sqrt hpos.ne'
      have d3 := ((hasDerivAt_id x).mul d2).add (hasDerivAt_arcsin a.ne' b1.ne)
      refine d3.congr_deriv ?_
      simp only [Pi.sub_apply, id_eq, one_mul]
      have hsq := Real.sq_sqrt hpos.le
      field_simp
      linear_combination -(hsq)
    rw [intervalIntegral.integral_eq_sub_of_hasDerivAt_of_le h0
      ((by fun_prop : Continuous fun t : ℝ => t * √(1 - t ^ 2) + arcsin t).continuousOn) hd
      ((hcont.sub hcont.neg).intervalIntegrable _ _)]
    norm_num
  rw [hI, ENNReal.toReal_ofReal]
  rw [← hI]
  apply setIntegral_nonneg measurableSet_Ioo
  intro x _
  have := Real.sqrt_nonneg (1 - x ^ 2)
  simp only [Pi.sub_apply]; linarith

theorem disk_area : (volume {P : ℝ × ℝ | P.1 ^ 2 + P.2 ^ 2 < 1}).toReal = π := by
  have h := disk_left 1 (by norm_num) le_rfl (M := 1) (fun _ => le_rfl) (fun h => absurd h (lt_irrefl _))
  have e : {P : ℝ × ℝ | P.1 ^ 2 + P.2 ^ 2 < 1 ∧ P.1 < 1} = {P : ℝ × ℝ | P.1 ^ 2 + P.2 ^ 2 < 1} := by
    ext ⟨x, y⟩
    simp only [Set.mem_setOf_eq, and_iff_left_iff_imp]
    intro h; nlinarith
  rw [e] at h
  rw [h, arcsin_one]; norm_num

theorem segPct_area {c : ℝ} (h0 : 0 ≤ c) (h1 : c ≤ 2) :
    segPct c = 100 * (((c - 1) * √(1 - (c - 1) ^ 2) + arcsin (c - 1) + π / 2) / π) := by
  unfold segPct
  rw [sin_two_mul, cos_arccos (by linarith) (by linarith), sin_arccos, arccos_eq_pi_div_two_sub_arcsin,
    show 1 - c = -(c - 1) by ring, arcsin_neg]
  have := pi_ne_zero
  rw [neg_sq]
  field_simp
  ring

theorem segPct_compl {c : ℝ} (h0 : 0 ≤ c) (h1 : c ≤ 2) : 100 - segPct (2 - c) = segPct c := by
  rw [segPct_area h0 h1, segPct_area (by linarith) (by linarith), show 2 - c - 1 = -(c - 1) by ring,
    arcsin_neg, neg_sq]
  have := pi_ne_zero
  field_simp
  ring

/-- C57, uniform disk: the shaded percentage is that of the area of the disk, for every argument. -/
theorem C57_uniform_disk (x : ℝ) : uniformDiskShading x = coveredArea x := by
  unfold coveredArea
  rw [disk_area, uniformDiskShading_closed]
  have hpi := pi_ne_zero
  by_cases h0 : x ≤ 0
  · rw [if_pos h0]
    have : {P : ℝ × ℝ | P.1 ^ 2 + P.2 ^ 2 < 1 ∧ P.1 < -1 + 2 * (x / 100)} = ∅ := by
      ext ⟨a, b⟩
      simp only [Set.mem_setOf_eq, Set.mem_empty_iff_false, iff_false, not_and, not_lt]
      intro h
      nlinarith [sq_nonneg b]
    rw [this]; simp
  rw [if_neg h0]
  push Not at h0
  rcases lt_or_ge x 100 with h | h
  · rw [disk_left (-1 + 2 * (x / 100)) (by linarith) (by linarith) (fun e => by linarith) (fun _ => rfl)]
    have key : segPct (x / 50) = 100 * (((-1 + 2 * (x / 100)) * √(1 - (-1 + 2 * (x / 100)) ^ 2)
        + arcsin (-1 + 2 * (x / 100)) + π / 2) / π) := by
      rw [segPct_area (by linarith) (by linarith), show x / 50 - 1 = -1 + 2 * (x / 100) by ring]
    by_cases h2 : x ≤ 50
    · rw [if_pos h2, key]
    · rw [if_neg h2, if_pos h, show (100 - x) / 50 = 2 - x / 50 by ring,
        segPct_compl (by linarith) (by linarith), key]
  · rw [if_neg (by linarith), if_neg (by linarith),
      disk_left 1 (by norm_num) le_rfl (fun _ => by linarith) (fun h => absurd h (lt_irrefl _)),
      arcsin_one]
    norm_num

/-! ## Gaussian -/

theorem bell_scale {σ : ℝ} (hσ : 0 < σ) (a b : ℝ) :
    (∫ t in (σ * a)..(σ * b), exp (-(t / σ) ^ 2 / 2))
      = σ * √2 * ∫ s in (a / √2)..(b / √2), exp (-s ^ 2) := by
  have h2 : (0:ℝ) < √2 := by positivity
  have e1 : (∫ t in (σ * a)..(σ * b), exp (-(t / σ) ^ 2 / 2))
      = ∫ t in (σ * a)..(σ * b), (fun s => exp (-s ^ 2)) (t / (σ * √2)) := by
    apply intervalIntegral.integral_congr
    intro t _
    simp only
    congr 1
    have := Real.sq_sqrt (show (0:ℝ) ≤ 2 by norm_num)
    rw [div_pow, div_pow, mul_pow, this]
    field_simp
  rw [e1, intervalIntegral.integral_comp_div (fun s => exp (-s ^ 2)) (by positivity : σ * √2 ≠ 0)]
  rw [smul_eq_mul]
  congr 2 <;> field_simp

theorem integralDefault (y x : ℝ) :
    integralDefaultGaussian y x = 1 / √π * ∫ s in y..x, exp (-s ^ 2) := by
  unfold integralDefaultGaussian erf
  have hi : ∀ a b, IntervalIntegrable (fun s : ℝ => exp (-s ^ 2)) volume a b := fun a b =>
    (by fun_prop : Continuous fun s : ℝ => exp (-s ^ 2)).intervalIntegrable a b
  have := intervalIntegral.integral_add_adjacent_intervals (hi 0 y) (hi y x)
  rw [← this]
  ring

/-- C57, Gaussian profile: the shaded percentage is that of the light under the bell curve; outside
of 0 to 100 percent, nothing and everything. -/
theorem C57_gaussian {σ : ℝ} (hσ : 0 < σ) :
    (∀ x, 0 ≤ x → x ≤ 100 → gaussianShading x = coveredBell σ x) ∧
    (∀ x ≤ 0, gaussianShading x = 0) ∧ (∀ x, 100 ≤ x → gaussianShading x = 100) := by
  have h2 : (0:ℝ) < √2 := by positivity
  have hpos : ∀ a b : ℝ, a < b → 0 < ∫ s in a..b, exp (-s ^ 2) := fun a b h =>
    intervalIntegral.intervalIntegral_pos_of_pos_on
      ((by fun_prop : Continuous fun s : ℝ => exp (-s ^ 2)).intervalIntegrable a b)
      (fun s _ => exp_pos _) h
  have hb : (-3 : ℝ) / √2 < 3 / √2 := by
    rw [div_lt_div_iff_of_pos_right h2]; norm_num
  have hT := hpos _ _ hb
  have hpi : 0 < √π := Real.sqrt_pos.2 pi_pos
  have key : ∀ x, 0 ≤ x → x ≤ 100 → gaussianShading x
      = 100 * ((∫ s in (-3 / √2)..((-3 + 6 * (x / 100)) / √2), exp (-s ^ 2))
        / ∫ s in (-3 / √2)..(3 / √2), exp (-s ^ 2)) := by
    intro x h0 h1
    unfold gaussianShading
    rw [if_neg (by linarith), if_neg (by linarith)]
    simp only [integralDefault, N_SIGMA, SIGMA, GAUSSIAN_DIAMETER]
    rw [show (-3 : ℝ) * (1 / √2) = -3 / √2 by ring, show (3 : ℝ) * (1 / √2) = 3 / √2 by ring,
      show -3 / √2 + x / 100 * (2 * 3 * (1 / √2)) = (-3 + 6 * (x / 100)) / √2 by ring]
    rw [mul_div_mul_left _ _ (by positivity), mul_comm]
  refine ⟨fun x h0 h1 => ?_, fun x h => ?_, fun x h => ?_⟩
  · rw [key x h0 h1]
    unfold coveredBell
    rw [show -3 * σ = σ * -3 by ring, show 3 * σ = σ * 3 by ring,
      show σ * -3 + 6 * σ * (x / 100) = σ * (-3 + 6 * (x / 100)) by ring, bell_scale hσ, bell_scale hσ,
      mul_div_mul_left _ _ (by positivity)]
  · rcases h.lt_or_eq with h | h
    · unfold gaussianShading; rw [if_pos h]
    · rw [h, key 0 le_rfl (by norm_num)]; simp
  · rcases h.lt_or_eq with h | h
    · unfold gaussianShading; rw [if_neg (by linarith), if_pos h]
    · rw [← h, key 100 (by norm_num) le_rfl, show ((-3:ℝ) + 6 * (100 / 100)) / √2 = 3 / √2 by norm_num,
        div_self hT.ne']
      norm_num

/-- The Gaussian shading lies in [0, 100], grows with the covered part of the diameter, and covering
the rest is complementary; half of the diameter is half of the light. -/
theorem C57_gaussian_range :
    (∀ x, 0 ≤ gaussianShading x ∧ gaussianShading x ≤ 100) ∧
    (∀ x y, x ≤ y → gaussianShading x ≤ gaussianShading y) ∧
    (∀ x, gaussianShading (100 - x) = 100 - gaussianShading x) ∧ gaussianShading 50 = 50 := by
  obtain ⟨hin, hlo, hhi⟩ := C57_gaussian one_pos
  have hcont : Continuous fun t : ℝ => exp (-(t / 1) ^ 2 / 2) := by fun_prop
  have hi : ∀ a b, IntervalIntegrable (fun t : ℝ => exp (-(t / 1) ^ 2 / 2)) volume a b :=
    hcont.intervalIntegrable
  have hT : 0 < ∫ t in (-3 * (1:ℝ))..(3 * 1), exp (-(t / 1) ^ 2 / 2) :=
    intervalIntegral.intervalIntegral_pos_of_pos_on (hi _ _) (fun s _ => exp_pos _) (by norm_num)
  have hmono : ∀ x y, 0 ≤ x → x ≤ y → y ≤ 100 → gaussianShading x ≤ gaussianShading y := by
    intro x y h0 h h1
    rw [hin x h0 (h.trans h1), hin y (h0.trans h) h1]
    unfold coveredBell
    have h3 := intervalIntegral.integral_add_adjacent_intervals
      (hi (-3 * 1) (-3 * 1 + 6 * 1 * (x / 100))) (hi (-3 * 1 + 6 * 1 * (x / 100)) (-3 * 1 + 6 * 1 * (y / 100)))
    have h4 : 0 ≤ ∫ t in (-3 * 1 + 6 * 1 * (x / 100))..(-3 * 1 + 6 * 1 * (y / 100)),
        exp (-(t / 1) ^ 2 / 2) :=
      intervalIntegral.integral_nonneg (by linarith) fun s _ => (exp_pos _).le
    rw [← h3]
    gcongr
    linarith
  have hm : ∀ x y, x ≤ y → gaussianShading x ≤ gaussianShading y := by
    intro x y h
    have e : ∀ z, gaussianShading z = gaussianShading (max 0 (min z 100)) := by
      intro z
      rcases le_or_gt z 0 with h0 | h0
      · rw [max_eq_left ((min_le_left _ _).trans h0), hlo z h0, hlo 0 le_rfl]
      · rcases le_or_gt z 100 with h1 | h1
        · rw [min_eq_left h1, max_eq_right h0.le]
        · rw [min_eq_right h1.le, max_eq_right (by norm_num), hhi z h1.le, hhi 100 le_rfl]
    rw [e x, e y]
    exact hmono _ _ (le_max_left _ _) (max_le_max le_rfl (min_le_min h le_rfl))
      (max_le (by norm_num) (min_le_right _ _))
  have hsym : ∀ x, gaussianShading (100 - x) = 100 - gaussianShading x := by
    intro x
    rcases le_or_gt x 0 with h0 | h0
    · rw [hlo x h0, hhi _ (by linarith)]; norm_num
    rcases le_or_gt 100 x with h1 | h1
    · rw [hhi x h1, hlo _ (by linarith)]; norm_num
    rw [hin x h0.le h1.le, hin _ (by linarith) (by linarith)]
    unfold coveredBell
    have e1 : (∫ t in (-3 * (1:ℝ))..(-3 * 1 + 6 * 1 * ((100 - x) / 100)), exp (-(t / 1) ^ 2 / 2))
        = ∫ t in (-3 * 1 + 6 * 1 * (x / 100))..(3 * (1:ℝ)), exp (-(t / 1) ^ 2 / 2) := by
      have h3 := intervalIntegral.integral_comp_neg (fun t : ℝ => exp (-(t / 1) ^ 2 / 2))
        (a := -3 * (1:ℝ)) (b := -3 * 1 + 6 * 1 * ((100 - x) / 100))
      rw [show -(-3 * 1 + 6 * 1 * ((100 - x) / 100)) = -3 * 1 + 6 * 1 * (x / 100) by ring,
        show -(-3 * (1:ℝ)) = 3 * 1 by ring] at h3
      rw [← h3]
      apply intervalIntegral.integral_congr
      intro t _
      simp only [neg_div, neg_sq]
    have h3 := intervalIntegral.integral_add_adjacent_intervals
      (hi (-3 * 1) (-3 * 1 + 6 * 1 * (x / 100))) (hi (-3 * 1 + 6 * 1 * (x / 100)) (3 * 1))
    rw [e1]
    have h5 : (∫ t in (-3 * 1 + 6 * 1 * (x / 100))..(3 * (1:ℝ)), exp (-(t / 1) ^ 2 / 2))
        = (∫ t in (-3 * (1:ℝ))..(3 * 1), exp (-(t / 1) ^ 2 / 2))
          - ∫ t in (-3 * (1:ℝ))..(-3 * 1 + 6 * 1 * (x / 100)), exp (-(t / 1) ^ 2 / 2) := by linarith
    rw [h5, sub_div, div_self hT.ne']
    ring
  refine ⟨fun x => ⟨?_, ?_⟩, hm, hsym, ?_⟩
  · rcases le_or_gt x 0 with h | h
    · rw [hlo x h]
    · rw [← hlo 0 le_rfl]; exact hm _ _ h.le
  · rcases le_or_gt 100 x with h | h
    · rw [hhi x h]
    · rw [← hhi 100 le_rfl]; exact hm _ _ h.le
  · have := hsym 50
    norm_num at this
    linarith

/-- The function `gaussian` of the package is a probability density. -/
theorem C57_gaussian_density (mu : ℝ) {sigma : ℝ} (h : 0 < sigma) :
    (∀ x, 0 < gaussianDensity x mu sigma) ∧ ∫ x, gaussianDensity x mu sigma = 1 := by
  have hpi := pi_pos
  refine ⟨fun x => by unfold gaussianDensity; positivity, ?_⟩
  unfold gaussianDensity
  rw [integral_const_mul]
  have e : (∫ x, exp (-0.5 * ((x - mu) / sigma) ^ 2)) = ∫ x, exp (-(1 / (2 * sigma ^ 2)) * (x - mu) ^ 2) := by
    congr 1; funext x; congr 1; field_simp; ring
  rw [e, integral_sub_right_eq_self (fun x => exp (-(1 / (2 * sigma ^ 2)) * x ^ 2)), integral_gaussian]
  have e2 : π / (1 / (2 * sigma ^ 2)) = sigma ^ 2 * (2 * π) := by field_simp
  have e3 : √(sigma ^ 2 * (2 * π)) = sigma * √(2 * π) := by
    rw [Real.sqrt_mul (sq_nonneg _), Real.sqrt_sq h.le]
  rw [e2, e3]
  have : 0 < √(2 * π) := by positivity
  field_simp

/-! ## Selection of the model, shading by the neighbouring row -/

/-- Exactly the two documented names select a model; anything else raises an error. -/
theorem C57_model (x : ℝ) :
    circumsolarShading x "uniform_disk" = some (coveredArea x) ∧
    (0 ≤ x → x ≤ 100 → circumsolarShading x "gaussian" = some (coveredBell 1 x)) ∧
    ∀ m, m ≠ "uniform_disk" → m ≠ "gaussian" → circumsolarShading x m = none := by
  refine ⟨?_, fun h0 h1 => ?_, fun m h1 h2 => ?_⟩
  · unfold circumsolarShading; rw [if_pos rfl, C57_uniform_disk]
  · unfold circumsolarShading
    rw [if_neg (by decide), if_pos rfl, (C57_gaussian one_pos).1 x h0 h1]
  · unfold circumsolarShading; rw [if_neg h1, if_neg h2]

/-- Shading of the circumsolar disk by a neighbouring row, with `A` the elevation of the highest
point of that row and `E` the elevation of the sun, in degrees: nothing if the row ends below the
disk, all if it reaches above the disk, half if the sun is behind its edge, and never less for
a higher row or a lower sun. -/
theorem C57_neighbour {angle : ℝ} (hang : 0 < angle) {model : String}
    (hm : model = "uniform_disk" ∨ model = "gaussian") :
    ∃ f : ℝ → ℝ,
      (∀ (X : Pt) (i : ℕ) (high : ℕ → Pt) (sun : Pt),
        circumsolarShadingPct angle model X (some i) high sun
          = some (f (rad2deg |arctan (((high i).y - X.y) / ((high i).x - X.x))|
            - rad2deg |arctan (sun.y / sun.x)|))) ∧
      (∀ a, 0 ≤ f a ∧ f a ≤ 100) ∧ (∀ a b, a ≤ b → f a ≤ f b) ∧
      (∀ a ≤ -(angle / 2), f a = 0) ∧ (∀ a, angle / 2 ≤ a → f a = 100) ∧ f 0 = 50 := by
  obtain ⟨F, hF, hr, hmono, h0, h1, h50⟩ : ∃ F : ℝ → ℝ,
      (∀ x, circumsolarShading x model = some (F x)) ∧ (∀ x, 0 ≤ F x ∧ F x ≤ 100) ∧
      (∀ x y, x ≤ y → F x ≤ F y) ∧ (∀ x ≤ 0, F x = 0) ∧ (∀ x, 100 ≤ x → F x = 100) ∧ F 50 = 50 := by
    rcases hm with rfl | rfl
    · obtain ⟨a, b, c, d, e, f⟩ := C35_uniform_disk
      refine ⟨uniformDiskShading, fun x => by unfold circumsolarShading; rw [if_pos rfl], a, b, ?_, ?_, e⟩
      · intro x h; exact le_antisymm (d ▸ b x 0 h) (a x).1
      · intro x h; exact le_antisymm (a x).2 (f ▸ b 100 x h)
    · obtain ⟨a, b, c, d⟩ := C57_gaussian_range
      obtain ⟨_, e, f⟩ := C57_gaussian one_pos
      exact ⟨gaussianShading,
        fun x => by unfold circumsolarShading; rw [if_neg (by decide), if_pos rfl], a, b, e, f, d⟩
  refine ⟨fun a => F ((a + angle / 2) / angle * 100), ?_, fun a => hr _, fun a b h => ?_,
    fun a h => ?_, fun a h => ?_, ?_⟩
  · intro X i high sun
    unfold circumsolarShadingPct
    simp only [hF, Option.some.injEq]
    congr 2
    unfold rad2deg
    congr 1
    ring
  · exact hmono _ _ (by gcongr)
  · apply h0
    have : (a + angle / 2) / angle ≤ 0 := div_nonpos_of_nonpos_of_nonneg (by linarith) hang.le
    linarith
  · apply h1
    have : 1 ≤ (a + angle / 2) / angle := by rw [le_div_iff₀ hang]; linarith
    linarith
  · have : (0 + angle / 2) / angle * 100 = 50 := by field_simp; ring
    simp only [this, h50]

/-- Without a neighbouring row, which the documentation allows, the call fails. -/
theorem C57_no_neighbour (angle : ℝ) (model : String) (X : Pt) (high : ℕ → Pt) (sun : Pt) :
    circumsolarShadingPct angle model X none high sun = none := rfl

/-- A concrete case: the sun at 45 degrees, exactly behind the edge of a row 5 m away and 5 m
higher; and a disk covered to a quarter of its diameter is covered to less than a quarter. -/
theorem C57_demo :
    circumsolarShadingPct 30 "gaussian" ⟨0, 1⟩ (some 1) (fun i => ⟨5 * i, 6⟩) ⟨1, 1⟩ = some 50 ∧
    uniformDiskShading 25 < 25 := by
  constructor
  · obtain ⟨f, h, _, _, _, _, h0⟩ := C57_neighbour (angle := 30) (by norm_num) (Or.inr (rfl : "gaussian" = _))
    rw [h]
    norm_num [h0]
  · rw [uniformDiskShading_closed]
    norm_num
    unfold segPct
    have h3 : arccos (1 / 2) = π / 3 := by
      rw [← cos_pi_div_three, arccos_cos (by positivity) (by linarith [pi_pos])]
    rw [show (1 - 1 / 2 : ℝ) = 1 / 2 by norm_num, h3]
    have h4 : sin (2 * (π / 3)) = √3 / 2 := by
      rw [show 2 * (π / 3) = π - π / 3 by ring, sin_pi_sub, sin_pi_div_three]
    rw [h4]
    have hpi := pi_pos
    rw [div_mul_eq_mul_div, div_lt_iff₀ hpi]
    have h5 : (17:ℝ) / 10 < √3 := by
      rw [Real.lt_sqrt (by norm_num)]; norm_num
    have h6 := pi_lt_d2
    nlinarith

end PVF
