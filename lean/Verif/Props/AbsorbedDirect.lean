import Verif.Spec.Elevation
import Verif.Props.Irradiance

/-!
# Absorbed direct, circumsolar and horizon light: C68
-/

namespace PVF

/-- There is one such angle only. -/
theorem IsElevation.unique {c x y : ℝ} (hx : IsElevation c x) (hy : IsElevation c y) : x = y := by
  have hpi := Real.pi_pos
  have h : ∀ z, 0 ≤ z → z ≤ 90 → deg2rad z ∈ Set.Icc (-(Real.pi / 2)) (Real.pi / 2) := by
    intro z h0 h1
    unfold deg2rad
    constructor <;> nlinarith
  have e := Real.injOn_sin (h x hx.1 hx.2.1) (h y hy.1 hy.2.1) (hx.2.2.trans hy.2.2.symm)
  unfold deg2rad at e
  have : x * Real.pi = y * Real.pi := by linarith
  exact mul_right_cancel₀ hpi.ne' this

theorem isElevation_front (v : IrrIn) : IsElevation
    (cosIncidence v.surfaceTilt v.surfaceAzimuth v.solarZenith v.solarAzimuth)
    |90 - v.aoiFront| := by
  have hpi := Real.pi_pos
  have h0 : 0 ≤ v.aoiFront := by
    unfold IrrIn.aoiFront aoiFunction rad2deg
    have := Real.arccos_nonneg
      (aoiProjection v.surfaceTilt v.surfaceAzimuth v.solarZenith v.solarAzimuth)
    positivity
  have h1 : v.aoiFront ≤ 180 := by
    unfold IrrIn.aoiFront aoiFunction rad2deg
    rw [div_le_iff₀ hpi]
    have := Real.arccos_le_pi
      (aoiProjection v.surfaceTilt v.surfaceAzimuth v.solarZenith v.solarAzimuth)
    linarith
  refine ⟨abs_nonneg _, abs_le.2 ⟨by linarith, by linarith⟩, ?_⟩
  rw [← cosd_aoiFront]
  have key : ∀ x : ℝ, sind (90 - x) = cosd x := by
    intro x
    unfold sind cosd deg2rad
    rw [show (90 - x) * Real.pi / 180 = Real.pi / 2 - x * Real.pi / 180 by ring,
      Real.sin_pi_div_two_sub]
  rcases le_total v.aoiFront 90 with h | h
  · rw [abs_of_nonneg (by linarith), key, abs_of_nonneg]
    rw [cosd_aoiFront]; exact (aoiFront_le_iff v).1 h
  · rw [abs_of_nonpos (by linarith), sind_neg, key, abs_of_nonpos]
    rcases h.eq_or_lt with h' | h'
    · rw [← h', cosd_90]
    · rw [cosd_aoiFront]
      exact (not_le.1 fun hc => (not_le.2 h') ((aoiFront_le_iff v).2 hc)).le

theorem isElevation_back (v : IrrIn) : IsElevation
    (cosIncidence v.surfaceTilt v.surfaceAzimuth v.solarZenith v.solarAzimuth)
    |90 - v.aoiBack| := by
  have : |90 - v.aoiBack| = |90 - v.aoiFront| := by
    unfold IrrIn.aoiBack
    rw [show 90 - (180 - v.aoiFront) = -(90 - v.aoiFront) by ring, abs_neg]
  rw [this]; exact isElevation_front v

/-- With an fAOI function: what a surface absorbs of direct and circumsolar light is the value of
the fAOI function of its side at the elevation `x` of the sun over the plane of the modules; the
tilt is used for light from the horizon. -/
theorem C68_absorbed (q : IrrParams) (p : ArrayParams) (g : StepGeom) (v : IrrIn) (r k : ℕ)
    (s : RowSide) (sh : Bool) (f : ℝ → ℝ) (hf : q.faoi s = some f) (x : ℝ)
    (hx : IsElevation (cosIncidence v.surfaceTilt v.surfaceAzimuth v.solarZenith v.solarAzimuth) x) :
    (∀ d, (isotropicStep q v).comp (.pv r s k sh) = [d] →
      (isotropicStep q v).compAbs (.pv r s k sh) = [f x * d]) ∧
    (∀ d c h, (hybridPerezStep q p g v).comp (.pv r s k sh) = [d, c, h] →
      (hybridPerezStep q p g v).compAbs (.pv r s k sh) = [f x * d, f x * c, f v.surfaceTilt * h]) := by
  have e1 := (isElevation_front v).unique hx
  have e2 := (isElevation_back v).unique hx
  cases s <;> simp only [IrrParams.faoi] at hf
  · refine ⟨fun d hd => ?_, fun d c h hd => ?_⟩
    · simp only [isotropicStep, List.cons.injEq, and_true] at hd ⊢
      rw [← hd]; simp [faoiDirectOf, faoiDirectFront, hf, e1]
    · simp only [hybridPerezStep, List.cons.injEq, and_true] at hd ⊢
      obtain ⟨rfl, rfl, rfl⟩ := hd
      simp [faoiDirectOf, faoiDirectFront, faoiHorizonFront, horizonAbsOf, horizonOf, hf, e1]
  · refine ⟨fun d hd => ?_, fun d c h hd => ?_⟩
    · simp only [isotropicStep, List.cons.injEq, and_true] at hd ⊢
      rw [← hd]; simp [faoiDirectOf, faoiDirectBack, hf, e2]
    · simp only [hybridPerezStep, List.cons.injEq, and_true] at hd ⊢
      obtain ⟨rfl, rfl, rfl⟩ := hd
      simp [faoiDirectOf, faoiDirectBack, faoiHorizonBack, horizonAbsOf, horizonOf, hf, e2, mul_assoc]

/-- Without an fAOI function, and on the ground: the share that is not reflected. -/
theorem C68_diffuse_losses (q : IrrParams) (p : ArrayParams) (g : StepGeom) (v : IrrIn) :
    (∀ r s k sh, q.faoi s = none →
      (isotropicStep q v).compAbs (.pv r s k sh)
        = ((isotropicStep q v).comp (.pv r s k sh)).map (fun y => (1 - q.rhoSide s) * y) ∧
      (hybridPerezStep q p g v).compAbs (.pv r s k sh)
        = ((hybridPerezStep q p g v).comp (.pv r s k sh)).map (fun y => (1 - q.rhoSide s) * y)) ∧
    (∀ sh e z,
      (isotropicStep q v).compAbs (.gnd sh e z)
        = ((isotropicStep q v).comp (.gnd sh e z)).map (fun y => (1 - v.albedo) * y) ∧
      (hybridPerezStep q p g v).compAbs (.gnd sh e z)
        = ((hybridPerezStep q p g v).comp (.gnd sh e z)).map (fun y => (1 - v.albedo) * y)) := by
  refine ⟨fun r s k sh hs => ?_, fun sh e z => ?_⟩
  · cases s <;> simp only [IrrParams.faoi] at hs <;>
      simp [isotropicStep, hybridPerezStep, faoiDirectOf, faoiDirectFront, faoiDirectBack,
        horizonAbsOf, horizonOf, faoiHorizonFront, faoiHorizonBack, IrrParams.rhoSide, hs, mul_assoc]
  · simp [isotropicStep, hybridPerezStep, faoiDirectOf, horizonAbsOf, horizonOf]

/-- The tilt is the elevation over the plane of the modules of the horizontal direction in which
they face (and of the opposite one), for tilts up to 90 degrees. -/
theorem C68_horizon_angle (tilt azimuth : ℝ) (h0 : 0 ≤ tilt) (h1 : tilt ≤ 90) :
    IsElevation (cosIncidence tilt azimuth 90 azimuth) tilt ∧
      IsElevation (cosIncidence tilt azimuth 90 (azimuth + 180)) tilt := by
  have hs : 0 ≤ sind tilt := by
    rcases h0.eq_or_lt with h | h
    · rw [← h, sind_zero]
    · exact (sind_pos h (by linarith)).le
  rw [← aoiProjection_eq_dot, ← aoiProjection_eq_dot, aoiProjection, aoiProjection, cosd_90, sind_90,
    sub_self, show azimuth + 180 - azimuth = 180 by ring, cosd_180, cosd_zero]
  refine ⟨⟨h0, h1, ?_⟩, ⟨h0, h1, ?_⟩⟩
  · rw [mul_zero, zero_add, mul_one, mul_one, abs_of_nonneg hs]
  · rw [mul_zero, zero_add, mul_one, mul_neg, mul_one, abs_neg, abs_of_nonneg hs]

/-- A concrete case: modules tilted by 60 degrees towards a sun 60 degrees from the zenith.  Light
hits them at a right angle, and the fAOI function is evaluated at 90. -/
theorem C68_demo (q : IrrParams) (v : IrrIn) (f : ℝ → ℝ) (hf : q.faoiFront = some f)
    (ht : v.surfaceTilt = 60) (hz : v.solarZenith = 60) (ha : v.solarAzimuth = v.surfaceAzimuth) :
    (isotropicStep q v).compAbs (.pv 0 .front 0 false) = [f 90 * v.dni] := by
  have hc : cosIncidence v.surfaceTilt v.surfaceAzimuth v.solarZenith v.solarAzimuth = 1 := by
    rw [← aoiProjection_eq_dot, aoiProjection, ht, hz, ha, sub_self, cosd_zero]
    have := cosd_sq_add_sind_sq 60
    nlinarith
  refine (C68_absorbed q ⟨0, 0, 0, 0, 0, fun _ => ⟨none, none⟩⟩ (fitStep ⟨0, 0, 0, 0, 0, fun _ => ⟨none, none⟩⟩ ⟨0, 0, 0, 0⟩)
    v 0 0 .front false f hf 90 ?_).1 v.dni ?_
  · rw [hc]; exact ⟨by norm_num, le_rfl, by rw [sind_90, abs_one]⟩
  · simp [isotropicStep, Cats.get, direct_front, hc]

end PVF
