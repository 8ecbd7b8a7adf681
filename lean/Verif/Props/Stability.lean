import Verif.Props.Bounces

/-!
# C80: small errors in the inputs and in solving the system stay small
-/

namespace PVF

variable {ι : Type*} [Fintype ι]

section
variable {p : ArrayParams} {F : ℕ → ℕ → ℝ} {rho : SurfRef → ℝ} {r ε : ℝ}

/-- A function that changes by at most `ε` plus its reflected average is at most `ε / (1 - r)`. -/
theorem le_of_reflected (hF : ViewFactorsOk p F) (hr0 : ∀ a ∈ surfaces p, 0 ≤ rho a)
    (hr : ∀ a ∈ surfaces p, rho a ≤ r) (hr1 : r < 1) (x : SurfRef → ℝ)
    (hx : ∀ a ∈ surfaces p, |x a - ∑ b ∈ surfaces p, vfBetween p F a b * (rho b * x b)| ≤ ε) :
    ∀ a ∈ surfaces p, |x a| ≤ ε / (1 - r) := by
  obtain ⟨m, hm, hmax⟩ := (surfaces p).exists_max_image (fun a => |x a|) (surfaces_nonempty p)
  have hsum : |∑ b ∈ surfaces p, vfBetween p F m b * (rho b * x b)| ≤ r * |x m| := by
    have hr' : 0 ≤ r := (hr0 m hm).trans (hr m hm)
    calc |∑ b ∈ surfaces p, vfBetween p F m b * (rho b * x b)|
        ≤ ∑ b ∈ surfaces p, |vfBetween p F m b * (rho b * x b)| := Finset.abs_sum_le_sum_abs _ _
      _ ≤ ∑ b ∈ surfaces p, vfBetween p F m b * (r * |x m|) := by
          refine Finset.sum_le_sum fun b hb => ?_
          rw [abs_mul, abs_mul, abs_of_nonneg (hF.nonneg m hm b hb), abs_of_nonneg (hr0 b hb)]
          exact mul_le_mul_of_nonneg_left
            (mul_le_mul (hr b hb) (hmax b hb) (abs_nonneg _) hr') (hF.nonneg m hm b hb)
      _ = (∑ b ∈ surfaces p, vfBetween p F m b) * (r * |x m|) := by rw [Finset.sum_mul]
      _ ≤ 1 * (r * |x m|) := by
          refine mul_le_mul_of_nonneg_right ?_ (by positivity)
          have := hF.sum_le m hm
          have := hF.nonneg_sky m hm
          linarith
      _ = r * |x m| := one_mul _
  have h1 : |x m| ≤ ε + r * |x m| := by
    have := abs_add_le (x m - ∑ b ∈ surfaces p, vfBetween p F m b * (rho b * x b))
      (∑ b ∈ surfaces p, vfBetween p F m b * (rho b * x b))
    rw [sub_add_cancel] at this
    linarith [hx m hm]
  intro a ha
  rw [le_div_iff₀ (by linarith)]
  have := hmax a ha
  nlinarith

end

/-- C80 (solving).  Any values that satisfy the balance of light at each surface up to `ε` are within
`ε / (1 - r)` of the incident irradiance that full mode returns, if no reflectivity is above `r`. -/
theorem C80_approximate (p : ArrayParams) (u : ι → StepIn) (s : ι → IrrStep)
    (aoi : ι → Option (List Asg)) (o : ι → FullOut) (h : runFullMode p u s aoi = some o)
    (hs : ∀ t, InverseOk p (s t)) (hr : ∀ t, ReflectivitiesOk p (s t)) (hp : PhysicalArray p)
    (t : ι) (hu : PhysicalStep p (u t)) (r ε : ℝ) (hrr : ∀ a ∈ surfaces p, (s t).rho a ≤ r)
    (hr1 : r < 1) (x : SurfRef → ℝ)
    (hx : ∀ a ∈ surfaces p, |x a - (((s t).comp a).sum + vfToSky p (tsVfMatrix p u t) a * (s t).sky
      + ∑ b ∈ surfaces p, vfBetween p (tsVfMatrix p u t) a b * ((s t).rho b * x b))| ≤ ε) :
    ∀ a ∈ surfaces p, |x a - (o t).qinc a| ≤ ε / (1 - r) := by
  have hF := C02_viewFactorsOk p u t hp hu
  have hb := (C06_radiosity p u s aoi o h hs t).1
  refine le_of_reflected hF (fun a ha => (hr t a ha).1.le) hrr hr1 (fun a => x a - (o t).qinc a) ?_
  intro a ha
  refine le_of_eq_of_le (congrArg _ ?_) (hx a ha)
  have h1 := hb.arriving a ha
  have h2 : ∑ b ∈ surfaces p, vfBetween p (tsVfMatrix p u t) a b * (o t).q0 b
      = ∑ b ∈ surfaces p, vfBetween p (tsVfMatrix p u t) a b * ((s t).rho b * (o t).qinc b) :=
    Finset.sum_congr rfl fun b hb' => by rw [hb.sent b hb']
  rw [h2] at h1
  simp only [mul_sub, Finset.sum_sub_distrib]
  rw [h1]
  ring

/-- C80 (inputs).  Two runs on the same array, which may differ in everything else: sun, tilt, light and
reflectivities.  If the light from the sky differs by at most `ε`, reflectivities by at most `δ`, the
view factors of each surface by at most `φ` in total, and if the second run has no reflectivity above
`r'` and no incident irradiance above `Q`, then the incident irradiances differ by at most
`(ε + (δ + φ * r') * Q) / (1 - r)`. -/
theorem C80_inputs (p : ArrayParams) (u u' : ι → StepIn) (s s' : ι → IrrStep)
    (aoi aoi' : ι → Option (List Asg)) (o o' : ι → FullOut) (h : runFullMode p u s aoi = some o)
    (h' : runFullMode p u' s' aoi' = some o')
    (hs : ∀ t, InverseOk p (s t)) (hr : ∀ t, ReflectivitiesOk p (s t))
    (hs' : ∀ t, InverseOk p (s' t)) (hr' : ∀ t, ReflectivitiesOk p (s' t)) (hp : PhysicalArray p)
    (t t' : ι) (hu : PhysicalStep p (u t)) (r r' ε δ φ Q : ℝ)
    (hrr : ∀ a ∈ surfaces p, (s t).rho a ≤ r) (hr1 : r < 1)
    (hrr' : ∀ a ∈ surfaces p, (s' t').rho a ≤ r')
    (hε : ∀ a ∈ surfaces p, |(((s t).comp a).sum + (o t).isotropic a)
      - (((s' t').comp a).sum + (o' t').isotropic a)| ≤ ε)
    (hδ : ∀ a ∈ surfaces p, |(s t).rho a - (s' t').rho a| ≤ δ)
    (hφ : ∀ a ∈ surfaces p, ∑ b ∈ surfaces p, |vfBetween p (tsVfMatrix p u t) a b
      - vfBetween p (tsVfMatrix p u' t') a b| ≤ φ)
    (hQ : ∀ a ∈ surfaces p, |(o' t').qinc a| ≤ Q) :
    ∀ a ∈ surfaces p, |(o t).qinc a - (o' t').qinc a| ≤ (ε + (δ + φ * r') * Q) / (1 - r) := by
  have hF := C02_viewFactorsOk p u t hp hu
  have hb' := (C06_radiosity p u' s' aoi' o' h' hs' t').1
  set F := tsVfMatrix p u t
  set F' := tsVfMatrix p u' t'
  intro a ha
  rw [abs_sub_comm]
  refine C80_approximate p u s aoi o h hs hr hp t hu r _ hrr hr1 (o' t').qinc ?_ a ha
  intro a ha
  have h1 := hb'.arriving a ha
  have h2 := (C09_components p u s aoi o h hs t a ha).2.1
  have h2' := (C09_components p u' s' aoi' o' h' hs' t' a ha).2.1
  have hε := hε a ha
  rw [h2, h2'] at hε
  have e : (o' t').qinc a - (((s t).comp a).sum + vfToSky p F a * (s t).sky
        + ∑ b ∈ surfaces p, vfBetween p F a b * ((s t).rho b * (o' t').qinc b))
      = -(((s t).comp a).sum + vfToSky p F a * (s t).sky
          - (((s' t').comp a).sum + vfToSky p F' a * (s' t').sky))
        + -(∑ b ∈ surfaces p, (vfBetween p F a b * ((s t).rho b - (s' t').rho b) * (o' t').qinc b
          + (vfBetween p F a b - vfBetween p F' a b) * ((s' t').rho b * (o' t').qinc b))) := by
    rw [h1]
    have : ∑ b ∈ surfaces p, vfBetween p F' a b * (o' t').q0 b
        = ∑ b ∈ surfaces p, vfBetween p F a b * ((s t).rho b * (o' t').qinc b)
          - ∑ b ∈ surfaces p, (vfBetween p F a b * ((s t).rho b - (s' t').rho b) * (o' t').qinc b
          + (vfBetween p F a b - vfBetween p F' a b) * ((s' t').rho b * (o' t').qinc b)) := by
      rw [← Finset.sum_sub_distrib]
      exact Finset.sum_congr rfl fun b hb => by rw [hb'.sent b hb]; ring
    rw [this]; ring
  rw [e]
  refine (abs_add_le _ _).trans ?_
  rw [abs_neg, abs_neg]
  have hQ0 : 0 ≤ Q := (abs_nonneg _).trans (hQ a ha)
  have hδ0 : 0 ≤ δ := (abs_nonneg _).trans (hδ a ha)
  have hr0 : 0 ≤ r' := (hr' t' a ha).1.le.trans (hrr' a ha)
  have h3 : |∑ b ∈ surfaces p, (vfBetween p F a b * ((s t).rho b - (s' t').rho b) * (o' t').qinc b
      + (vfBetween p F a b - vfBetween p F' a b) * ((s' t').rho b * (o' t').qinc b))|
      ≤ (δ + φ * r') * Q := by
    calc _ ≤ ∑ b ∈ surfaces p, |vfBetween p F a b * ((s t).rho b - (s' t').rho b) * (o' t').qinc b
          + (vfBetween p F a b - vfBetween p F' a b) * ((s' t').rho b * (o' t').qinc b)| :=
          Finset.abs_sum_le_sum_abs _ _
      _ ≤ ∑ b ∈ surfaces p, (vfBetween p F a b * (δ * Q)
          + |vfBetween p F a b - vfBetween p F' a b| * (r' * Q)) := by
          refine Finset.sum_le_sum fun b hb => (abs_add_le _ _).trans (add_le_add ?_ ?_)
          · rw [abs_mul, abs_mul, abs_of_nonneg (hF.nonneg a ha b hb), mul_assoc]
            exact mul_le_mul_of_nonneg_left
              (mul_le_mul (hδ b hb) (hQ b hb) (abs_nonneg _) hδ0) (hF.nonneg a ha b hb)
          · rw [abs_mul, abs_mul, abs_of_nonneg (hr' t' b hb).1.le]
            exact mul_le_mul_of_nonneg_left
              (mul_le_mul (hrr' b hb) (hQ b hb) (abs_nonneg _) hr0) (abs_nonneg _)
      _ = (∑ b ∈ surfaces p, vfBetween p F a b) * (δ * Q)
          + (∑ b ∈ surfaces p, |vfBetween p F a b - vfBetween p F' a b|) * (r' * Q) := by
          rw [Finset.sum_add_distrib, Finset.sum_mul, Finset.sum_mul]
      _ ≤ 1 * (δ * Q) + φ * (r' * Q) := by
          refine add_le_add (mul_le_mul_of_nonneg_right ?_ (by positivity))
            (mul_le_mul_of_nonneg_right (hφ a ha) (by positivity))
          have := hF.sum_le a ha
          have := hF.nonneg_sky a ha
          linarith
      _ = (δ + φ * r') * Q := by ring
  linarith

/-- C80 (size).  No incident irradiance is above the largest light from the sky divided by `1 - r`. -/
theorem C80_size (p : ArrayParams) (u : ι → StepIn) (s : ι → IrrStep)
    (aoi : ι → Option (List Asg)) (o : ι → FullOut) (h : runFullMode p u s aoi = some o)
    (hs : ∀ t, InverseOk p (s t)) (hr : ∀ t, ReflectivitiesOk p (s t)) (hp : PhysicalArray p)
    (t : ι) (hu : PhysicalStep p (u t)) (r M : ℝ) (hrr : ∀ a ∈ surfaces p, (s t).rho a ≤ r)
    (hr1 : r < 1) (hM : ∀ a ∈ surfaces p, |((s t).comp a).sum + (o t).isotropic a| ≤ M) :
    ∀ a ∈ surfaces p, |(o t).qinc a| ≤ M / (1 - r) := by
  intro a ha
  have := C74_rest p u s aoi o h hs hr hp t hu r M hrr hr1 hM 0 a ha
  simpa using this

/-- C80 on vertical rows: an albedo that is off by a thousandth changes no incident irradiance by more
than 2 W/m2 (of up to 1375 W/m2). -/
theorem C80_demo (t : Fin 3) :
    ∃ o o', runFullMode vertArray (fun _ => vertStep)
        (fun _ : Fin 3 => isotropicStep demoIrrParams demoIrrIn) (fun _ => none) = some o ∧
      runFullMode vertArray (fun _ => vertStep)
        (fun _ : Fin 3 => isotropicStep demoIrrParams { demoIrrIn with albedo := 201 / 1000 })
        (fun _ => none) = some o' ∧
      ∀ a ∈ surfaces vertArray, |(o t).qinc a| ≤ 1375 ∧ |(o' t).qinc a - (o t).qinc a| ≤ 2 := by
  have hl' : LossesOk demoIrrParams { demoIrrIn with albedo := 201 / 1000 } :=
    ⟨demo_losses.front, demo_losses.back, by norm_num⟩
  obtain ⟨o, ho⟩ := C07_isotropic vertArray (fun _ : Fin 3 => vertStep) demoIrrParams
    (fun _ => demoIrrIn) (fun _ => none) (fun _ => demo_losses) vert_physicalArray
    (fun _ => vert_physicalStep)
  obtain ⟨o', ho'⟩ := C07_isotropic vertArray (fun _ : Fin 3 => vertStep) demoIrrParams
    (fun _ => { demoIrrIn with albedo := 201 / 1000 }) (fun _ => none) (fun _ => hl')
    vert_physicalArray (fun _ => vert_physicalStep)
  refine ⟨o, o', ho, ho', ?_⟩
  have hrho : ∀ a ∈ surfaces vertArray, (isotropicStep demoIrrParams demoIrrIn).rho a ≤ 1 / 5 := by
    intro a _
    match a with
    | .gnd _ _ _ => exact le_refl (1 / 5 : ℝ)
    | .pv _ .front _ _ => change (1 / 100 : ℝ) ≤ 1 / 5; norm_num
    | .pv _ .back _ _ => change (3 / 100 : ℝ) ≤ 1 / 5; norm_num
  have hrho' : ∀ a ∈ surfaces vertArray,
      (isotropicStep demoIrrParams { demoIrrIn with albedo := 201 / 1000 }).rho a ≤ 201 / 1000 := by
    intro a _
    match a with
    | .gnd _ _ _ => exact le_refl (201 / 1000 : ℝ)
    | .pv _ .front _ _ => change (1 / 100 : ℝ) ≤ 201 / 1000; norm_num
    | .pv _ .back _ _ => change (3 / 100 : ℝ) ≤ 201 / 1000; norm_num
  have hQ : ∀ a ∈ surfaces vertArray, |(o t).qinc a| ≤ 1375 := by
    intro a ha
    refine (C80_size vertArray (fun _ : Fin 3 => vertStep) _ _ o ho
      (fun _ => demo_losses.inverse_isotropic vertArray)
      (fun _ => demo_losses.reflectivities_isotropic vertArray) vert_physicalArray t
      vert_physicalStep (1 / 5) 1100 hrho (by norm_num) (demo_light_le t o ho) a ha).trans ?_
    norm_num
  intro a ha
  refine ⟨hQ a ha, ?_⟩
  have h := C80_inputs vertArray (fun _ : Fin 3 => vertStep) (fun _ => vertStep) _ _ _ _ o' o ho' ho
    (fun _ => hl'.inverse_isotropic vertArray) (fun _ => hl'.reflectivities_isotropic vertArray)
    (fun _ => demo_losses.inverse_isotropic vertArray)
    (fun _ => demo_losses.reflectivities_isotropic vertArray) vert_physicalArray t t vert_physicalStep
    (201 / 1000) (1 / 5) 0 (1 / 1000) 0 1375 hrho' (by norm_num) hrho ?_ ?_ (by simp) hQ a ha
  · exact h.trans (by norm_num)
  · intro a ha
    rw [(C09_components vertArray (fun _ : Fin 3 => vertStep) _ _ o ho
        (fun _ => demo_losses.inverse_isotropic vertArray) t a ha).2.1,
      (C09_components vertArray (fun _ : Fin 3 => vertStep) _ _ o' ho'
        (fun _ => hl'.inverse_isotropic vertArray) t a ha).2.1]
    refine le_of_eq (abs_eq_zero.2 (sub_eq_zero.2 ?_))
    rfl
  · intro a _
    match a with
    | .gnd _ _ _ => change |(201 / 1000 : ℝ) - 1 / 5| ≤ 1 / 1000; norm_num
    | .pv _ .front _ _ => change |(1 / 100 : ℝ) - 1 / 100| ≤ 1 / 1000; norm_num
    | .pv _ .back _ _ => change |(3 / 100 : ℝ) - 3 / 100| ≤ 1 / 1000; norm_num

end PVF
