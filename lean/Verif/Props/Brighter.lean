import Verif.Props.EndToEnd

/-! # Full mode: brighter surfaces (C54) -/

namespace PVF

variable {ι : Type*} [Fintype ι]

/-- Difference of two solutions with different reflectivities, as a solution for the larger ones. -/
theorem RadiosityBalance.brighter {p : ArrayParams} {F : ℕ → ℕ → ℝ} {e e' rho rho' : SurfRef → ℝ}
    {sky sky' : ℝ} {q0 q0' qinc qinc' : SurfRef → ℝ}
    (h : RadiosityBalance p F e rho sky q0 qinc) (h' : RadiosityBalance p F e' rho' sky' q0' qinc')
    (hr : ∀ a ∈ surfaces p, rho' a ≠ 0) :
    RadiosityBalance p F (fun a => (e' a - e a) + (rho' a - rho a) / rho' a * qinc a) rho'
      (sky' - sky) (fun a => q0' a - q0 a)
      (fun a => qinc' a - qinc a + (rho' a - rho a) / rho' a * qinc a) where
  arriving a ha := by
    have h1 := h.arriving a ha
    have h2 := h'.arriving a ha
    simp only [mul_sub, Finset.sum_sub_distrib]
    linarith
  sent a ha := by
    have h1 := h.sent a ha
    have h2 := h'.sent a ha
    have := hr a ha
    simp only [h1, h2]
    field_simp
    ring

/-- C54: more reflective surfaces (and no less light from the sky) never give less light on any
surface. -/
theorem C54_brighter (p : ArrayParams) (u : ι → StepIn) (s s' : ι → IrrStep)
    (aoi aoi' : ι → Option (List Asg)) (o o' : ι → FullOut)
    (h : runFullMode p u s aoi = some o) (h' : runFullMode p u s' aoi' = some o')
    (hs : ∀ t, InverseOk p (s t)) (hs' : ∀ t, InverseOk p (s' t))
    (hr : ∀ t, ReflectivitiesOk p (s t)) (hr' : ∀ t, ReflectivitiesOk p (s' t))
    (hp : PhysicalArray p) (t : ι) (hu : PhysicalStep p (u t))
    (hrho : ∀ a ∈ surfaces p, (s t).rho a ≤ (s' t).rho a)
    (h0 : ∀ a ∈ surfaces p, 0 ≤ ((s t).comp a).sum) (hsky0 : 0 ≤ (s t).sky)
    (hcomp : ∀ a ∈ surfaces p, ((s t).comp a).sum ≤ ((s' t).comp a).sum)
    (hsky : (s t).sky ≤ (s' t).sky) :
    ∀ a ∈ surfaces p, (o t).q0 a ≤ (o' t).q0 a ∧ (o t).qinc a ≤ (o' t).qinc a ∧
      (o t).isotropic a ≤ (o' t).isotropic a ∧ (o t).reflection a ≤ (o' t).reflection a := by
  have hF := C02_viewFactorsOk p u t hp hu
  have hb := (C06_radiosity p u s aoi o h hs t).1
  have hb' := (C06_radiosity p u s' aoi' o' h' hs' t).1
  have hq := (hb.brighter hb' fun a ha => (hr' t a ha).1.ne').nonneg hF (hr' t)
    (fun a ha => by
      have h1 := (C08_nonneg p u s aoi o h hs hr t hF h0 hsky0 a ha).2.1
      have h2 := hcomp a ha
      have h3 : 0 ≤ ((s' t).rho a - (s t).rho a) / (s' t).rho a * (o t).qinc a :=
        mul_nonneg (div_nonneg (sub_nonneg.2 (hrho a ha)) (hr' t a ha).1.le) ((h0 a ha).trans h1)
      linarith) (sub_nonneg.2 hsky)
  have hq0 : ∀ a ∈ surfaces p, (o t).q0 a ≤ (o' t).q0 a := fun a ha => sub_nonneg.1 (hq a ha)
  intro a ha
  have c := C09_components p u s aoi o h hs t a ha
  have c' := C09_components p u s' aoi' o' h' hs' t a ha
  have hiso : (o t).isotropic a ≤ (o' t).isotropic a := by
    rw [c.2.1, c'.2.1]
    exact mul_le_mul_of_nonneg_left hsky (hF.nonneg_sky a ha)
  have hrefl : (o t).reflection a ≤ (o' t).reflection a := by
    rw [c.2.2, c'.2.2]
    refine Finset.sum_le_sum fun b hb1 => mul_le_mul_of_nonneg_left ?_ (hF.nonneg a ha b hb1)
    rw [← hb.sent b hb1, ← hb'.sent b hb1]
    exact hq0 b hb1
  refine ⟨hq0 a ha, ?_, hiso, hrefl⟩
  rw [c.1, c'.1]
  have := hcomp a ha
  linarith

/-- The parameters and inputs differ only in reflectivities, which are larger in the second
(`poaGlobal` comes from pvlib and depends on the albedo). -/
structure BrighterThan (q : IrrParams) (v : IrrIn) (q' : IrrParams) (v' : IrrIn) : Prop where
  params : q' = { q with rhoFront := q'.rhoFront, rhoBack := q'.rhoBack }
  inputs : v' = { v with albedo := v'.albedo, poaGlobal := v'.poaGlobal }
  front : q.rhoFront ≤ q'.rhoFront
  back : q.rhoBack ≤ q'.rhoBack
  albedo : v.albedo ≤ v'.albedo

theorem BrighterThan.rhoOf_le {q q' : IrrParams} {v v' : IrrIn} (h : BrighterThan q v q' v')
    (a : SurfRef) : rhoOf q v a ≤ rhoOf q' v' a := by
  match a with
  | .gnd _ _ _ => exact h.albedo
  | .pv _ .front _ _ => exact h.front
  | .pv _ .back _ _ => exact h.back

theorem BrighterThan.direct {q q' : IrrParams} {v v' : IrrIn} (h : BrighterThan q v q' v') :
    directCats q' v' = directCats q v := by
  rw [h.params, h.inputs]; rfl

theorem BrighterThan.circumsolar {q q' : IrrParams} {v v' : IrrIn} (h : BrighterThan q v q' v') :
    circumsolarCats q' v' = circumsolarCats q v := by
  rw [h.params, h.inputs]; rfl

theorem BrighterThan.horizon {q q' : IrrParams} {v v' : IrrIn} (h : BrighterThan q v q' v')
    (p : ArrayParams) (g : StepGeom) (a : SurfRef) :
    horizonOf q' p g v' a = horizonOf q p g v a := by
  rw [h.params, h.inputs]
  match a with
  | .gnd _ _ _ => rfl
  | .pv _ .front _ _ => rfl
  | .pv _ .back _ _ => rfl

/-- C54 with the isotropic model: raising albedo or reflectivities of modules never lowers the
irradiance on any surface. -/
theorem C54_isotropic (p : ArrayParams) (u : ι → StepIn) (q q' : IrrParams) (v v' : ι → IrrIn)
    (aoi aoi' : ι → Option (List Asg)) (o o' : ι → FullOut)
    (h : runFullMode p u (fun t => isotropicStep q (v t)) aoi = some o)
    (h' : runFullMode p u (fun t => isotropicStep q' (v' t)) aoi' = some o')
    (hl : ∀ t, LossesOk q (v t)) (hl' : ∀ t, LossesOk q' (v' t)) (hp : PhysicalArray p) (t : ι)
    (hu : PhysicalStep p (u t)) (hv : LightOk q (v t)) (hb : BrighterThan q (v t) q' (v' t)) :
    ∀ a ∈ surfaces p, (o t).q0 a ≤ (o' t).q0 a ∧ (o t).qinc a ≤ (o' t).qinc a ∧
      (o t).isotropic a = (o' t).isotropic a ∧ (o t).reflection a ≤ (o' t).reflection a := by
  have hsky : (v' t).dhi = (v t).dhi := by rw [hb.inputs]
  intro a ha
  obtain ⟨h1, h2, h3, h4⟩ := C54_brighter p u _ _ aoi aoi' o o' h h'
    (fun t => (hl t).inverse_isotropic p) (fun t => (hl' t).inverse_isotropic p)
    (fun t => (hl t).reflectivities_isotropic p) (fun t => (hl' t).reflectivities_isotropic p) hp t
    hu (fun a _ => hb.rhoOf_le a) (fun a _ => by
      simp only [isotropicStep, List.sum_cons, List.sum_nil, add_zero]
      exact directCats_nonneg hv a) hv.dhi
    (fun a _ => by simp only [isotropicStep, hb.direct]; exact le_rfl) hsky.ge a ha
  refine ⟨h1, h2, ?_, h4⟩
  rw [(C09_components p u _ aoi o h (fun t => (hl t).inverse_isotropic p) t a ha).2.1,
    (C09_components p u _ aoi' o' h' (fun t => (hl' t).inverse_isotropic p) t a ha).2.1]
  change _ * (v t).dhi = _ * (v' t).dhi
  rw [hsky]

/-- C54 with the hybrid Perez model. -/
theorem C54_hybrid (p : ArrayParams) (u : ι → StepIn) (q q' : IrrParams) (v v' : ι → IrrIn)
    (aoi aoi' : ι → Option (List Asg)) (o o' : ι → FullOut)
    (h : runFullMode p u (fun t => hybridPerezStep q p (fitStep p (u t)) (v t)) aoi = some o)
    (h' : runFullMode p u (fun t => hybridPerezStep q' p (fitStep p (u t)) (v' t)) aoi' = some o')
    (hl : ∀ t, LossesOk q (v t)) (hl' : ∀ t, LossesOk q' (v' t)) (hp : PhysicalArray p) (t : ι)
    (hu : PhysicalStep p (u t)) (hv : LightOk q (v t)) (hP : PerezOk q (v t))
    (hb : BrighterThan q (v t) q' (v' t)) :
    ∀ a ∈ surfaces p, (o t).q0 a ≤ (o' t).q0 a ∧ (o t).qinc a ≤ (o' t).qinc a ∧
      (o t).isotropic a = (o' t).isotropic a ∧ (o t).reflection a ≤ (o' t).reflection a := by
  have hsky : (v' t).perez.luminanceIsotropic = (v t).perez.luminanceIsotropic := by rw [hb.inputs]
  intro a ha
  obtain ⟨h1, h2, h3, h4⟩ := C54_brighter p u _ _ aoi aoi' o o' h h'
    (fun t => (hl t).inverse_hybrid p _) (fun t => (hl' t).inverse_hybrid p _)
    (fun t => (hl t).reflectivities_hybrid p _) (fun t => (hl' t).reflectivities_hybrid p _) hp t
    hu (fun a _ => hb.rhoOf_le a) (fun a _ => by
      simp only [hybridPerezStep, List.sum_cons, List.sum_nil, add_zero]
      have h1 := directCats_nonneg hv a
      have h2 := circumsolarCats_nonneg hv hP a
      have h3 := horizonOf_nonneg hP p (fitStep p (u t)) a
      positivity) hP.isotropic
    (fun a _ => by
      simp only [hybridPerezStep, hb.direct, hb.circumsolar, hb.horizon]; exact le_rfl) hsky.ge a ha
  refine ⟨h1, h2, ?_, h4⟩
  rw [(C09_components p u _ aoi o h (fun t => (hl t).inverse_hybrid p _) t a ha).2.1,
    (C09_components p u _ aoi' o' h' (fun t => (hl' t).inverse_hybrid p _) t a ha).2.1]
  change _ * (v t).perez.luminanceIsotropic = _ * (v' t).perez.luminanceIsotropic
  rw [hsky]

/-- C54: a lighter ground never lowers the irradiance absorbed by the modules (isotropic model, no
fAOI functions). -/
theorem C54_absorbed (p : ArrayParams) (u : ι → StepIn) (q : IrrParams) (v v' : ι → IrrIn)
    (o o' : ι → FullOut)
    (h : runFullMode p u (fun t => isotropicStep q (v t)) (fun _ => none) = some o)
    (h' : runFullMode p u (fun t => isotropicStep q (v' t)) (fun _ => none) = some o')
    (hf0 : q.faoiFront = none) (hb0 : q.faoiBack = none)
    (hl : ∀ t, LossesOk q (v t)) (hl' : ∀ t, LossesOk q (v' t)) (hp : PhysicalArray p) (t : ι)
    (hu : PhysicalStep p (u t)) (hv : LightOk q (v t)) (hb : BrighterThan q (v t) q (v' t)) :
    ∀ i s k sh, SurfRef.pv i s k sh ∈ surfaces p →
      (o t).qabs (.pv i s k sh) ≤ (o' t).qabs (.pv i s k sh) := by
  intro i s k sh ha
  have h1 := (C10_isotropic p u q v o h hf0 hb0 (hl t).front.1.ne' (hl t).back.1.ne'
    (fun t => (hl t).albedo.1.ne') t _ ha).1
  have h2 := (C10_isotropic p u q v' o' h' hf0 hb0 (hl t).front.1.ne' (hl t).back.1.ne'
    (fun t => (hl' t).albedo.1.ne') t _ ha).1
  have h3 := (C54_isotropic p u q q v v' _ _ o o' h h' hl hl' hp t hu hv hb _ ha).2.1
  rw [h1, h2]
  cases s
  · exact mul_le_mul_of_nonneg_left h3 (by have := (hl t).front.2; simp only [rhoOf]; linarith)
  · exact mul_le_mul_of_nonneg_left h3 (by have := (hl t).back.2; simp only [rhoOf]; linarith)

/-- C54 with the hybrid Perez model: absorbed irradiance. -/
theorem C54_absorbed_hybrid (p : ArrayParams) (u : ι → StepIn) (q : IrrParams) (v v' : ι → IrrIn)
    (o o' : ι → FullOut)
    (h : runFullMode p u (fun t => hybridPerezStep q p (fitStep p (u t)) (v t)) (fun _ => none)
      = some o)
    (h' : runFullMode p u (fun t => hybridPerezStep q p (fitStep p (u t)) (v' t)) (fun _ => none)
      = some o')
    (hf0 : q.faoiFront = none) (hb0 : q.faoiBack = none)
    (hl : ∀ t, LossesOk q (v t)) (hl' : ∀ t, LossesOk q (v' t)) (hp : PhysicalArray p) (t : ι)
    (hu : PhysicalStep p (u t)) (hv : LightOk q (v t)) (hP : PerezOk q (v t))
    (hb : BrighterThan q (v t) q (v' t)) :
    ∀ i s k sh, SurfRef.pv i s k sh ∈ surfaces p →
      (o t).qabs (.pv i s k sh) ≤ (o' t).qabs (.pv i s k sh) := by
  intro i s k sh ha
  have h1 := (C10_hybrid p u q v o h hf0 hb0 (hl t).front.1.ne' (hl t).back.1.ne'
    (fun t => (hl t).albedo.1.ne') t _ ha).1
  have h2 := (C10_hybrid p u q v' o' h' hf0 hb0 (hl t).front.1.ne' (hl t).back.1.ne'
    (fun t => (hl' t).albedo.1.ne') t _ ha).1
  have h3 := (C54_hybrid p u q q v v' _ _ o o' h h' hl hl' hp t hu hv hP hb _ ha).2.1
  rw [h1, h2]
  cases s
  · exact mul_le_mul_of_nonneg_left h3 (by have := (hl t).front.2; simp only [rhoOf]; linarith)
  · exact mul_le_mul_of_nonneg_left h3 (by have := (hl t).back.2; simp only [rhoOf]; linarith)

/-! ## Instances -/

/-- `demoIrrIn` over snow: an albedo of 9/10. -/
noncomputable def snowIrrIn : IrrIn := { demoIrrIn with albedo := 9 / 10 }

theorem snow_losses : LossesOk demoIrrParams snowIrrIn where
  front := demo_losses.front
  back := demo_losses.back
  albedo := by norm_num [snowIrrIn]

theorem snow_brighter : BrighterThan demoIrrParams demoIrrIn demoIrrParams snowIrrIn :=
  ⟨rfl, rfl, le_rfl, le_rfl, by norm_num [snowIrrIn, demoIrrIn]⟩

/-- C54 on an array with shading: both runs succeed and snow on the ground makes no surface
darker. -/
theorem C54_demo :
    ∃ o o' : Fin 3 → FullOut,
      runFullMode denseArray (fun _ => shadeStep)
        (fun _ => isotropicStep demoIrrParams demoIrrIn) (fun _ => none) = some o ∧
      runFullMode denseArray (fun _ => shadeStep)
        (fun _ => isotropicStep demoIrrParams snowIrrIn) (fun _ => none) = some o' ∧
      ∀ t, ∀ a ∈ surfaces denseArray, (o t).qinc a ≤ (o' t).qinc a := by
  obtain ⟨o, ho⟩ := C07_isotropic denseArray (fun _ : Fin 3 => shadeStep) demoIrrParams
    (fun _ => demoIrrIn) (fun _ => none) (fun _ => demo_losses) dense_physicalArray
    (fun _ => shade_physicalStep)
  obtain ⟨o', ho'⟩ := C07_isotropic denseArray (fun _ : Fin 3 => shadeStep) demoIrrParams
    (fun _ => snowIrrIn) (fun _ => none) (fun _ => snow_losses) dense_physicalArray
    (fun _ => shade_physicalStep)
  exact ⟨o, o', ho, ho', fun t a ha => (C54_isotropic _ _ _ _ _ _ _ _ o o' ho ho'
    (fun _ => demo_losses) (fun _ => snow_losses) dense_physicalArray t shade_physicalStep
    demo_light snow_brighter a ha).2.1⟩

end PVF
