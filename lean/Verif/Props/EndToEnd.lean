import Verif.Props.ViewFactors
import Verif.Props.Irradiance
import Verif.Props.AOI

/-!
# Full mode on physically placed arrays, with the irradiance models of the package

C07, C08 and C12 without any hypothesis on view factors, and instances of C06 to C12.
-/

namespace PVF

variable {ι : Type*} [Fintype ι]

/-- Reflectivities and albedo are strictly between 0 and 1. -/
structure LossesOk (q : IrrParams) (v : IrrIn) : Prop where
  front : 0 < q.rhoFront ∧ q.rhoFront < 1
  back : 0 < q.rhoBack ∧ q.rhoBack < 1
  albedo : 0 < v.albedo ∧ v.albedo < 1

/-- Sun above the horizon, nothing negative in the inputs, fractions are fractions. -/
structure LightOk (q : IrrParams) (v : IrrIn) : Prop where
  dni : 0 ≤ v.dni
  dhi : 0 ≤ v.dhi
  sunUp : 0 < cosd v.solarZenith
  spacing : 0 ≤ q.moduleSpacingRatio ∧ q.moduleSpacingRatio ≤ 1
  transparency : 0 ≤ q.moduleTransparency

/-- Nothing negative in the Perez components. -/
structure PerezOk (q : IrrParams) (v : IrrIn) : Prop where
  isotropic : 0 ≤ v.perez.luminanceIsotropic
  circumsolar : 0 ≤ v.perez.luminanceCircumsolar
  poa : 0 ≤ v.perez.poaCircumsolar
  band : 0 < q.horizonBandAngle

theorem LossesOk.reflectivities_isotropic {q : IrrParams} {v : IrrIn} (h : LossesOk q v)
    (p : ArrayParams) : ReflectivitiesOk p (isotropicStep q v) := by
  intro a _
  match a with
  | .gnd _ _ _ => exact h.albedo
  | .pv _ .front _ _ => exact h.front
  | .pv _ .back _ _ => exact h.back

theorem LossesOk.reflectivities_hybrid {q : IrrParams} {v : IrrIn} (h : LossesOk q v)
    (p : ArrayParams) (g : StepGeom) : ReflectivitiesOk p (hybridPerezStep q p g v) := by
  intro a _
  match a with
  | .gnd _ _ _ => exact h.albedo
  | .pv _ .front _ _ => exact h.front
  | .pv _ .back _ _ => exact h.back

theorem LossesOk.inverse_isotropic {q : IrrParams} {v : IrrIn} (h : LossesOk q v)
    (p : ArrayParams) : InverseOk p (isotropicStep q v) :=
  isotropic_inverseOk p q v h.front.1.ne' h.back.1.ne' h.albedo.1.ne'

theorem LossesOk.inverse_hybrid {q : IrrParams} {v : IrrIn} (h : LossesOk q v)
    (p : ArrayParams) (g : StepGeom) : InverseOk p (hybridPerezStep q p g v) :=
  hybrid_inverseOk p g q v h.front.1.ne' h.back.1.ne' h.albedo.1.ne'

theorem throughModules_nonneg {q : IrrParams} {v : IrrIn} (h : LightOk q v) {x : ℝ} (hx : 0 ≤ x) :
    0 ≤ throughModules q x := by
  unfold throughModules
  have h1 := h.spacing.1
  have h2 : 0 ≤ 1 - q.moduleSpacingRatio := by linarith [h.spacing.2]
  have h3 := h.transparency
  positivity

theorem directCats_nonneg {q : IrrParams} {v : IrrIn} (h : LightOk q v) (a : SurfRef) :
    0 ≤ (directCats q v).get a := by
  have h1 := h.dni
  have hg : 0 ≤ (directCats q v).groundIllum := mul_nonneg h1 h.sunUp.le
  have hf : 0 ≤ (directCats q v).frontIllum := by
    rw [direct_front]; exact mul_nonneg h1 (le_max_left _ _)
  have hb : 0 ≤ (directCats q v).backIllum := by
    rw [direct_back]; exact mul_nonneg h1 (le_max_left _ _)
  match a with
  | .gnd true _ _ => exact throughModules_nonneg h hg
  | .gnd false _ _ => exact hg
  | .pv _ .front _ true => exact throughModules_nonneg h hf
  | .pv _ .front _ false => exact hf
  | .pv _ .back _ true => exact throughModules_nonneg h hb
  | .pv _ .back _ false => exact hb

theorem circumsolarCats_nonneg {q : IrrParams} {v : IrrIn} (h : LightOk q v) (hP : PerezOk q v)
    (a : SurfRef) : 0 ≤ (circumsolarCats q v).get a := by
  have hg : 0 ≤ (circumsolarCats q v).groundIllum := hP.circumsolar
  have hf : 0 ≤ (circumsolarCats q v).frontIllum := by
    unfold circumsolarCats
    simp only
    split_ifs
    · exact hP.poa
    · exact le_rfl
  have hb : 0 ≤ (circumsolarCats q v).backIllum := by
    unfold circumsolarCats
    simp only [aoiFront_le_iff]
    split_ifs with hc
    · exact le_rfl
    · unfold poaCircumsolarBack
      rw [cosd_aoiBack]
      exact mul_nonneg hP.circumsolar (div_nonneg (by linarith) h.sunUp.le)
  match a with
  | .gnd true _ _ => exact throughModules_nonneg h hg
  | .gnd false _ _ => exact hg
  | .pv _ .front _ true => exact throughModules_nonneg h hf
  | .pv _ .front _ false => exact hf
  | .pv _ .back _ true => exact throughModules_nonneg h hb
  | .pv _ .back _ false => exact hb

theorem horizonOf_nonneg {q : IrrParams} {v : IrrIn} (hP : PerezOk q v) (p : ArrayParams)
    (g : StepGeom) (a : SurfRef) : 0 ≤ horizonOf q p g v a := by
  match a with
  | .gnd _ _ _ => exact le_rfl
  | .pv _ .front _ _ => exact abs_nonneg _
  | .pv r .back k sh =>
    obtain ⟨_, h1, h2, _⟩ := (C35_edge_rows q p g v hP.band r k sh).2.2
    simp only [hybridPerezStep, List.getLast?_cons_cons, List.getLast?_singleton,
      Option.some.injEq] at h1
    rw [h1]; exact h2

/-! ## C07 -/

/-- C07 on physically placed arrays: full mode does not fail, for any irradiance model with
reflectivities in (0,1) and any AOI methods. -/
theorem C07_physical (p : ArrayParams) (u : ι → StepIn) (s : ι → IrrStep)
    (aoi : ι → Option (List Asg)) (hs : ∀ t, InverseOk p (s t))
    (hr : ∀ t, ReflectivitiesOk p (s t)) (hp : PhysicalArray p)
    (hu : ∀ t, PhysicalStep p (u t)) : ∃ o, runFullMode p u s aoi = some o :=
  C07_solvable p u s aoi hs hr fun t => C02_viewFactorsOk p u t hp (hu t)

/-- C07: the returned radiosity and incident irradiance are the only solution. -/
theorem C07_physical_unique (p : ArrayParams) (u : ι → StepIn) (s : ι → IrrStep)
    (aoi : ι → Option (List Asg)) (o : ι → FullOut) (h : runFullMode p u s aoi = some o)
    (hs : ∀ t, InverseOk p (s t)) (hr : ∀ t, ReflectivitiesOk p (s t)) (hp : PhysicalArray p)
    (hu : ∀ t, PhysicalStep p (u t)) (t : ι) (q0 qinc : SurfRef → ℝ)
    (hq : RadiosityBalance p (tsVfMatrix p u t) (fun a => ((s t).comp a).sum) (s t).rho (s t).sky
      q0 qinc) :
    ∀ a ∈ surfaces p, q0 a = (o t).q0 a ∧ qinc a = (o t).qinc a :=
  C07_unique p u s aoi o h hs hr t (C02_viewFactorsOk p u t hp (hu t)) q0 qinc hq

/-- C07 with the isotropic irradiance model. -/
theorem C07_isotropic (p : ArrayParams) (u : ι → StepIn) (q : IrrParams) (v : ι → IrrIn)
    (aoi : ι → Option (List Asg)) (hl : ∀ t, LossesOk q (v t)) (hp : PhysicalArray p)
    (hu : ∀ t, PhysicalStep p (u t)) :
    ∃ o, runFullMode p u (fun t => isotropicStep q (v t)) aoi = some o :=
  C07_physical p u _ aoi (fun t => (hl t).inverse_isotropic p)
    (fun t => (hl t).reflectivities_isotropic p) hp hu

/-- C07 with the hybrid Perez irradiance model. -/
theorem C07_hybrid (p : ArrayParams) (u : ι → StepIn) (q : IrrParams) (v : ι → IrrIn)
    (aoi : ι → Option (List Asg)) (hl : ∀ t, LossesOk q (v t)) (hp : PhysicalArray p)
    (hu : ∀ t, PhysicalStep p (u t)) :
    ∃ o, runFullMode p u (fun t => hybridPerezStep q p (fitStep p (u t)) (v t)) aoi = some o :=
  C07_physical p u _ aoi (fun t => (hl t).inverse_hybrid p _)
    (fun t => (hl t).reflectivities_hybrid p _) hp hu

/-! ## C08 -/

/-- C08 on physically placed arrays, isotropic model: radiosity, incident irradiance, isotropic and
reflected part are not negative. -/
theorem C08_isotropic (p : ArrayParams) (u : ι → StepIn) (q : IrrParams) (v : ι → IrrIn)
    (aoi : ι → Option (List Asg)) (o : ι → FullOut)
    (h : runFullMode p u (fun t => isotropicStep q (v t)) aoi = some o)
    (hl : ∀ t, LossesOk q (v t)) (hp : PhysicalArray p) (t : ι) (hu : PhysicalStep p (u t))
    (hv : LightOk q (v t)) :
    ∀ a ∈ surfaces p, 0 ≤ (o t).q0 a ∧ 0 ≤ (o t).qinc a ∧ 0 ≤ (o t).isotropic a ∧
      0 ≤ (o t).reflection a := by
  have hc : ∀ a ∈ surfaces p, 0 ≤ ((isotropicStep q (v t)).comp a).sum := by
    intro a _
    simp only [isotropicStep, List.sum_cons, List.sum_nil, add_zero]
    exact directCats_nonneg hv a
  intro a ha
  obtain ⟨h1, h2, h3, h4⟩ := C08_nonneg p u _ aoi o h (fun t => (hl t).inverse_isotropic p)
    (fun t => (hl t).reflectivities_isotropic p) t (C02_viewFactorsOk p u t hp hu) hc hv.dhi a ha
  exact ⟨h1, (hc a ha).trans h2, h3, h4⟩

/-- C08 on physically placed arrays, hybrid Perez model. -/
theorem C08_hybrid (p : ArrayParams) (u : ι → StepIn) (q : IrrParams) (v : ι → IrrIn)
    (aoi : ι → Option (List Asg)) (o : ι → FullOut)
    (h : runFullMode p u (fun t => hybridPerezStep q p (fitStep p (u t)) (v t)) aoi = some o)
    (hl : ∀ t, LossesOk q (v t)) (hp : PhysicalArray p) (t : ι) (hu : PhysicalStep p (u t))
    (hv : LightOk q (v t)) (hP : PerezOk q (v t)) :
    ∀ a ∈ surfaces p, 0 ≤ (o t).q0 a ∧ 0 ≤ (o t).qinc a ∧ 0 ≤ (o t).isotropic a ∧
      0 ≤ (o t).reflection a := by
  have hc : ∀ a ∈ surfaces p,
      0 ≤ ((hybridPerezStep q p (fitStep p (u t)) (v t)).comp a).sum := by
    intro a _
    simp only [hybridPerezStep, List.sum_cons, List.sum_nil, add_zero]
    have h1 := directCats_nonneg hv a
    have h2 := circumsolarCats_nonneg hv hP a
    have h3 := horizonOf_nonneg hP p (fitStep p (u t)) a
    positivity
  intro a ha
  obtain ⟨h1, h2, h3, h4⟩ := C08_nonneg p u _ aoi o h (fun t => (hl t).inverse_hybrid p _)
    (fun t => (hl t).reflectivities_hybrid p _) t (C02_viewFactorsOk p u t hp hu) hc
    hP.isotropic a ha
  exact ⟨h1, (hc a ha).trans h2, h3, h4⟩

/-- C08 on physically placed arrays: upper bounds. -/
theorem C08_physical_bound (p : ArrayParams) (u : ι → StepIn) (s : ι → IrrStep)
    (aoi : ι → Option (List Asg)) (o : ι → FullOut) (h : runFullMode p u s aoi = some o)
    (hs : ∀ t, InverseOk p (s t)) (hr : ∀ t, ReflectivitiesOk p (s t)) (hp : PhysicalArray p)
    (t : ι) (hu : PhysicalStep p (u t)) (E L r : ℝ)
    (he0 : ∀ a ∈ surfaces p, 0 ≤ ((s t).comp a).sum) (hsky0 : 0 ≤ (s t).sky)
    (he : ∀ a ∈ surfaces p, ((s t).comp a).sum ≤ E) (hsky : (s t).sky ≤ L)
    (hrr : ∀ a ∈ surfaces p, (s t).rho a ≤ r) (hr1 : r < 1) :
    ∀ a ∈ surfaces p, (o t).qinc a ≤ max (E / (1 - r)) (E + L) ∧
      (o t).q0 a ≤ r * max (E / (1 - r)) (E + L) :=
  C08_bound p u s aoi o h hs hr t (C02_viewFactorsOk p u t hp hu) E L r he0 hsky0 he hsky hrr hr1

/-! ## C12 -/

/-- C12 on physically placed arrays: more light in never gives less light on any surface. -/
theorem C12_physical_monotone (p : ArrayParams) (u : ι → StepIn) (s s' : ι → IrrStep)
    (aoi aoi' : ι → Option (List Asg)) (o o' : ι → FullOut)
    (h : runFullMode p u s aoi = some o) (h' : runFullMode p u s' aoi' = some o')
    (hs : ∀ t, InverseOk p (s t)) (hr : ∀ t, ReflectivitiesOk p (s t))
    (hr' : ∀ t, SameReflectivities p (s t) (s' t)) (hp : PhysicalArray p) (t : ι)
    (hu : PhysicalStep p (u t))
    (hcomp : ∀ a ∈ surfaces p, ((s t).comp a).sum ≤ ((s' t).comp a).sum)
    (hsky : (s t).sky ≤ (s' t).sky) :
    ∀ a ∈ surfaces p, (o t).q0 a ≤ (o' t).q0 a ∧ (o t).qinc a ≤ (o' t).qinc a ∧
      (o t).isotropic a ≤ (o' t).isotropic a ∧ (o t).reflection a ≤ (o' t).reflection a :=
  C12_monotone p u s s' aoi aoi' o o' h h' hs hr hr' t (C02_viewFactorsOk p u t hp hu) hcomp hsky

/-- C12 with the isotropic model: raising DNI and DHI (sun above the horizon) never lowers the
irradiance on any surface. -/
theorem C12_isotropic_monotone (p : ArrayParams) (u : ι → StepIn) (q : IrrParams)
    (v v' : ι → IrrIn) (aoi aoi' : ι → Option (List Asg)) (o o' : ι → FullOut)
    (h : runFullMode p u (fun t => isotropicStep q (v t)) aoi = some o)
    (h' : runFullMode p u (fun t => isotropicStep q (v' t)) aoi' = some o')
    (hl : ∀ t, LossesOk q (v t)) (hp : PhysicalArray p) (t : ι) (hu : PhysicalStep p (u t))
    (hv : LightOk q (v t))
    (hsame : ∀ t, v' t = { v t with dni := (v' t).dni, dhi := (v' t).dhi })
    (hdni : (v t).dni ≤ (v' t).dni) (hdhi : (v t).dhi ≤ (v' t).dhi) :
    ∀ a ∈ surfaces p, (o t).qinc a ≤ (o' t).qinc a := by
  have halb : ∀ t, (v' t).albedo = (v t).albedo := fun t => by rw [hsame t]
  have hrho : ∀ t a, (isotropicStep q (v' t)).rho a = (isotropicStep q (v t)).rho a := by
    intro t a
    match a with
    | .gnd _ _ _ => exact halb t
    | .pv _ .front _ _ => rfl
    | .pv _ .back _ _ => rfl
  have hthrough : ∀ x y, x ≤ y → throughModules q x ≤ throughModules q y := by
    intro x y hxy
    have := throughModules_nonneg hv (sub_nonneg.2 hxy)
    have e : throughModules q (y - x) = throughModules q y - throughModules q x := by
      unfold throughModules; ring
    linarith
  have hz : (v' t).solarZenith = (v t).solarZenith := by rw [hsame t]
  have hci : cosIncidence (v' t).surfaceTilt (v' t).surfaceAzimuth (v' t).solarZenith
      (v' t).solarAzimuth = cosIncidence (v t).surfaceTilt (v t).surfaceAzimuth (v t).solarZenith
      (v t).solarAzimuth := by rw [hsame t]
  have hg : (directCats q (v t)).groundIllum ≤ (directCats q (v' t)).groundIllum := by
    change (v t).dni * cosd (v t).solarZenith ≤ (v' t).dni * cosd (v' t).solarZenith
    rw [hz]
    exact mul_le_mul_of_nonneg_right hdni hv.sunUp.le
  have hf : (directCats q (v t)).frontIllum ≤ (directCats q (v' t)).frontIllum := by
    rw [direct_front, direct_front, hci]
    exact mul_le_mul_of_nonneg_right hdni (le_max_left _ _)
  have hb : (directCats q (v t)).backIllum ≤ (directCats q (v' t)).backIllum := by
    rw [direct_back, direct_back, hci]
    exact mul_le_mul_of_nonneg_right hdni (le_max_left _ _)
  have hc : ∀ a ∈ surfaces p, ((isotropicStep q (v t)).comp a).sum
      ≤ ((isotropicStep q (v' t)).comp a).sum := by
    intro a _
    simp only [isotropicStep, List.sum_cons, List.sum_nil, add_zero]
    match a with
    | .gnd true _ _ => exact hthrough _ _ hg
    | .gnd false _ _ => exact hg
    | .pv _ .front _ true => exact hthrough _ _ hf
    | .pv _ .front _ false => exact hf
    | .pv _ .back _ true => exact hthrough _ _ hb
    | .pv _ .back _ false => exact hb
  intro a ha
  refine (C12_physical_monotone p u _ _ aoi aoi' o o' h h' (fun t => (hl t).inverse_isotropic p)
    (fun t => (hl t).reflectivities_isotropic p) (fun t a _ => ⟨hrho t a, ?_⟩) hp t hu hc hdhi
    a ha).2.1
  change 1 / (isotropicStep q (v' t)).rho a = 1 / (isotropicStep q (v t)).rho a
  rw [hrho t a]

/-! ## Instances -/

theorem dense_physicalArray : PhysicalArray denseArray :=
  ⟨by norm_num [denseArray], by norm_num [denseArray]⟩

/-- A time step with shading between rows is physical. -/
theorem shade_physicalStep : PhysicalStep denseArray shadeStep where
  tilt_nonneg := by norm_num [shadeStep]
  tilt_lt := by norm_num [shadeStep]
  above := by
    have : sind shadeStep.surfaceTilt = 1 / 2 := sind_30
    rw [this]; norm_num [denseArray]
  sun_y := by
    change (fitStep denseArray shadeStep).sun.y ≠ 0
    rw [dense_sun]; norm_num
  sun_front := by
    change frontDotSun (fitStep denseArray shadeStep).rot.deg (fitStep denseArray shadeStep).sun ≠ 0
    rw [dense_front]; positivity
  shade_ok := dense_shadeOk

/-- The hypotheses of C02 are met: the sky view factor of a shaded surface of a shaded row. -/
theorem C02_demo :
    let i := surfIndex denseArray (.pv 1 .front 0 true)
    0 ≤ tsVfMatrix denseArray (fun _ : Fin 3 => shadeStep) 1 i (nTsSurfaces denseArray) ∧
    tsVfMatrix denseArray (fun _ : Fin 3 => shadeStep) 1 i (nTsSurfaces denseArray) ≤ 1 :=
  C02_range denseArray _ 1 dense_physicalArray shade_physicalStep _ _
    (surfIndex_lt (mem_allRefs_pv.2 (by
      simp [denseArray, ArrayParams.nSeg, ArrayParams.nFront]))).le le_rfl

theorem demo_losses : LossesOk demoIrrParams demoIrrIn where
  front := by norm_num [demoIrrParams]
  back := by norm_num [demoIrrParams]
  albedo := by norm_num [demoIrrIn]

theorem demo_light : LightOk demoIrrParams demoIrrIn where
  dni := by norm_num [demoIrrIn]
  dhi := by norm_num [demoIrrIn]
  sunUp := by norm_num [demoIrrIn, cosd_zero]
  spacing := by norm_num [demoIrrParams]
  transparency := by norm_num [demoIrrParams]

theorem demo_perez : PerezOk demoIrrParams demoIrrIn where
  isotropic := by norm_num [demoIrrIn]
  circumsolar := by norm_num [demoIrrIn]
  poa := by norm_num [demoIrrIn]
  band := by norm_num [demoIrrParams]

/-- The hypotheses of C06 to C12 are met: full mode runs on an array with shading, with both
irradiance models, and all results are not negative. -/
theorem C06_demo :
    ∃ o o' : Fin 3 → FullOut,
      runFullMode denseArray (fun _ => shadeStep)
        (fun _ => isotropicStep demoIrrParams demoIrrIn) (fun _ => none) = some o ∧
      runFullMode denseArray (fun _ => shadeStep)
        (fun _ => hybridPerezStep demoIrrParams denseArray (fitStep denseArray shadeStep) demoIrrIn)
        (fun _ => none) = some o' ∧
      ∀ t, ∀ a ∈ surfaces denseArray, 0 ≤ (o t).qinc a ∧ 0 ≤ (o' t).qinc a := by
  obtain ⟨o, ho⟩ := C07_isotropic denseArray (fun _ : Fin 3 => shadeStep) demoIrrParams
    (fun _ => demoIrrIn) (fun _ => none) (fun _ => demo_losses) dense_physicalArray
    (fun _ => shade_physicalStep)
  obtain ⟨o', ho'⟩ := C07_hybrid denseArray (fun _ : Fin 3 => shadeStep) demoIrrParams
    (fun _ => demoIrrIn) (fun _ => none) (fun _ => demo_losses) dense_physicalArray
    (fun _ => shade_physicalStep)
  refine ⟨o, o', ho, ho', fun t a ha => ⟨?_, ?_⟩⟩
  · exact (C08_isotropic _ _ _ _ _ o ho (fun _ => demo_losses) dense_physicalArray t
      shade_physicalStep demo_light a ha).2.1
  · exact (C08_hybrid _ _ _ _ _ o' ho' (fun _ => demo_losses) dense_physicalArray t
      shade_physicalStep demo_light demo_perez a ha).2.1

end PVF
