import Verif.Lemmas.Radiosity
import Verif.Props.Structure

/-!
# Full mode: C06 to C12
-/

namespace PVF

variable {ι : Type*} [Fintype ι]

/-! ## Reading off the outputs -/

theorem fullStep_q0 (p : ArrayParams) (s : IrrStep) (F : ℕ → ℕ → ℝ) (aoi : Option (List Asg))
    (a : SurfRef) :
    (fullStep p s F aoi).q0 a = ((aMat p s F)⁻¹.mulVec (irradianceVec p s)) (fidx p a) := rfl

theorem fullStep_qinc {p : ArrayParams} {s : IrrStep} {F : ℕ → ℕ → ℝ} {aoi : Option (List Asg)}
    {a : SurfRef} (ha : a ∈ surfaces p) :
    (fullStep p s F aoi).qinc a = s.invRho a * (fullStep p s F aoi).q0 a := by
  simp only [fullStep, Matrix.mulVec_diagonal]
  congr 1
  exact withSky_surf ha _ _

theorem irradianceVec_surf {p : ArrayParams} {s : IrrStep} {a : SurfRef} (ha : a ∈ surfaces p) :
    irradianceVec p s (fidx p a) = (s.comp a).sum := by
  rw [irradianceVec, withSky_surf ha, sumComponents_eq]

theorem irradianceVec_sky (p : ArrayParams) (s : IrrStep) :
    irradianceVec p s (Fin.last _) = s.sky := by
  rw [irradianceVec, withSky_last]

theorem fullStep_isotropic {p : ArrayParams} {s : IrrStep} {F : ℕ → ℕ → ℝ}
    {aoi : Option (List Asg)} {a : SurfRef} (ha : a ∈ surfaces p) :
    (fullStep p s F aoi).isotropic a = vfToSky p F a * s.sky := by
  have h : (fullStep p s F aoi).isotropic a
      = F (fidx p a : ℕ) (nTsSurfaces p) * irradianceVec p s (Fin.last _) := rfl
  rw [h, irradianceVec_sky, fidx_val ha, vfToSky]

theorem fullStep_reflection {p : ArrayParams} {s : IrrStep} {F : ℕ → ℕ → ℝ}
    {aoi : Option (List Asg)} {a : SurfRef} (ha : a ∈ surfaces p) :
    (fullStep p s F aoi).reflection a
      = (fullStep p s F aoi).qinc a - (s.comp a).sum - (fullStep p s F aoi).isotropic a := by
  have h : (fullStep p s F aoi).reflection a
      = (fullStep p s F aoi).qinc a - irradianceVec p s (fidx p a)
        - (fullStep p s F aoi).isotropic a := rfl
  rw [h, irradianceVec_surf ha]

theorem fullStep_balance {p : ArrayParams} {s : IrrStep} {F : ℕ → ℕ → ℝ}
    {aoi : Option (List Asg)} (hs : InverseOk p s) (hF : ∀ j, F (nTsSurfaces p) j = 0)
    (hdet : IsUnit (aMat p s F).det) :
    RadiosityBalance p F (fun a => (s.comp a).sum) s.rho s.sky (fullStep p s F aoi).q0
      (fullStep p s F aoi).qinc ∧ (fullStep p s F aoi).q0Sky = s.sky := by
  have h : (aMat p s F).mulVec ((aMat p s F)⁻¹.mulVec (irradianceVec p s)) = irradianceVec p s := by
    rw [Matrix.mulVec_mulVec, Matrix.mul_nonsing_inv _ hdet, Matrix.one_mulVec]
  obtain ⟨h1, h2⟩ := (aMat_mulVec_iff hs hF _ _).1 h
  rw [irradianceVec_sky] at h1 h2
  refine ⟨⟨fun a ha => ?_, fun a ha => ?_⟩, h2⟩
  · rw [fullStep_qinc ha]
    have := h1.arriving a ha
    rw [irradianceVec_surf ha] at this
    exact this
  · rw [fullStep_qinc ha]
    exact h1.sent a ha

theorem runFullMode_some {p : ArrayParams} {u : ι → StepIn} {s : ι → IrrStep}
    {aoi : ι → Option (List Asg)} {o : ι → FullOut} (h : runFullMode p u s aoi = some o) (t : ι) :
    IsUnit (aMat p (s t) (tsVfMatrix p u t)).det ∧
      o t = fullStep p (s t) (tsVfMatrix p u t) (aoi t) := by
  classical
  unfold runFullMode at h
  split_ifs at h with hc
  rw [Option.some_inj] at h
  exact ⟨hc t, by rw [← h]⟩

/-! ## C06 -/

/-- C06: what full mode returns solves the radiosity equations at each time step, for the view
factor matrix of the array, with any irradiance model. -/
theorem C06_radiosity (p : ArrayParams) (u : ι → StepIn) (s : ι → IrrStep)
    (aoi : ι → Option (List Asg)) (o : ι → FullOut) (h : runFullMode p u s aoi = some o)
    (hs : ∀ t, InverseOk p (s t)) (t : ι) :
    RadiosityBalance p (tsVfMatrix p u t) (fun a => ((s t).comp a).sum) (s t).rho (s t).sky
      (o t).q0 (o t).qinc ∧ (o t).q0Sky = (s t).sky := by
  obtain ⟨h1, h2⟩ := runFullMode_some h t
  rw [h2]
  exact fullStep_balance (hs t) (C01_sky_row p u t) h1

/-- The isotropic model provides inverse reflectivities. -/
theorem isotropic_inverseOk (p : ArrayParams) (q : IrrParams) (v : IrrIn) (hf : q.rhoFront ≠ 0)
    (hb : q.rhoBack ≠ 0) (ha : v.albedo ≠ 0) : InverseOk p (isotropicStep q v) := by
  intro a _
  refine ⟨?_, rfl⟩
  match a with
  | .gnd _ _ _ => exact ha
  | .pv _ .front _ _ => exact hf
  | .pv _ .back _ _ => exact hb

/-- The hybrid Perez model provides inverse reflectivities. -/
theorem hybrid_inverseOk (p : ArrayParams) (g : StepGeom) (q : IrrParams) (v : IrrIn)
    (hf : q.rhoFront ≠ 0) (hb : q.rhoBack ≠ 0) (ha : v.albedo ≠ 0) :
    InverseOk p (hybridPerezStep q p g v) := by
  intro a _
  refine ⟨?_, rfl⟩
  match a with
  | .gnd _ _ _ => exact ha
  | .pv _ .front _ _ => exact hf
  | .pv _ .back _ _ => exact hb

/-- C06 for the isotropic irradiance model. -/
theorem C06_isotropic (p : ArrayParams) (u : ι → StepIn) (q : IrrParams) (v : ι → IrrIn)
    (aoi : ι → Option (List Asg)) (o : ι → FullOut)
    (h : runFullMode p u (fun t => isotropicStep q (v t)) aoi = some o)
    (hf : q.rhoFront ≠ 0) (hb : q.rhoBack ≠ 0) (ha : ∀ t, (v t).albedo ≠ 0) (t : ι) :
    RadiosityBalance p (tsVfMatrix p u t) (directCats q (v t)).get (rhoOf q (v t)) (v t).dhi
      (o t).q0 (o t).qinc ∧ (o t).q0Sky = (v t).dhi := by
  have := C06_radiosity p u _ aoi o h (fun t => isotropic_inverseOk p q (v t) hf hb (ha t)) t
  simpa [isotropicStep] using this

/-- C06 for the hybrid Perez irradiance model. -/
theorem C06_hybrid (p : ArrayParams) (u : ι → StepIn) (q : IrrParams) (v : ι → IrrIn)
    (aoi : ι → Option (List Asg)) (o : ι → FullOut)
    (h : runFullMode p u (fun t => hybridPerezStep q p (fitStep p (u t)) (v t)) aoi = some o)
    (hf : q.rhoFront ≠ 0) (hb : q.rhoBack ≠ 0) (ha : ∀ t, (v t).albedo ≠ 0) (t : ι) :
    RadiosityBalance p (tsVfMatrix p u t)
      (fun a => (directCats q (v t)).get a + (circumsolarCats q (v t)).get a
        + horizonOf q p (fitStep p (u t)) (v t) a)
      (rhoOf q (v t)) (v t).perez.luminanceIsotropic (o t).q0 (o t).qinc ∧
    (o t).q0Sky = (v t).perez.luminanceIsotropic := by
  have := C06_radiosity p u _ aoi o h (fun t => hybrid_inverseOk p _ q (v t) hf hb (ha t)) t
  simpa [hybridPerezStep, add_assoc] using this

/-! ## C07 -/

/-- C07: for acceptable view factors and reflectivities in (0,1) full mode does not fail. -/
theorem C07_solvable (p : ArrayParams) (u : ι → StepIn) (s : ι → IrrStep)
    (aoi : ι → Option (List Asg)) (hs : ∀ t, InverseOk p (s t))
    (hr : ∀ t, ReflectivitiesOk p (s t)) (hF : ∀ t, ViewFactorsOk p (tsVfMatrix p u t)) :
    ∃ o, runFullMode p u s aoi = some o := by
  classical
  unfold runFullMode
  rw [if_pos fun t => isUnit_det_aMat (hs t) (hr t) (hF t) (C01_sky_row p u t)]
  exact ⟨_, rfl⟩

/-- C07: any solution of the radiosity equations is the returned one. -/
theorem C07_unique (p : ArrayParams) (u : ι → StepIn) (s : ι → IrrStep)
    (aoi : ι → Option (List Asg)) (o : ι → FullOut) (h : runFullMode p u s aoi = some o)
    (hs : ∀ t, InverseOk p (s t)) (hr : ∀ t, ReflectivitiesOk p (s t)) (t : ι)
    (hF : ViewFactorsOk p (tsVfMatrix p u t)) (q0 qinc : SurfRef → ℝ)
    (hq : RadiosityBalance p (tsVfMatrix p u t) (fun a => ((s t).comp a).sum) (s t).rho (s t).sky
      q0 qinc) :
    ∀ a ∈ surfaces p, q0 a = (o t).q0 a ∧ qinc a = (o t).qinc a :=
  hq.unique (C06_radiosity p u s aoi o h hs t).1 hF (hr t)

/-! ## C08 -/

/-- C08: without negative inputs nothing negative comes out: neither radiosity, nor incident
irradiance, nor its isotropic and reflected parts. -/
theorem C08_nonneg (p : ArrayParams) (u : ι → StepIn) (s : ι → IrrStep)
    (aoi : ι → Option (List Asg)) (o : ι → FullOut) (h : runFullMode p u s aoi = some o)
    (hs : ∀ t, InverseOk p (s t)) (hr : ∀ t, ReflectivitiesOk p (s t)) (t : ι)
    (hF : ViewFactorsOk p (tsVfMatrix p u t))
    (he : ∀ a ∈ surfaces p, 0 ≤ ((s t).comp a).sum) (hsky : 0 ≤ (s t).sky) :
    ∀ a ∈ surfaces p, 0 ≤ (o t).q0 a ∧ ((s t).comp a).sum ≤ (o t).qinc a ∧ 0 ≤ (o t).isotropic a
      ∧ 0 ≤ (o t).reflection a := by
  have hb := (C06_radiosity p u s aoi o h hs t).1
  have hq := hb.nonneg hF (hr t) he hsky
  intro a ha
  obtain ⟨_, h2⟩ := runFullMode_some h t
  have hiso : (o t).isotropic a = vfToSky p (tsVfMatrix p u t) a * (s t).sky := by
    rw [h2]; exact fullStep_isotropic ha
  have hrefl : (o t).reflection a = (o t).qinc a - ((s t).comp a).sum - (o t).isotropic a := by
    rw [h2]; exact fullStep_reflection ha
  have hsum : 0 ≤ ∑ b ∈ surfaces p, vfBetween p (tsVfMatrix p u t) a b * (o t).q0 b :=
    Finset.sum_nonneg fun b hb => mul_nonneg (hF.nonneg a ha b hb) (hq b hb)
  have hi : 0 ≤ vfToSky p (tsVfMatrix p u t) a * (s t).sky :=
    mul_nonneg (hF.nonneg_sky a ha) hsky
  have harr := hb.arriving a ha
  refine ⟨hq a ha, by linarith, by rw [hiso]; exact hi, ?_⟩
  rw [hrefl, hiso, harr]
  linarith

/-- C08: upper bound for incident irradiance and radiosity: if `E` bounds the light coming directly
from the sky, `L` the isotropic luminance and `r < 1` the reflectivities. -/
theorem C08_bound (p : ArrayParams) (u : ι → StepIn) (s : ι → IrrStep)
    (aoi : ι → Option (List Asg)) (o : ι → FullOut) (h : runFullMode p u s aoi = some o)
    (hs : ∀ t, InverseOk p (s t)) (hr : ∀ t, ReflectivitiesOk p (s t)) (t : ι)
    (hF : ViewFactorsOk p (tsVfMatrix p u t)) (E L r : ℝ)
    (he0 : ∀ a ∈ surfaces p, 0 ≤ ((s t).comp a).sum) (hsky0 : 0 ≤ (s t).sky)
    (he : ∀ a ∈ surfaces p, ((s t).comp a).sum ≤ E) (hsky : (s t).sky ≤ L)
    (hrr : ∀ a ∈ surfaces p, (s t).rho a ≤ r) (hr1 : r < 1) :
    ∀ a ∈ surfaces p, (o t).qinc a ≤ max (E / (1 - r)) (E + L) ∧
      (o t).q0 a ≤ r * max (E / (1 - r)) (E + L) := by
  have hb := (C06_radiosity p u s aoi o h hs t).1
  have hpos := C08_nonneg p u s aoi o h hs hr t hF he0 hsky0
  obtain ⟨m, hm, hmax⟩ := (surfaces p).exists_max_image (o t).qinc (surfaces_nonempty p)
  set B := max (E / (1 - r)) (E + L) with hB
  have hr0 : 0 < r := lt_of_lt_of_le (hr t m hm).1 (hrr m hm)
  have hqm : 0 ≤ (o t).qinc m := (he0 m hm).trans (hpos m hm).2.1
  -- the light that arrives at `m` from surfaces and sky is at most the largest source
  have key : ∀ M : ℝ, (∀ b ∈ surfaces p, (o t).q0 b ≤ M) → (s t).sky ≤ M → 0 ≤ M →
      (o t).qinc m ≤ E + M := by
    intro M h1 h2 hM0
    rw [hb.arriving m hm]
    have h3 : ∑ b ∈ surfaces p, vfBetween p (tsVfMatrix p u t) m b * (o t).q0 b
        ≤ (∑ b ∈ surfaces p, vfBetween p (tsVfMatrix p u t) m b) * M := by
      rw [Finset.sum_mul]
      exact Finset.sum_le_sum fun b hb => mul_le_mul_of_nonneg_left (h1 b hb) (hF.nonneg m hm b hb)
    have h4 : vfToSky p (tsVfMatrix p u t) m * (s t).sky ≤ vfToSky p (tsVfMatrix p u t) m * M :=
      mul_le_mul_of_nonneg_left h2 (hF.nonneg_sky m hm)
    have h5 := mul_le_mul_of_nonneg_right (hF.sum_le m hm) hM0
    have := he m hm
    nlinarith
  have hq0 : ∀ b ∈ surfaces p, (o t).q0 b ≤ r * (o t).qinc m := by
    intro b hb'
    rw [hb.sent b hb']
    have h0 : 0 ≤ (o t).qinc b := (he0 b hb').trans (hpos b hb').2.1
    have h1 := hmax b hb'
    have h2 := hrr b hb'
    have h3 := (hr t b hb').1
    nlinarith
  have hm' : (o t).qinc m ≤ B := by
    rcases le_total (s t).sky (r * (o t).qinc m) with hc | hc
    · have := key _ hq0 hc (by positivity)
      refine le_trans ?_ (le_max_left _ _)
      rw [le_div_iff₀ (by linarith)]
      linarith
    · have := key (s t).sky (fun b hb' => (hq0 b hb').trans hc) le_rfl hsky0
      exact le_trans (by linarith) (le_max_right _ _)
  intro a ha
  have h1 := hmax a ha
  refine ⟨h1.trans hm', (hq0 a ha).trans ?_⟩
  exact mul_le_mul_of_nonneg_left hm' hr0.le

/-! ## C09 -/

/-- C09: incident irradiance is the sum of the components that the irradiance model provides, the
isotropic part (sky view factor times luminance) and the reflected part (sum over surfaces of view
factor times reflectivity times their incident irradiance). -/
theorem C09_components (p : ArrayParams) (u : ι → StepIn) (s : ι → IrrStep)
    (aoi : ι → Option (List Asg)) (o : ι → FullOut) (h : runFullMode p u s aoi = some o)
    (hs : ∀ t, InverseOk p (s t)) (t : ι) :
    ∀ a ∈ surfaces p,
      (o t).qinc a = ((s t).comp a).sum + (o t).isotropic a + (o t).reflection a ∧
      (o t).isotropic a = vfToSky p (tsVfMatrix p u t) a * (s t).sky ∧
      (o t).reflection a
        = ∑ b ∈ surfaces p, vfBetween p (tsVfMatrix p u t) a b * ((s t).rho b * (o t).qinc b) := by
  intro a ha
  have hb := (C06_radiosity p u s aoi o h hs t).1
  obtain ⟨_, h2⟩ := runFullMode_some h t
  have hiso : (o t).isotropic a = vfToSky p (tsVfMatrix p u t) a * (s t).sky := by
    rw [h2]; exact fullStep_isotropic ha
  have hrefl : (o t).reflection a = (o t).qinc a - ((s t).comp a).sum - (o t).isotropic a := by
    rw [h2]; exact fullStep_reflection ha
  refine ⟨by linarith, hiso, ?_⟩
  have harr := hb.arriving a ha
  have : ∑ b ∈ surfaces p, vfBetween p (tsVfMatrix p u t) a b * ((s t).rho b * (o t).qinc b)
      = ∑ b ∈ surfaces p, vfBetween p (tsVfMatrix p u t) a b * (o t).q0 b :=
    Finset.sum_congr rfl fun b hb' => by rw [hb.sent b hb']
  rw [this]
  linarith

/-- C09 for the hybrid Perez model: direct, circumsolar, horizon, isotropic and reflected light. -/
theorem C09_hybrid (p : ArrayParams) (u : ι → StepIn) (q : IrrParams) (v : ι → IrrIn)
    (aoi : ι → Option (List Asg)) (o : ι → FullOut)
    (h : runFullMode p u (fun t => hybridPerezStep q p (fitStep p (u t)) (v t)) aoi = some o)
    (hf : q.rhoFront ≠ 0) (hb : q.rhoBack ≠ 0) (ha : ∀ t, (v t).albedo ≠ 0) (t : ι) :
    ∀ a ∈ surfaces p,
      (o t).qinc a = (directCats q (v t)).get a + (circumsolarCats q (v t)).get a
        + horizonOf q p (fitStep p (u t)) (v t) a + (o t).isotropic a + (o t).reflection a := by
  intro a hm
  have := (C09_components p u _ aoi o h
    (fun t => hybrid_inverseOk p _ q (v t) hf hb (ha t)) t a hm).1
  rw [this]
  simp [hybridPerezStep]
  ring

/-! ## C10 -/

/-- C10: without AOI methods and if the absorbed components are the fraction `1 - rho` of the
incident ones, absorbed irradiance is `(1 - rho)` times incident irradiance, and the rest is sent
out. -/
theorem C10_absorbed (p : ArrayParams) (u : ι → StepIn) (s : ι → IrrStep) (o : ι → FullOut)
    (h : runFullMode p u s (fun _ => none) = some o) (hs : ∀ t, InverseOk p (s t)) (t : ι)
    (habs : ∀ a ∈ surfaces p, ((s t).compAbs a).sum = (1 - (s t).rho a) * ((s t).comp a).sum) :
    ∀ a ∈ surfaces p, (o t).qabs a = (1 - (s t).rho a) * (o t).qinc a ∧
      (o t).qinc a = (o t).qabs a + (o t).q0 a := by
  intro a ha
  obtain ⟨hb, hsky⟩ := C06_radiosity p u s _ o h hs t
  obtain ⟨hdet, h2⟩ := runFullMode_some h t
  set F := tsVfMatrix p u t with hF
  have hqabs : (o t).qabs a
      = ∑ k : Fin (nTsSurfaces p + 1), (1 - rhoVec p (s t) (Fin.ofNat _ (fidx p a : ℕ)))
          * F (fidx p a : ℕ) k
          * ((aMat p (s t) F)⁻¹.mulVec (irradianceVec p (s t))) k
        + withSky p (fun a => sumComponents ((s t).compAbs a)) 0 (fidx p a) := by
    rw [h2]; rfl
  have hid : (Fin.ofNat (nTsSurfaces p + 1) (fidx p a : ℕ)) = fidx p a :=
    Fin.ext (Nat.mod_eq_of_lt (fidx p a).2)
  rw [sum_fin_index, hid, rhoVec, withSky_surf ha, withSky_surf ha, sumComponents_eq, habs a ha]
    at hqabs
  have hq0 : ∀ b, ((aMat p (s t) F)⁻¹.mulVec (irradianceVec p (s t))) (fidx p b) = (o t).q0 b := by
    intro b; rw [h2]; rfl
  have hq0s : ((aMat p (s t) F)⁻¹.mulVec (irradianceVec p (s t))) (Fin.last _) = (o t).q0Sky := by
    rw [h2]; rfl
  rw [hq0s, hsky] at hqabs
  have hsum : ∑ b ∈ surfaces p, (1 - (s t).rho a) * F (fidx p a : ℕ) (fidx p b : ℕ)
        * ((aMat p (s t) F)⁻¹.mulVec (irradianceVec p (s t))) (fidx p b)
      = (1 - (s t).rho a) * ∑ b ∈ surfaces p, vfBetween p F a b * (o t).q0 b := by
    rw [Finset.mul_sum]
    refine Finset.sum_congr rfl fun b hb' => ?_
    rw [hq0, fidx_val ha, fidx_val hb', vfBetween]; ring
  rw [hsum, fidx_val ha] at hqabs
  have harr := hb.arriving a ha
  have hmain : (o t).qabs a = (1 - (s t).rho a) * (o t).qinc a := by
    rw [hqabs, harr, vfToSky]
    simp only [Fin.val_last]
    ring
  refine ⟨hmain, ?_⟩
  rw [hmain, hb.sent a ha]; ring

/-- Without fAOI functions the isotropic model's absorbed components are `(1 - rho)` times the
incident ones. -/
theorem isotropic_compAbs (q : IrrParams) (v : IrrIn) (hf : q.faoiFront = none)
    (hb : q.faoiBack = none) (a : SurfRef) :
    ((isotropicStep q v).compAbs a).sum
      = (1 - (isotropicStep q v).rho a) * ((isotropicStep q v).comp a).sum := by
  simp only [isotropicStep, List.sum_cons, List.sum_nil, add_zero]
  match a with
  | .gnd _ _ _ => simp [faoiDirectOf, rhoOf]
  | .pv _ .front _ _ => simp [faoiDirectOf, rhoOf, faoiDirectFront, hf]
  | .pv _ .back _ _ => simp [faoiDirectOf, rhoOf, faoiDirectBack, hb]

/-- Without fAOI functions the hybrid Perez model's absorbed components are `(1 - rho)` times the
incident ones. -/
theorem hybrid_compAbs (q : IrrParams) (p : ArrayParams) (g : StepGeom) (v : IrrIn)
    (hf : q.faoiFront = none) (hb : q.faoiBack = none) (a : SurfRef) :
    ((hybridPerezStep q p g v).compAbs a).sum
      = (1 - (hybridPerezStep q p g v).rho a) * ((hybridPerezStep q p g v).comp a).sum := by
  simp only [hybridPerezStep, List.sum_cons, List.sum_nil, add_zero]
  match a with
  | .gnd _ _ _ => simp [faoiDirectOf, rhoOf, horizonOf, horizonAbsOf]; ring
  | .pv _ .front _ _ =>
    simp [faoiDirectOf, rhoOf, faoiDirectFront, hf, horizonOf, horizonAbsOf, faoiHorizonFront]; ring
  | .pv _ .back _ _ =>
    simp [faoiDirectOf, rhoOf, faoiDirectBack, hb, horizonOf, horizonAbsOf, faoiHorizonBack]; ring

/-- C10 for the isotropic model. -/
theorem C10_isotropic (p : ArrayParams) (u : ι → StepIn) (q : IrrParams) (v : ι → IrrIn)
    (o : ι → FullOut)
    (h : runFullMode p u (fun t => isotropicStep q (v t)) (fun _ => none) = some o)
    (hf0 : q.faoiFront = none) (hb0 : q.faoiBack = none)
    (hf : q.rhoFront ≠ 0) (hb : q.rhoBack ≠ 0) (ha : ∀ t, (v t).albedo ≠ 0) (t : ι) :
    ∀ a ∈ surfaces p, (o t).qabs a = (1 - rhoOf q (v t) a) * (o t).qinc a ∧
      (o t).qinc a = (o t).qabs a + (o t).q0 a :=
  C10_absorbed p u _ o h (fun t => isotropic_inverseOk p q (v t) hf hb (ha t)) t
    (fun a _ => isotropic_compAbs q (v t) hf0 hb0 a)

/-- C10 for the hybrid Perez model. -/
theorem C10_hybrid (p : ArrayParams) (u : ι → StepIn) (q : IrrParams) (v : ι → IrrIn)
    (o : ι → FullOut)
    (h : runFullMode p u (fun t => hybridPerezStep q p (fitStep p (u t)) (v t)) (fun _ => none)
      = some o)
    (hf0 : q.faoiFront = none) (hb0 : q.faoiBack = none)
    (hf : q.rhoFront ≠ 0) (hb : q.rhoBack ≠ 0) (ha : ∀ t, (v t).albedo ≠ 0) (t : ι) :
    ∀ a ∈ surfaces p, (o t).qabs a = (1 - rhoOf q (v t) a) * (o t).qinc a ∧
      (o t).qinc a = (o t).qabs a + (o t).q0 a :=
  C10_absorbed p u _ o h (fun t => hybrid_inverseOk p _ q (v t) hf hb (ha t)) t
    (fun a _ => hybrid_compAbs q p _ (v t) hf0 hb0 a)

end PVF
