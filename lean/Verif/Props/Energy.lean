import Verif.Props.Radiosity
import Verif.Lemmas.Short

/-!
# Full mode: energy balance (C11), linearity and monotonicity (C12)
-/

namespace PVF

variable {ι : Type*} [Fintype ι]

/-! ## C11 -/

/-- Length of a surface at a time step. -/
noncomputable def lengthAt (p : ArrayParams) (u : StepIn) (a : SurfRef) : ℝ :=
  ((fitStep p u).coords a).length

theorem vfBetween_eq {p : ArrayParams} {u : ι → StepIn} {t : ι} {a b : SurfRef}
    (ha : a ∈ surfaces p) (hb : b ∈ surfaces p) :
    vfBetween p (tsVfMatrix p u t) a b
      = entryVF p (fitStep p (u t)) (isEmptyTs fun t => fitStep p (u t)) a b := by
  simp only [vfBetween, tsVfMatrix]
  exact vfMatrix_eq (mem_surfaces.1 ha) (mem_surfaces.1 hb)

/-- Reciprocity for surfaces that are points or longer than the tolerance. -/
theorem reciprocity_point {p : ArrayParams} {u : ι → StepIn} {t : ι} {a b : SurfRef}
    (ha : a ∈ surfaces p) (hb : b ∈ surfaces p)
    (hla : lengthAt p (u t) a = 0 ∨ lengthAt p (u t) a > TOL)
    (hlb : lengthAt p (u t) b = 0 ∨ lengthAt p (u t) b > TOL) :
    lengthAt p (u t) a * vfBetween p (tsVfMatrix p u t) a b
      = lengthAt p (u t) b * vfBetween p (tsVfMatrix p u t) b a := by
  rw [vfBetween_eq ha hb, vfBetween_eq hb ha]
  rcases hla with hla | hla
  · rw [hla, entryVF_point_col _ _ _ b a hla]; simp
  rcases hlb with hlb | hlb
  · rw [hlb, entryVF_point_col _ _ _ a b hlb]; simp
  exact entryVF_reciprocity p _ _ a b hla hlb

/-- Row sums in terms of surfaces. -/
theorem row_sum_surfaces {p : ArrayParams} {u : ι → StepIn} {t : ι} {a : SurfRef}
    (ha : a ∈ surfaces p) (hl : lengthAt p (u t) a > TOL) :
    ∑ b ∈ surfaces p, vfBetween p (tsVfMatrix p u t) a b + vfToSky p (tsVfMatrix p u t) a = 1 := by
  have h := C01_row_sum p u t _ (surfIndex_lt (mem_surfaces.1 ha))
    (by rw [surfLen_eq (mem_surfaces.1 ha)]; exact hl)
  rw [Finset.sum_range_succ, sum_index'] at h
  exact h

/-- C11: the absorbed power is the power coming directly from the sky (direct, circumsolar,
horizon), plus the power received from the isotropic sky, minus the power sent back to the sky.
Each surface is a point or longer than the tolerance at that time step. -/
theorem C11_energy_balance (p : ArrayParams) (u : ι → StepIn) (s : ι → IrrStep) (o : ι → FullOut)
    (h : runFullMode p u s (fun _ => none) = some o) (hs : ∀ t, InverseOk p (s t)) (t : ι)
    (habs : ∀ a ∈ surfaces p, ((s t).compAbs a).sum = (1 - (s t).rho a) * ((s t).comp a).sum)
    (hlen : ∀ a ∈ surfaces p, lengthAt p (u t) a = 0 ∨ lengthAt p (u t) a > TOL) :
    ∑ a ∈ surfaces p, lengthAt p (u t) a * (o t).qabs a
      = ∑ a ∈ surfaces p, lengthAt p (u t) a * ((s t).comp a).sum
        + ∑ a ∈ surfaces p, lengthAt p (u t) a * (vfToSky p (tsVfMatrix p u t) a * (s t).sky)
        - ∑ a ∈ surfaces p, lengthAt p (u t) a * (vfToSky p (tsVfMatrix p u t) a * (o t).q0 a) := by
  obtain ⟨hb, -⟩ := C06_radiosity p u s _ o h hs t
  set F := tsVfMatrix p u t with hF
  set L := lengthAt p (u t) with hL
  have h1 : ∀ a ∈ surfaces p, L a * (o t).qabs a
      = L a * ((s t).comp a).sum + ∑ b ∈ surfaces p, L a * vfBetween p F a b * (o t).q0 b
        + L a * (vfToSky p F a * (s t).sky) - L a * (o t).q0 a := by
    intro a ha
    have h2 := (C10_absorbed p u s o h hs t habs a ha).2
    have h3 := hb.arriving a ha
    have h4 : ∑ b ∈ surfaces p, L a * vfBetween p F a b * (o t).q0 b
        = L a * ∑ b ∈ surfaces p, vfBetween p F a b * (o t).q0 b := by
      rw [Finset.mul_sum]; exact Finset.sum_congr rfl fun b _ => by ring
    rw [h4]
    have : (o t).qabs a = (o t).qinc a - (o t).q0 a := by linarith
    rw [this, h3]; ring
  rw [Finset.sum_congr rfl h1]
  have h2 : ∑ a ∈ surfaces p, ∑ b ∈ surfaces p, L a * vfBetween p F a b * (o t).q0 b
      = ∑ b ∈ surfaces p, (L b * (o t).q0 b - L b * (vfToSky p F b * (o t).q0 b)) := by
    rw [Finset.sum_comm]
    refine Finset.sum_congr rfl fun b hb' => ?_
    have h3 : ∀ a ∈ surfaces p, L a * vfBetween p F a b * (o t).q0 b
        = vfBetween p F b a * (L b * (o t).q0 b) := by
      intro a ha
      rw [reciprocity_point ha hb' (hlen a ha) (hlen b hb')]; ring
    rw [Finset.sum_congr rfl h3, ← Finset.sum_mul]
    rcases hlen b hb' with h0 | h0
    · rw [h0]; simp
    · have := row_sum_surfaces hb' h0
      have h5 : ∑ i ∈ surfaces p, vfBetween p F b i = 1 - vfToSky p F b := by linarith
      rw [h5]; ring
  simp only [Finset.sum_sub_distrib, Finset.sum_add_distrib]
  rw [h2, Finset.sum_sub_distrib]
  ring

/-! ## C12 -/

/-- Two irradiance inputs that differ in irradiance values only. -/
def SameReflectivities (p : ArrayParams) (s s' : IrrStep) : Prop :=
  ∀ a ∈ surfaces p, s'.rho a = s.rho a ∧ s'.invRho a = s.invRho a

theorem withSky_congr {p : ArrayParams} {f f' : SurfRef → ℝ} {x : ℝ}
    (h : ∀ a ∈ surfaces p, f a = f' a) : withSky p f x = withSky p f' x := by
  rw [funext_iff, forall_fin_index]
  refine ⟨fun a ha => ?_, ?_⟩
  · rw [withSky_surf ha, withSky_surf ha, h a ha]
  · rw [withSky_last, withSky_last]

theorem aMat_congr {p : ArrayParams} {s s' : IrrStep} (h : SameReflectivities p s s')
    (F : ℕ → ℕ → ℝ) : aMat p s' F = aMat p s F := by
  unfold aMat invRhoVec
  rw [withSky_congr fun a ha => (h a ha).2]

/-- C12: full mode succeeds or fails independently of the irradiance values, and its outputs are
linear in them: `s''` is the combination `x s + y s'`. -/
theorem C12_linear (p : ArrayParams) (u : ι → StepIn) (s s' s'' : ι → IrrStep)
    (aoi : ι → Option (List Asg)) (o o' : ι → FullOut) (x y : ℝ)
    (h : runFullMode p u s aoi = some o) (h' : runFullMode p u s' aoi = some o')
    (hr' : ∀ t, SameReflectivities p (s t) (s' t)) (hr'' : ∀ t, SameReflectivities p (s t) (s'' t))
    (hcomp : ∀ t, ∀ a ∈ surfaces p,
      ((s'' t).comp a).sum = x * ((s t).comp a).sum + y * ((s' t).comp a).sum)
    (habs : ∀ t, ∀ a ∈ surfaces p,
      ((s'' t).compAbs a).sum = x * ((s t).compAbs a).sum + y * ((s' t).compAbs a).sum)
    (hsky : ∀ t, (s'' t).sky = x * (s t).sky + y * (s' t).sky) :
    ∃ o'', runFullMode p u s'' aoi = some o'' ∧ ∀ t, ∀ a ∈ surfaces p,
      (o'' t).q0 a = x * (o t).q0 a + y * (o' t).q0 a ∧
      (o'' t).qinc a = x * (o t).qinc a + y * (o' t).qinc a ∧
      (o'' t).isotropic a = x * (o t).isotropic a + y * (o' t).isotropic a ∧
      (o'' t).reflection a = x * (o t).reflection a + y * (o' t).reflection a ∧
      (o'' t).qabs a = x * (o t).qabs a + y * (o' t).qabs a := by
  classical
  refine ⟨fun t => fullStep p (s'' t) (tsVfMatrix p u t) (aoi t), ?_, ?_⟩
  · unfold runFullMode
    rw [if_pos]
    intro t
    rw [aMat_congr (hr'' t)]
    exact (runFullMode_some h t).1
  · intro t a ha
    rw [(runFullMode_some h t).2, (runFullMode_some h' t).2]
    set F := tsVfMatrix p u t with hF
    have hirr : irradianceVec p (s'' t)
        = x • irradianceVec p (s t) + y • irradianceVec p (s' t) := by
      rw [funext_iff, forall_fin_index]
      refine ⟨fun a ha => ?_, ?_⟩
      · simp only [Pi.add_apply, Pi.smul_apply, irradianceVec_surf ha, smul_eq_mul, hcomp t a ha]
      · simp only [Pi.add_apply, Pi.smul_apply, irradianceVec_sky, smul_eq_mul, hsky]
    have hq : (aMat p (s'' t) F)⁻¹.mulVec (irradianceVec p (s'' t))
        = x • (aMat p (s t) F)⁻¹.mulVec (irradianceVec p (s t))
          + y • (aMat p (s' t) F)⁻¹.mulVec (irradianceVec p (s' t)) := by
      rw [hirr, aMat_congr (hr'' t), aMat_congr (hr' t), Matrix.mulVec_add, Matrix.mulVec_smul,
        Matrix.mulVec_smul]
    have hq0 : ∀ a, (fullStep p (s'' t) F (aoi t)).q0 a
        = x * (fullStep p (s t) F (aoi t)).q0 a + y * (fullStep p (s' t) F (aoi t)).q0 a := by
      intro a
      rw [fullStep_q0, fullStep_q0, fullStep_q0, hq]; rfl
    have hqinc : (fullStep p (s'' t) F (aoi t)).qinc a
        = x * (fullStep p (s t) F (aoi t)).qinc a + y * (fullStep p (s' t) F (aoi t)).qinc a := by
      rw [fullStep_qinc ha, fullStep_qinc ha, fullStep_qinc ha, hq0, (hr'' t a ha).2,
        (hr' t a ha).2]; ring
    have hiso : (fullStep p (s'' t) F (aoi t)).isotropic a
        = x * (fullStep p (s t) F (aoi t)).isotropic a
          + y * (fullStep p (s' t) F (aoi t)).isotropic a := by
      rw [fullStep_isotropic ha, fullStep_isotropic ha, fullStep_isotropic ha, hsky]; ring
    refine ⟨hq0 a, hqinc, hiso, ?_, ?_⟩
    · rw [fullStep_reflection ha, fullStep_reflection ha, fullStep_reflection ha, hqinc, hiso,
        hcomp t a ha]; ring
    · have hA : ∀ z : IrrStep, SameReflectivities p (s t) z →
          buildVfAoi (fun i => rhoVec p z (Fin.ofNat _ i)) F (aoi t)
            = buildVfAoi (fun i => rhoVec p (s t) (Fin.ofNat _ i)) F (aoi t) := by
        intro z hz
        unfold rhoVec
        rw [withSky_congr fun a ha => (hz a ha).1]
      have hqabs : ∀ z : IrrStep, (fullStep p z F (aoi t)).qabs a
          = (vfMat _ (buildVfAoi (fun i => rhoVec p z (Fin.ofNat _ i)) F (aoi t)).1).mulVec
              ((aMat p z F)⁻¹.mulVec (irradianceVec p z)) (fidx p a)
            + withSky p (fun a => sumComponents (z.compAbs a)) 0 (fidx p a) := fun z => rfl
      rw [hqabs, hqabs, hqabs, hA _ (hr'' t), hA _ (hr' t), hq, Matrix.mulVec_add,
        Matrix.mulVec_smul, Matrix.mulVec_smul, withSky_surf ha, withSky_surf ha, withSky_surf ha,
        sumComponents_eq, sumComponents_eq, sumComponents_eq, habs t a ha]
      simp only [Pi.add_apply, Pi.smul_apply, smul_eq_mul]
      ring

/-- C12: more light in never gives less light on any surface. -/
theorem C12_monotone (p : ArrayParams) (u : ι → StepIn) (s s' : ι → IrrStep)
    (aoi aoi' : ι → Option (List Asg)) (o o' : ι → FullOut)
    (h : runFullMode p u s aoi = some o) (h' : runFullMode p u s' aoi' = some o')
    (hs : ∀ t, InverseOk p (s t)) (hr : ∀ t, ReflectivitiesOk p (s t))
    (hr' : ∀ t, SameReflectivities p (s t) (s' t)) (t : ι)
    (hF : ViewFactorsOk p (tsVfMatrix p u t))
    (hcomp : ∀ a ∈ surfaces p, ((s t).comp a).sum ≤ ((s' t).comp a).sum)
    (hsky : (s t).sky ≤ (s' t).sky) :
    ∀ a ∈ surfaces p, (o t).q0 a ≤ (o' t).q0 a ∧ (o t).qinc a ≤ (o' t).qinc a ∧
      (o t).isotropic a ≤ (o' t).isotropic a ∧ (o t).reflection a ≤ (o' t).reflection a := by
  have hs' : ∀ t, InverseOk p (s' t) := fun t a ha => by
    rw [(hr' t a ha).1, (hr' t a ha).2]; exact hs t a ha
  have hb := (C06_radiosity p u s aoi o h hs t).1
  have hb' := (C06_radiosity p u s' aoi' o' h' hs' t).1
  have hb'' : RadiosityBalance p (tsVfMatrix p u t) (fun a => ((s' t).comp a).sum) (s t).rho
      (s' t).sky (o' t).q0 (o' t).qinc :=
    ⟨hb'.arriving, fun a ha => by rw [← (hr' t a ha).1]; exact hb'.sent a ha⟩
  have hq := (hb''.add hb 1 (-1)).nonneg hF (hr t)
    (fun a ha => by have := hcomp a ha; linarith) (by linarith)
  have hq0 : ∀ a ∈ surfaces p, (o t).q0 a ≤ (o' t).q0 a := fun a ha => by
    have := hq a ha; linarith
  intro a ha
  have c := C09_components p u s aoi o h hs t a ha
  have c' := C09_components p u s' aoi' o' h' hs' t a ha
  have hiso : (o t).isotropic a ≤ (o' t).isotropic a := by
    rw [c.2.1, c'.2.1]
    exact mul_le_mul_of_nonneg_left hsky (hF.nonneg_sky a ha)
  have hrefl : (o t).reflection a ≤ (o' t).reflection a := by
    rw [c.2.2, c'.2.2]
    refine Finset.sum_le_sum fun b hb1 => mul_le_mul_of_nonneg_left ?_ (hF.nonneg a ha b hb1)
    rw [← hb.sent b hb1, ← hb'.sent b hb1]
    exact hq0 b hb1
  refine ⟨hq0 a ha, ?_, hiso, hrefl⟩
  rw [c.1, c'.1]
  have := hcomp a ha
  linarith

/-- Two inputs with the same sun position, surface orientation and albedo. -/
structure SameConditions (v w : IrrIn) : Prop where
  zenith : w.solarZenith = v.solarZenith
  azimuth : w.solarAzimuth = v.solarAzimuth
  tilt : w.surfaceTilt = v.surfaceTilt
  surfaceAzimuth : w.surfaceAzimuth = v.surfaceAzimuth
  albedo : w.albedo = v.albedo

theorem SameConditions.aoiFront {v w : IrrIn} (h : SameConditions v w) :
    w.aoiFront = v.aoiFront := by
  simp [IrrIn.aoiFront, h.zenith, h.azimuth, h.tilt, h.surfaceAzimuth]

theorem SameConditions.aoiBack {v w : IrrIn} (h : SameConditions v w) :
    w.aoiBack = v.aoiBack := by
  simp [IrrIn.aoiBack, h.aoiFront]

theorem SameConditions.rhoOf {v w : IrrIn} (h : SameConditions v w) (q : IrrParams) :
    rhoOf q w = rhoOf q v := by
  funext a
  match a with
  | .gnd _ _ _ => exact h.albedo
  | .pv _ .front _ _ => rfl
  | .pv _ .back _ _ => rfl

theorem SameConditions.faoiDirectOf {v w : IrrIn} (h : SameConditions v w) (q : IrrParams) :
    faoiDirectOf q w = faoiDirectOf q v := by
  funext a
  match a with
  | .gnd _ _ _ => simp [PVF.faoiDirectOf, h.albedo]
  | .pv _ .front _ _ => simp [PVF.faoiDirectOf, faoiDirectFront, h.aoiFront]
  | .pv _ .back _ _ => simp [PVF.faoiDirectOf, faoiDirectBack, h.aoiBack]

theorem directCats_linear (q : IrrParams) {v v' v'' : IrrIn} {x y : ℝ} (h' : SameConditions v v')
    (h'' : SameConditions v v'') (hd : v''.dni = x * v.dni + y * v'.dni) (a : SurfRef) :
    (directCats q v'').get a = x * (directCats q v).get a + y * (directCats q v').get a := by
  match a with
  | .gnd true _ _ =>
    simp only [directCats, Cats.get, throughModules, h'.zenith, h''.zenith, hd]; ring
  | .gnd false _ _ => simp only [directCats, Cats.get, h'.zenith, h''.zenith, hd]; ring
  | .pv _ .front _ true =>
    simp only [directCats, Cats.get, throughModules, h'.aoiFront, h''.aoiFront, hd]
    split_ifs <;> ring
  | .pv _ .front _ false =>
    simp only [directCats, Cats.get, h'.aoiFront, h''.aoiFront, hd]; split_ifs <;> ring
  | .pv _ .back _ true =>
    simp only [directCats, Cats.get, throughModules, h'.aoiFront, h''.aoiFront, h'.aoiBack,
      h''.aoiBack, hd]
    split_ifs <;> ring
  | .pv _ .back _ false =>
    simp only [directCats, Cats.get, h'.aoiFront, h''.aoiFront, h'.aoiBack, h''.aoiBack, hd]
    split_ifs <;> ring

/-- C12 for the inputs of the isotropic model: outputs are linear in DNI and DHI. -/
theorem C12_isotropic (p : ArrayParams) (u : ι → StepIn) (q : IrrParams) (v v' v'' : ι → IrrIn)
    (aoi : ι → Option (List Asg)) (o o' : ι → FullOut) (x y : ℝ)
    (h : runFullMode p u (fun t => isotropicStep q (v t)) aoi = some o)
    (h' : runFullMode p u (fun t => isotropicStep q (v' t)) aoi = some o')
    (hv' : ∀ t, SameConditions (v t) (v' t)) (hv'' : ∀ t, SameConditions (v t) (v'' t))
    (hdni : ∀ t, (v'' t).dni = x * (v t).dni + y * (v' t).dni)
    (hdhi : ∀ t, (v'' t).dhi = x * (v t).dhi + y * (v' t).dhi) :
    ∃ o'', runFullMode p u (fun t => isotropicStep q (v'' t)) aoi = some o'' ∧
      ∀ t, ∀ a ∈ surfaces p,
      (o'' t).q0 a = x * (o t).q0 a + y * (o' t).q0 a ∧
      (o'' t).qinc a = x * (o t).qinc a + y * (o' t).qinc a ∧
      (o'' t).isotropic a = x * (o t).isotropic a + y * (o' t).isotropic a ∧
      (o'' t).reflection a = x * (o t).reflection a + y * (o' t).reflection a ∧
      (o'' t).qabs a = x * (o t).qabs a + y * (o' t).qabs a := by
  refine C12_linear p u _ _ _ aoi o o' x y h h' ?_ ?_ ?_ ?_ ?_
  · intro t a _
    simp [isotropicStep, (hv' t).rhoOf]
  · intro t a _
    simp [isotropicStep, (hv'' t).rhoOf]
  · intro t a _
    simp only [isotropicStep, List.sum_cons, List.sum_nil, add_zero,
      directCats_linear q (hv' t) (hv'' t) (hdni t)]
  · intro t a _
    simp only [isotropicStep, List.sum_cons, List.sum_nil, add_zero,
      directCats_linear q (hv' t) (hv'' t) (hdni t), (hv' t).faoiDirectOf, (hv'' t).faoiDirectOf]
    ring
  · intro t
    exact hdhi t

end PVF
