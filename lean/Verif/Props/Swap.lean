import Verif.Lemmas.Swap
import Verif.Props.Shape

/-! # C86: which side of the modules is called the front makes no difference -/

namespace PVF

variable {ι : Type*} [Fintype ι]

/-- C86: calling the back of the modules their front, all surfaces and all shadows are where they
were before. -/
theorem C86_geometry (p : ArrayParams) (u u' : StepIn) (h : SwappedStep u u') (ht : Tilted p u) :
    let g := fitStep p u
    let g' := fitStep p.swapSides u'
    g'.sun = g.sun ∧ g'.alpha = g.alpha ∧
    (∀ i, (g'.row i).center = (g.row i).center ∧
      (g'.row i).full.b1 = (g.row i).full.b2 ∧ (g'.row i).full.b2 = (g.row i).full.b1) ∧
    (∀ i, rowShadedLengths p.swapSides g'.alpha g'.rot.deg i
      = ((rowShadedLengths p g.alpha g.rot.deg i).2, (rowShadedLengths p g.alpha g.rot.deg i).1)) ∧
    g'.ground.shadowXs = g.ground.shadowXs ∧ (g'.ground.flagOverlap ↔ g.ground.flagOverlap) ∧
    g'.ground.cuts = g.ground.cuts ∧
    (∀ a, a ∈ allRefs p ↔ a.swap p ∈ allRefs p.swapSides ∧
      (a.swap p).swap p.swapSides = a) ∧
    (∀ a ∈ allRefs p, g'.coords (a.swap p) = g.coords a) ∧
    ∀ i s, g'.uVec i s.swap = g.uVec i s := by
  have hs := same_scene h ht
  refine ⟨hs.sun, hs.alpha, fun i => ⟨rfl, by rw [hs.full], by rw [hs.full]⟩, fun i => ?_, by rw [hs.ground],
    by rw [hs.ground], by rw [hs.ground], fun a => ⟨fun ha => ⟨swap_mem ha, swap_swap ha⟩, ?_⟩,
    hs.coords, hs.uVec⟩
  · rw [hs.alpha]; exact hs.opposite.rowShading p _ i
  · rintro ⟨h1, h2⟩
    have := swap_mem h1
    rwa [h2] at this

theorem swap_empty {p : ArrayParams} {u u' : ι → StepIn} (h : ∀ t, SwappedStep (u t) (u' t))
    (ht : ∀ t, Tilted p (u t)) (a : SurfRef) (ha : a ∈ allRefs p) :
    isEmptyTs (fun t => fitStep p.swapSides (u' t)) (a.swap p) ↔ isEmptyTs (fun t => fitStep p (u t)) a := by
  unfold isEmptyTs
  simp only [(same_scene (h _) (ht _)).coords a ha]

/-- C86: the view factors between surfaces and to the sky are those of the first description. -/
theorem C86_view_factors (p : ArrayParams) (u u' : ι → StepIn) (h : ∀ t, SwappedStep (u t) (u' t))
    (ht : ∀ t, Tilted p (u t)) (t : ι) (a b : SurfRef) (ha : a ∈ surfaces p) (hb : b ∈ surfaces p) :
    vfBetween p.swapSides (tsVfMatrix p.swapSides u' t) (a.swap p) (b.swap p)
      = vfBetween p (tsVfMatrix p u t) a b ∧
    vfToSky p.swapSides (tsVfMatrix p.swapSides u' t) (a.swap p)
      = vfToSky p (tsVfMatrix p u t) a :=
  ⟨(same_scene (h t) (ht t)).matrix (swap_empty h ht) ha hb,
    (same_scene (h t) (ht t)).sky (swap_empty h ht) ha⟩

/-- C86: so are the view factors with reflection losses, if the fAOI functions of the sides are
exchanged. -/
theorem C86_aoi (m : AOIMethods) (p : ArrayParams) (u u' : ι → StepIn)
    (h : ∀ t, SwappedStep (u t) (u' t)) (ht : ∀ t, Tilted p (u t)) (t : ι) (a b : SurfRef)
    (ha : a ∈ surfaces p) (hb : b ∈ surfaces p) :
    vfBetween p.swapSides (applyAsg (tsVfMatrix p.swapSides u' t)
        (asgAoiTs m.swapSides p.swapSides u' t)) (a.swap p) (b.swap p)
      = vfBetween p (applyAsg (tsVfMatrix p u t) (asgAoiTs m p u t)) a b ∧
    vfToSky p.swapSides (applyAsg (tsVfMatrix p.swapSides u' t)
        (asgAoiTs m.swapSides p.swapSides u' t)) (a.swap p)
      = vfToSky p (applyAsg (tsVfMatrix p u t) (asgAoiTs m p u t)) a := by
  have hs := same_scene (h t) (ht t)
  have ha' := mem_surfaces.1 ha
  have hb' := mem_surfaces.1 hb
  refine ⟨?_, ?_⟩
  · unfold vfBetween tsVfMatrix asgAoiTs
    rw [asgAoi_entry (swap_mem ha') (swap_mem hb'), asgAoi_entry ha' hb',
      hs.aoi m (swap_empty h ht) ha' hb']
  · have hv := (C86_view_factors p u u' h ht t a b ha hb).2
    unfold vfToSky tsVfMatrix asgAoiTs at *
    cases a with
    | gnd sh e z =>
      rw [asgAoi_gnd ha']
      exact (asgAoi_gnd (swap_mem ha') _).trans hv
    | pv r s k sh =>
      rw [asgAoi_sky ha']
      refine (asgAoi_sky (swap_mem ha')).trans (hs.aoiSky m (swap_empty h ht) (fun k => ?_) ha')
      simp only [(same_scene (h _) (ht _)).dummy]

/-! ## Full mode -/

theorem fullStep_qabs_none {p : ArrayParams} {s : IrrStep} {F : ℕ → ℕ → ℝ} {a : SurfRef}
    (ha : a ∈ surfaces p) :
    (fullStep p s F none).qabs a
      = (1 - s.rho a) * (∑ b ∈ surfaces p, vfBetween p F a b * (fullStep p s F none).q0 b
        + vfToSky p F a * (fullStep p s F none).q0Sky) + (s.compAbs a).sum := by
  have hqabs : (fullStep p s F none).qabs a
      = ∑ k : Fin (nTsSurfaces p + 1), ((1 - rhoVec p s (Fin.ofNat _ (fidx p a : ℕ)))
          * F (fidx p a : ℕ) k) * ((aMat p s F)⁻¹.mulVec (irradianceVec p s)) k
        + withSky p (fun a => sumComponents (s.compAbs a)) 0 (fidx p a) := rfl
  have hrho : rhoVec p s (Fin.ofNat _ (fidx p a : ℕ)) = s.rho a := by
    rw [fidx_val ha]; exact withSky_surf ha _ _
  rw [hqabs, hrho, sum_fin_index, withSky_surf ha, sumComponents_eq, fidx_val ha]
  congr 1
  rw [mul_add, Finset.mul_sum]
  congr 1
  · exact Finset.sum_congr rfl fun b hb => by rw [fidx_val hb, mul_assoc]; rfl
  · rw [mul_assoc]; rfl

/-- Surface parameters of the two descriptions. -/
structure SameLight (p : ArrayParams) (s s' : IrrStep) : Prop where
  comp : ∀ a ∈ surfaces p, (s'.comp (a.swap p)).sum = (s.comp a).sum
  compAbs : ∀ a ∈ surfaces p, (s'.compAbs (a.swap p)).sum = (s.compAbs a).sum
  rho : ∀ a ∈ surfaces p, s'.rho (a.swap p) = s.rho a
  sky : s'.sky = s.sky

theorem swap_surfaces {p : ArrayParams} {a : SurfRef} (ha : a ∈ surfaces p) :
    a.swap p ∈ surfaces p.swapSides := mem_surfaces.2 (swap_mem (mem_surfaces.1 ha))

/-- Full mode gives the same irradiance on every surface if the light on the surfaces is the same. -/
theorem swap_full (p : ArrayParams) (u u' : ι → StepIn) (h : ∀ t, SwappedStep (u t) (u' t))
    (ht : ∀ t, Tilted p (u t)) (s s' : ι → IrrStep) (hl : ∀ t, SameLight p (s t) (s' t))
    (m : Option AOIMethods) (o o' : ι → FullOut)
    (ho : runFullMode p u s (fun t => m.map fun m => asgAoiTs m p u t) = some o)
    (ho' : runFullMode p.swapSides u' s'
      (fun t => m.map fun m => asgAoiTs m.swapSides p.swapSides u' t) = some o')
    (hs : ∀ t, InverseOk p (s t)) (hs' : ∀ t, InverseOk p.swapSides (s' t))
    (hr : ∀ t, ReflectivitiesOk p (s t)) (t : ι) (hF : ViewFactorsOk p (tsVfMatrix p u t)) :
    ∀ a ∈ surfaces p, (o' t).q0 (a.swap p) = (o t).q0 a ∧ (o' t).qinc (a.swap p) = (o t).qinc a ∧
      (o' t).isotropic (a.swap p) = (o t).isotropic a ∧
      (o' t).reflection (a.swap p) = (o t).reflection a ∧
      (o' t).qabs (a.swap p) = (o t).qabs a := by
  obtain ⟨hb, hsky⟩ := C06_radiosity p u s _ o ho hs t
  obtain ⟨hb', hsky'⟩ := C06_radiosity p.swapSides u' s' _ o' ho' hs' t
  have hv := C86_view_factors p u u' h ht t
  have key : RadiosityBalance p (tsVfMatrix p u t) (fun a => ((s t).comp a).sum) (s t).rho (s t).sky
      (fun a => (o' t).q0 (a.swap p)) (fun a => (o' t).qinc (a.swap p)) := by
    refine ⟨fun a ha => ?_, fun a ha => ?_⟩
    · have := hb'.arriving _ (swap_surfaces ha)
      rw [sum_swap, (hl t).comp a ha, (hl t).sky, (hv a a ha ha).2] at this
      rw [this]
      congr 2
      exact Finset.sum_congr rfl fun b hb => by rw [(hv a b ha hb).1]
    · have := hb'.sent _ (swap_surfaces ha)
      rwa [(hl t).rho a ha] at this
  have hq := key.unique hb hF (hr t)
  obtain ⟨_, e⟩ := runFullMode_some ho t
  obtain ⟨_, e'⟩ := runFullMode_some ho' t
  intro a ha
  have ha' := swap_surfaces ha
  have hiso : (o' t).isotropic (a.swap p) = (o t).isotropic a := by
    rw [e, e', fullStep_isotropic ha, fullStep_isotropic ha', (hl t).sky, (hv a a ha ha).2]
  refine ⟨(hq a ha).1, (hq a ha).2, hiso, ?_, ?_⟩
  · have r1 : (o t).reflection a = (o t).qinc a - ((s t).comp a).sum - (o t).isotropic a := by
      rw [e]; exact fullStep_reflection ha
    have r2 : (o' t).reflection (a.swap p) = (o' t).qinc (a.swap p) - ((s' t).comp (a.swap p)).sum
        - (o' t).isotropic (a.swap p) := by
      rw [e']; exact fullStep_reflection ha'
    rw [r1, r2, hiso, (hq a ha).2, (hl t).comp a ha]
  · cases m with
    | none =>
      have r1 := fullStep_qabs_none (s := s t) (F := tsVfMatrix p u t) ha
      have r2 := fullStep_qabs_none (s := s' t) (F := tsVfMatrix p.swapSides u' t) ha'
      simp only [Option.map_none] at e e'
      rw [← e] at r1
      rw [← e'] at r2
      rw [r1, r2, sum_swap, (hl t).rho a ha, (hl t).compAbs a ha, hsky, hsky', (hl t).sky,
        (hv a a ha ha).2]
      congr 3
      exact Finset.sum_congr rfl fun b hb => by rw [(hv a b ha hb).1, (hq b hb).1]
    | some m =>
      have hw := C86_aoi m p u u' h ht t
      have r1 := fullStep_qabs_some (s := s t) (F := tsVfMatrix p u t) (asg := asgAoiTs m p u t) ha
      have r2 := fullStep_qabs_some (s := s' t) (F := tsVfMatrix p.swapSides u' t)
        (asg := asgAoiTs m.swapSides p.swapSides u' t) ha'
      simp only [Option.map_some] at e e'
      rw [← e] at r1
      rw [← e'] at r2
      rw [r1, r2, sum_swap, (hl t).compAbs a ha, hsky, hsky', (hl t).sky, (hw a a ha ha).2]
      congr 2
      exact Finset.sum_congr rfl fun b hb => by rw [(hw a b ha hb).1, (hq b hb).1]

theorem viewFactorsOk_swap {p : ArrayParams} {u u' : ι → StepIn}
    (h : ∀ t, SwappedStep (u t) (u' t)) (ht : ∀ t, Tilted p (u t)) (t : ι)
    (hF : ViewFactorsOk p (tsVfMatrix p u t)) :
    ViewFactorsOk p.swapSides (tsVfMatrix p.swapSides u' t) := by
  have hvf := C86_view_factors p u u' h ht t
  have back : ∀ a ∈ surfaces p.swapSides, ∃ b ∈ surfaces p, a = b.swap p := fun a ha =>
    ⟨a.swap p.swapSides, mem_surfaces.2 (swap_mem (p := p.swapSides) (mem_surfaces.1 ha)),
      (swap_swap (p := p.swapSides) (mem_surfaces.1 ha)).symm⟩
  refine ⟨fun a ha b hb => ?_, fun a ha => ?_, fun a ha => ?_⟩
  · obtain ⟨a, hm, rfl⟩ := back a ha
    obtain ⟨b, hn, rfl⟩ := back b hb
    rw [(hvf a b hm hn).1]; exact hF.nonneg a hm b hn
  · obtain ⟨a, hm, rfl⟩ := back a ha
    rw [(hvf a a hm hm).2]; exact hF.nonneg_sky a hm
  · obtain ⟨a, hm, rfl⟩ := back a ha
    rw [sum_swap, (hvf a a hm hm).2]
    refine le_trans (le_of_eq ?_) (hF.sum_le a hm)
    congr 1
    exact Finset.sum_congr rfl fun b hb => (hvf a b hm hb).1

/-! ## The isotropic model -/

theorem aoi_swapped {v v' : IrrIn} (h : SwappedIn v v') : v'.aoiFront = 180 - v.aoiFront := by
  obtain ⟨k, hk⟩ := h.facing
  have hc : cosd (v.solarAzimuth - v'.surfaceAzimuth)
      = - cosd (v.solarAzimuth - v.surfaceAzimuth) := by
    have : v.solarAzimuth - v.surfaceAzimuth
        = (v.solarAzimuth - v'.surfaceAzimuth) + 180 + 360 * (k : ℝ) := by rw [hk]; ring
    rw [this, cosd_add_360, cosd_add_180, neg_neg]
  have hp : aoiProjection v'.surfaceTilt v'.surfaceAzimuth v'.solarZenith v'.solarAzimuth
      = - aoiProjection v.surfaceTilt v.surfaceAzimuth v.solarZenith v.solarAzimuth := by
    unfold aoiProjection
    have e1 : cosd (180 - v.surfaceTilt) = - cosd v.surfaceTilt := by
      rw [cosd_sub, cosd_180, sind_180]; ring
    have e2 : sind (180 - v.surfaceTilt) = sind v.surfaceTilt := by
      rw [show 180 - v.surfaceTilt = -v.surfaceTilt + 180 by ring, sind_add_180, sind_neg, neg_neg]
    rw [h.zenith, h.sun, h.tilt, hc, e1, e2]
    ring
  unfold IrrIn.aoiFront aoiFunction
  rw [hp, Real.arccos_neg]
  unfold rad2deg
  field_simp

theorem direct_swapped {q : IrrParams} {v v' : IrrIn} (h : SwappedIn v v') (p : ArrayParams)
    (a : SurfRef) : (directCats q.swapSides v').get (a.swap p) = (directCats q v).get a := by
  have ha := aoi_swapped h
  have hb : v'.aoiBack = v.aoiFront := by unfold IrrIn.aoiBack; rw [ha]; ring
  have ht : ∀ x, throughModules q.swapSides x = throughModules q x := fun x => rfl
  have ef : (if v'.aoiFront ≤ 90 then v'.dni * cosd v'.aoiFront else 0)
      = if ¬ v.aoiFront ≤ 90 then v.dni * cosd v.aoiBack else 0 := by
    rw [ha, h.dni]
    unfold IrrIn.aoiBack
    by_cases h1 : v.aoiFront ≤ 90
    · rw [if_neg (not_not.2 h1)]
      split_ifs with h2
      · have : v.aoiFront = 90 := by linarith
        rw [this, show (180 : ℝ) - 90 = 90 by norm_num, cosd_90, mul_zero]
      · rfl
    · rw [if_pos h1, if_pos (by linarith [not_le.1 h1])]
  have eb : (if ¬ v'.aoiFront ≤ 90 then v'.dni * cosd v'.aoiBack else 0)
      = if v.aoiFront ≤ 90 then v.dni * cosd v.aoiFront else 0 := by
    rw [hb, ha, h.dni]
    by_cases h1 : v.aoiFront ≤ 90
    · rw [if_pos h1]
      split_ifs with h2
      · have : v.aoiFront = 90 := by linarith
        rw [this, cosd_90, mul_zero]
      · rfl
    · rw [if_neg h1, if_neg (not_not.2 (by linarith [not_le.1 h1]))]
  rcases a with ⟨sh, e, z⟩ | ⟨i, s, k, sh⟩
  · cases sh <;> simp only [SurfRef.swap, Cats.get, directCats, h.dni, h.zenith, ht]
  · cases s <;> cases sh <;>
      simp only [SurfRef.swap, RowSide.swap, Cats.get, directCats, ef, eb, ht]

theorem faoi_swapped {q : IrrParams} {v v' : IrrIn} (h : SwappedIn v v') (p : ArrayParams)
    (a : SurfRef) : faoiDirectOf q.swapSides v' (a.swap p) = faoiDirectOf q v a := by
  have ha := aoi_swapped h
  have hb : v'.aoiBack = v.aoiFront := by unfold IrrIn.aoiBack; rw [ha]; ring
  have hf : v'.aoiFront = v.aoiBack := ha
  rcases a with ⟨sh, e, z⟩ | ⟨i, s, k, sh⟩
  · simp only [SurfRef.swap, faoiDirectOf, h.albedo]
  · cases s
    · simp only [SurfRef.swap, RowSide.swap, faoiDirectOf, faoiDirectFront, faoiDirectBack, hb]
      rfl
    · simp only [SurfRef.swap, RowSide.swap, faoiDirectOf, faoiDirectFront, faoiDirectBack, hf]
      rfl

theorem light_swapped {q : IrrParams} {v v' : IrrIn} (h : SwappedIn v v') (p : ArrayParams) :
    SameLight p (isotropicStep q v) (isotropicStep q.swapSides v') where
  comp a _ := by simp only [isotropicStep, direct_swapped h]
  compAbs a _ := by simp only [isotropicStep, direct_swapped h, faoi_swapped h]
  rho a _ := by
    rcases a with ⟨sh, e, z⟩ | ⟨i, s, k, sh⟩
    · exact h.albedo
    · cases s <;> rfl
  sky := h.dhi

/-- C86: with the isotropic model, full mode runs with either description and gives every physical
surface the same radiosity, incident, isotropic, reflected and absorbed irradiance. -/
theorem C86_isotropic (p : ArrayParams) (u u' : ι → StepIn) (h : ∀ t, SwappedStep (u t) (u' t))
    (ht : ∀ t, Tilted p (u t)) (q : IrrParams) (v v' : ι → IrrIn)
    (hv : ∀ t, SwappedIn (v t) (v' t)) (m : Option AOIMethods) (hl : ∀ t, LossesOk q (v t))
    (hp : PhysicalArray p) (hu : ∀ t, PhysicalStep p (u t)) :
    ∃ o o', runFullMode p u (fun t => isotropicStep q (v t))
        (fun t => m.map fun m => asgAoiTs m p u t) = some o ∧
      runFullMode p.swapSides u' (fun t => isotropicStep q.swapSides (v' t))
        (fun t => m.map fun m => asgAoiTs m.swapSides p.swapSides u' t) = some o' ∧
      ∀ t, ∀ a ∈ surfaces p, (o' t).q0 (a.swap p) = (o t).q0 a ∧
        (o' t).qinc (a.swap p) = (o t).qinc a ∧ (o' t).isotropic (a.swap p) = (o t).isotropic a ∧
        (o' t).reflection (a.swap p) = (o t).reflection a ∧
        (o' t).qabs (a.swap p) = (o t).qabs a := by
  obtain ⟨o, ho⟩ := C07_isotropic p u q v (fun t => m.map fun m => asgAoiTs m p u t) hl hp hu
  have hl' : ∀ t, LossesOk q.swapSides (v' t) := fun t =>
    ⟨(hl t).back, (hl t).front, by rw [(hv t).albedo]; exact (hl t).albedo⟩
  have hF : ∀ t, ViewFactorsOk p (tsVfMatrix p u t) := fun t => C02_viewFactorsOk p u t hp (hu t)
  have hF' : ∀ t, ViewFactorsOk p.swapSides (tsVfMatrix p.swapSides u' t) := fun t =>
    viewFactorsOk_swap h ht t (hF t)
  obtain ⟨o', ho'⟩ := C07_solvable p.swapSides u' (fun t => isotropicStep q.swapSides (v' t))
    (fun t => m.map fun m => asgAoiTs m.swapSides p.swapSides u' t)
    (fun t => (hl' t).inverse_isotropic _) (fun t => (hl' t).reflectivities_isotropic _) hF'
  exact ⟨o, o', ho, ho', fun t => swap_full p u u' h ht _ _ (fun t => light_swapped (hv t) p) m o o'
    ho ho' (fun t => (hl t).inverse_isotropic _) (fun t => (hl' t).inverse_isotropic _)
    (fun t => (hl t).reflectivities_isotropic _) t (hF t)⟩

/-! ## The hybrid Perez model -/

/-- The light of the first description, for the hybrid Perez model: the luminances of the sky are
the same, there is no light from the horizon, and the circumsolar light on the front comes from the
circumsolar luminance, as that on the back does. -/
structure SwappedPerez (v v' : IrrIn) : Prop where
  swapped : SwappedIn v v'
  isotropic : v'.perez.luminanceIsotropic = v.perez.luminanceIsotropic
  circumsolar : v'.perez.luminanceCircumsolar = v.perez.luminanceCircumsolar
  front : v.aoiFront ≤ 90 → v.perez.poaCircumsolar
    = v.perez.luminanceCircumsolar * (cosd v.aoiFront / cosd v.solarZenith)
  front' : v'.aoiFront ≤ 90 → v'.perez.poaCircumsolar
    = v'.perez.luminanceCircumsolar * (cosd v'.aoiFront / cosd v'.solarZenith)
  horizon : v.perez.poaHorizon = 0
  horizon' : v'.perez.poaHorizon = 0

theorem circumsolar_swapped {q : IrrParams} {v v' : IrrIn} (h : SwappedPerez v v') (p : ArrayParams)
    (a : SurfRef) :
    (circumsolarCats q.swapSides v').get (a.swap p) = (circumsolarCats q v).get a := by
  have ha := aoi_swapped h.swapped
  have hb : v'.aoiBack = v.aoiFront := by unfold IrrIn.aoiBack; rw [ha]; ring
  have hf : v'.aoiFront = v.aoiBack := ha
  have ht : ∀ x, throughModules q.swapSides x = throughModules q x := fun x => rfl
  have ef : (if v'.aoiFront ≤ 90 then v'.perez.poaCircumsolar else 0)
      = if ¬ v.aoiFront ≤ 90 then poaCircumsolarBack v else 0 := by
    unfold poaCircumsolarBack
    by_cases h1 : v.aoiFront ≤ 90
    · rw [if_neg (not_not.2 h1)]
      split_ifs with h2
      · have : v'.aoiFront = 90 := by linarith
        rw [h.front' h2, this, cosd_90, zero_div, mul_zero]
      · rfl
    · have h2 : v'.aoiFront ≤ 90 := by linarith [not_le.1 h1]
      rw [if_pos h1, if_pos h2, h.front' h2, hf, h.circumsolar, h.swapped.zenith]
  have eb : (if ¬ v'.aoiFront ≤ 90 then poaCircumsolarBack v' else 0)
      = if v.aoiFront ≤ 90 then v.perez.poaCircumsolar else 0 := by
    unfold poaCircumsolarBack
    rw [hb, h.circumsolar, h.swapped.zenith]
    by_cases h1 : v.aoiFront ≤ 90
    · rw [if_pos h1, h.front h1]
      split_ifs with h2
      · have : v.aoiFront = 90 := by linarith
        rw [this, cosd_90, zero_div, mul_zero]
      · rfl
    · rw [if_neg h1, if_neg (not_not.2 (by linarith [not_le.1 h1]))]
  rcases a with ⟨sh, e, z⟩ | ⟨i, s, k, sh⟩
  · cases sh <;> simp only [SurfRef.swap, Cats.get, circumsolarCats, h.circumsolar, ht]
  · cases s <;> cases sh <;>
      simp only [SurfRef.swap, RowSide.swap, Cats.get, circumsolarCats, ef, eb, ht]

theorem perez_swapped {q : IrrParams} {v v' : IrrIn} (h : SwappedPerez v v') (p : ArrayParams)
    (g g' : StepGeom) :
    SameLight p (hybridPerezStep q p g v) (hybridPerezStep q.swapSides p.swapSides g' v') := by
  have h1 : ∀ q p g a, horizonOf q p g v a = 0 := by
    intro q p g a
    rcases a with ⟨sh, e, z⟩ | ⟨i, s, k, sh⟩
    · rfl
    · cases s <;> simp [horizonOf, poaHorizonUsed, h.horizon]
  have h2 : ∀ q p g a, horizonOf q p g v' a = 0 := by
    intro q p g a
    rcases a with ⟨sh, e, z⟩ | ⟨i, s, k, sh⟩
    · rfl
    · cases s <;> simp [horizonOf, poaHorizonUsed, h.horizon']
  have h3 : ∀ q p g a, horizonAbsOf q p g v a = 0 := by
    intro q p g a
    rcases a with ⟨sh, e, z⟩ | ⟨i, s, k, sh⟩
    · rfl
    · cases s <;> simp [horizonAbsOf, poaHorizonUsed, h.horizon]
  have h4 : ∀ q p g a, horizonAbsOf q p g v' a = 0 := by
    intro q p g a
    rcases a with ⟨sh, e, z⟩ | ⟨i, s, k, sh⟩
    · rfl
    · cases s <;> simp [horizonAbsOf, poaHorizonUsed, h.horizon']
  refine ⟨fun a _ => ?_, fun a _ => ?_, fun a _ => ?_, h.isotropic⟩
  · simp only [hybridPerezStep, direct_swapped h.swapped, circumsolar_swapped h, h1, h2]
  · simp only [hybridPerezStep, direct_swapped h.swapped, circumsolar_swapped h,
      faoi_swapped h.swapped, h3, h4]
  · rcases a with ⟨sh, e, z⟩ | ⟨i, s, k, sh⟩
    · exact h.swapped.albedo
    · cases s <;> rfl

/-- C86: the hybrid Perez model gives the same results with either description as long as no light
comes from the horizon. -/
theorem C86_hybrid (p : ArrayParams) (u u' : ι → StepIn) (h : ∀ t, SwappedStep (u t) (u' t))
    (ht : ∀ t, Tilted p (u t)) (q : IrrParams) (v v' : ι → IrrIn)
    (hv : ∀ t, SwappedPerez (v t) (v' t)) (m : Option AOIMethods) (hl : ∀ t, LossesOk q (v t))
    (hp : PhysicalArray p) (hu : ∀ t, PhysicalStep p (u t)) :
    ∃ o o', runFullMode p u (fun t => hybridPerezStep q p (fitStep p (u t)) (v t))
        (fun t => m.map fun m => asgAoiTs m p u t) = some o ∧
      runFullMode p.swapSides u' (fun t => hybridPerezStep q.swapSides p.swapSides
          (fitStep p.swapSides (u' t)) (v' t))
        (fun t => m.map fun m => asgAoiTs m.swapSides p.swapSides u' t) = some o' ∧
      ∀ t, ∀ a ∈ surfaces p, (o' t).q0 (a.swap p) = (o t).q0 a ∧
        (o' t).qinc (a.swap p) = (o t).qinc a ∧ (o' t).isotropic (a.swap p) = (o t).isotropic a ∧
        (o' t).reflection (a.swap p) = (o t).reflection a ∧
        (o' t).qabs (a.swap p) = (o t).qabs a := by
  obtain ⟨o, ho⟩ := C07_hybrid p u q v (fun t => m.map fun m => asgAoiTs m p u t) hl hp hu
  have hl' : ∀ t, LossesOk q.swapSides (v' t) := fun t =>
    ⟨(hl t).back, (hl t).front, by rw [(hv t).swapped.albedo]; exact (hl t).albedo⟩
  have hF : ∀ t, ViewFactorsOk p (tsVfMatrix p u t) := fun t => C02_viewFactorsOk p u t hp (hu t)
  obtain ⟨o', ho'⟩ := C07_solvable p.swapSides u'
    (fun t => hybridPerezStep q.swapSides p.swapSides (fitStep p.swapSides (u' t)) (v' t))
    (fun t => m.map fun m => asgAoiTs m.swapSides p.swapSides u' t)
    (fun t => (hl' t).inverse_hybrid _ _) (fun t => (hl' t).reflectivities_hybrid _ _)
    (fun t => viewFactorsOk_swap h ht t (hF t))
  exact ⟨o, o', ho, ho', fun t => swap_full p u u' h ht _ _ (fun t => perez_swapped (hv t) p _ _) m
    o o' ho ho' (fun t => (hl t).inverse_hybrid _ _) (fun t => (hl' t).inverse_hybrid _ _)
    (fun t => (hl t).reflectivities_hybrid _ _) t (hF t)⟩

/-- C86: light from the horizon makes a difference in the hybrid Perez model: a surface that is
called part of a front gets all of it, the same surface called part of a back only what the
neighbouring row leaves. -/
theorem C86_horizon (p : ArrayParams) (u u' : StepIn) (h : SwappedStep u u') (ht : Tilted p u)
    (q : IrrParams) (v v' : IrrIn) (r k : ℕ) (sh : Bool)
    (ha : SurfRef.pv r .front k sh ∈ allRefs p) :
    let g := fitStep p u
    let g' := fitStep p.swapSides u'
    horizonOf q p g v (.pv r .front k sh) = |v.perez.poaHorizon| ∧
    horizonOf q.swapSides p.swapSides g' v' ((SurfRef.pv r .front k sh).swap p)
      = |v'.perez.poaHorizon|
        * (1 - horizonShadingPct q p g (g.coords (.pv r .front k sh)).centroid r false / 100) := by
  have hs := same_scene h ht
  refine ⟨rfl, ?_⟩
  have hc := hs.coords _ ha
  have e1 : p.swapSides.nRows = p.nRows := rfl
  have e2 : q.swapSides.horizonBandAngle = q.horizonBandAngle := rfl
  simp only [SurfRef.swap, RowSide.swap] at hc ⊢
  simp only [horizonOf, poaHorizonUsed, hc, horizonShadingPct, shadingAngleTo, hs.highest, e1, e2,
    hs.notPos]
  by_cases hg : (fitStep p u).rot.deg > 0 <;> simp [hg]

/-! ## Witness -/

/-- `shadeStep` with the other side called front. -/
noncomputable def shadeStepSwapped : StepIn where
  solarZenith := 60
  solarAzimuth := 270
  surfaceTilt := 150
  surfaceAzimuth := 90

/-- Light for `shadeStep`. -/
noncomputable def swapIrrIn : IrrIn :=
  { demoIrrIn with solarZenith := 60, solarAzimuth := 270, surfaceTilt := 30, surfaceAzimuth := 270 }

/-- Light for `shadeStepSwapped`. -/
noncomputable def swapIrrInSwapped : IrrIn :=
  { demoIrrIn with solarZenith := 60, solarAzimuth := 270, surfaceTilt := 150, surfaceAzimuth := 90 }

/-- The hypotheses of C86 can be met: two dense rows with shade on the second one, the lower half of
whose front is segment 0 of the front or segment 1 of the back. -/
theorem C86_demo :
    SwappedStep shadeStep shadeStepSwapped ∧ Tilted denseArray shadeStep ∧
    hasDirectShading denseArray (fitStep denseArray shadeStep).alpha
      (fitStep denseArray shadeStep).rot.deg ∧
    ∃ o o' : Fin 3 → FullOut,
      runFullMode denseArray (fun _ => shadeStep)
        (fun _ => isotropicStep demoIrrParams swapIrrIn) (fun _ => none) = some o ∧
      runFullMode denseArray.swapSides (fun _ => shadeStepSwapped)
        (fun _ => isotropicStep demoIrrParams.swapSides swapIrrInSwapped) (fun _ => none) = some o' ∧
      ∀ t, (o' t).qabs (.pv 1 .back 1 true) = (o t).qabs (.pv 1 .front 0 true) ∧
        (o' t).qinc (.pv 1 .back 0 false) = (o t).qinc (.pv 1 .front 1 false) := by
  have hs : SwappedStep shadeStep shadeStepSwapped :=
    ⟨rfl, rfl, by norm_num [shadeStep, shadeStepSwapped], -1,
      by norm_num [shadeStep, shadeStepSwapped]⟩
  have ht : Tilted denseArray shadeStep := by
    refine ⟨by norm_num [shadeStep], by norm_num [shadeStep], ?_⟩
    have : shadeStep.surfaceAzimuth - denseArray.axisAzimuth = 90 + 180 := by
      norm_num [shadeStep, denseArray]
    rw [this, sind_add_180, sind_90]
    norm_num
  have hv : SwappedIn swapIrrIn swapIrrInSwapped :=
    ⟨rfl, rfl, by norm_num [swapIrrIn, swapIrrInSwapped], ⟨-1,
      by norm_num [swapIrrIn, swapIrrInSwapped]⟩, rfl, rfl, rfl⟩
  have hl : LossesOk demoIrrParams swapIrrIn :=
    ⟨demo_losses.front, demo_losses.back, demo_losses.albedo⟩
  refine ⟨hs, ht, ?_, ?_⟩
  · exact dense_shading
  · obtain ⟨o, o', h1, h2, h3⟩ := C86_isotropic denseArray (fun _ : Fin 3 => shadeStep)
      (fun _ => shadeStepSwapped) (fun _ => hs) (fun _ => ht) demoIrrParams (fun _ => swapIrrIn)
      (fun _ => swapIrrInSwapped) (fun _ => hv) none (fun _ => hl) dense_physicalArray
      (fun _ => shade_physicalStep)
    refine ⟨o, o', h1, h2, fun t => ⟨?_, ?_⟩⟩
    · exact (h3 t (.pv 1 .front 0 true) (mem_surfaces.2 (mem_allRefs_pv.2
        ⟨by norm_num [denseArray], by simp [ArrayParams.nSeg, ArrayParams.nFront, denseArray]⟩))).2.2.2.2
    · exact (h3 t (.pv 1 .front 1 false) (mem_surfaces.2 (mem_allRefs_pv.2
        ⟨by norm_num [denseArray], by simp [ArrayParams.nSeg, ArrayParams.nFront, denseArray]⟩))).2.1

/-- The hypotheses of C86_hybrid can be met with circumsolar light on the front. -/
theorem C86_hybrid_demo : ∃ v v' : IrrIn, SwappedPerez v v' ∧
    SwappedIn v v' ∧ LossesOk demoIrrParams v ∧ 0 < v.perez.luminanceCircumsolar ∧
    0 < v.perez.luminanceIsotropic := by
  let c : IrrIn → IrrIn := fun v =>
    { v with perez := ⟨80, 20, 0, 20 * (cosd v.aoiFront / cosd v.solarZenith)⟩ }
  have hv : SwappedIn (c swapIrrIn) (c swapIrrInSwapped) :=
    ⟨rfl, rfl, by norm_num [c, swapIrrIn, swapIrrInSwapped], ⟨-1,
      by norm_num [c, swapIrrIn, swapIrrInSwapped]⟩, rfl, rfl, rfl⟩
  exact ⟨c swapIrrIn, c swapIrrInSwapped, ⟨hv, rfl, rfl, fun _ => rfl, fun _ => rfl, rfl, rfl⟩, hv,
    ⟨demo_losses.front, demo_losses.back, demo_losses.albedo⟩, by norm_num [c], by norm_num [c]⟩

end PVF
