import Verif.Spec.AbsorbedLight
import Verif.Props.AoiRays
import Verif.Props.AbsorbedDirect
import Verif.Props.Principles

/-! # C94: absorbed light from first principles -/

namespace PVF

open Real

variable {ι : Type*} [Fintype ι]

/-- Two directions in which the same point is reached are the same. -/
theorem same_direction {n X P m : Pt} (hn : n.x ^ 2 + n.y ^ 2 = 1) {S T : Pt → Prop}
    (hT : ∀ Y, T Y → Y = P) {a b : ℝ} (ha : Arrives S T m X (turn n a))
    (hb : Arrives S T m X (turn n b)) : sin a = sin b := by
  obtain ⟨_, l, l0, hY, _⟩ := ha
  obtain ⟨_, k, k0, hY', _⟩ := hb
  have e := (hT _ hY).trans (hT _ hY').symm
  simp only [along, turn, Pt.mk.injEq] at e
  obtain ⟨e1, e2⟩ := e
  have es : l * sin a = k * sin b := by
    linear_combination (n.y) * e1 - n.x * e2 - (l * sin a - k * sin b) * hn
  have ec : l * cos a = k * cos b := by
    linear_combination (n.x) * e1 + n.y * e2 - (l * cos a - k * cos b) * hn
  have : l ^ 2 = k ^ 2 := by
    have s1 := sin_sq_add_cos_sq a
    have s2 := sin_sq_add_cos_sq b
    linear_combination (l * sin a + k * sin b) * es + (l * cos a + k * cos b) * ec
      - l ^ 2 * s1 + k ^ 2 * s2
  have hlk : l = k := by nlinarith
  rw [hlk] at es
  exact mul_left_cancel₀ k0.ne' es

/-- No light comes from a single point. -/
theorem keptShare_point {f : ℝ → ℝ} {n X P m : Pt} (hn : n.x ^ 2 + n.y ^ 2 = 1) {S T : Pt → Prop}
    (hT : ∀ Y, T Y → Y = P) : keptShare f n (Arrives S T m X) = 0 := by
  classical
  unfold keptShare
  have hpi := Real.pi_pos
  rw [intervalIntegral.integral_of_le (by linarith), MeasureTheory.integral_Ioc_eq_integral_Ioo]
  have h0 : ∫ a in Set.Ioo (-(π / 2)) (π / 2),
      (if Arrives S T m X (turn n a) then f (90 + a * (180 / π)) * cos a else 0) = 0 := by
    by_cases hex : ∃ a ∈ Set.Ioo (-(π / 2)) (π / 2), Arrives S T m X (turn n a)
    · obtain ⟨a, ha, hA⟩ := hex
      apply MeasureTheory.integral_eq_zero_of_ae
      rw [Filter.EventuallyEq, MeasureTheory.ae_restrict_iff' measurableSet_Ioo]
      have hne : ∀ᵐ b ∂(MeasureTheory.volume : MeasureTheory.Measure ℝ), b ∉ ({a} : Set ℝ) :=
        MeasureTheory.measure_eq_zero_iff_ae_notMem.1 (by simp)
      filter_upwards [hne] with b hb hm
      rw [if_neg]
      · rfl
      · intro hB
        apply hb
        have hs := same_direction hn hT hB hA
        exact Real.injOn_sin ⟨hm.1.le, hm.2.le⟩ ⟨ha.1.le, ha.2.le⟩ hs
    · rw [MeasureTheory.setIntegral_congr_fun (g := fun _ => (0:ℝ)) measurableSet_Ioo]
      · simp
      · intro b hb
        exact if_neg fun hB => hex ⟨b, hb, hB⟩
  rw [h0, mul_zero]

theorem rayKept_point {f : ℝ → ℝ} {p : ArrayParams} {g : StepGeom} {a b : SurfRef}
    (hb : (g.coords b).length = 0) : rayKept f p g a b = 0 :=
  keptShare_point (P := (g.coords b).b1) (outward_unit _ _) fun _ hY => onSeg_point hb hY

/-- Nothing is kept of light from a point. -/
theorem aoi_entry_point {m : AOIMethods} {p : ArrayParams} {u : ι → StepIn} {s : ι → IrrStep}
    {o : ι → FullOut} (h : runFullMode p u s (fun t => some (asgAoiTs m p u t)) = some o) (t : ι)
    {r k : ℕ} {side : RowSide} {sh : Bool} {b : SurfRef} (ha : .pv r side k sh ∈ surfaces p)
    (hb : b ∈ surfaces p) (h0 : lengthAt p (u t) b = 0) :
    vfBetween p (o t).vfAoi (.pv r side k sh) b = 0 := by
  have ha' := mem_surfaces.1 ha
  have hb' := mem_surfaces.1 hb
  have hv : (o t).vfAoi = applyAsg (tsVfMatrix p u t) (asgAoiTs m p u t) := by
    rw [(runFullMode_some h t).2]; rfl
  have he : vfBetween p (o t).vfAoi (.pv r side k sh) b
      = aoiEntry m p (fitStep p (u t)) (isEmptyTs fun t => fitStep p (u t)) (.pv r side k sh) b := by
    rw [hv, vfBetween]
    exact asgAoi_entry ha' hb'
  rw [he]
  have hb0 : ((fitStep p (u t)).coords b).length < TOL := by
    have : ((fitStep p (u t)).coords b).length = 0 := h0
    rw [this]; exact TOL_pos
  match b with
  | .gnd sh' e z =>
    simp only [aoiEntry, aoiPvGndEntry, vfAoiPvGnd, if_pos (Or.inr hb0), ite_self]
  | .pv r' s' k' sh' =>
    simp only [aoiEntry, aoiPvPvEntry, vfAoiSurfSurf, if_pos (Or.inr hb0), ite_self]

/-- The absorbed irradiance that full mode returns, in terms of light that agrees with the incident
irradiance on all surfaces that are not points. -/
theorem absorbed_by_rays {m : AOIMethods} {p : ArrayParams} {u : ι → StepIn} {s : ι → IrrStep}
    {o : ι → FullOut} (h : runFullMode p u s (fun t => some (asgAoiTs m p u t)) = some o)
    (hs : ∀ t, InverseOk p (s t)) {t : ι} (hT : Traceable p (u t)) (htilt : (u t).surfaceTilt ≠ 0)
    (hD : TOL ≤ p.distance) (hH : TOL ≤ p.height) (hn : 0 < m.nSections)
    {r k : ℕ} {side : RowSide} {sh : Bool} (ha : .pv r side k sh ∈ surfaces p)
    (hla : lengthAt p (u t) (.pv r side k sh) ≠ 0)
    (hgr : GroundReaches p (fitStep p (u t)) r (.pv r side k sh)) {d w : ℝ}
    (hf : SmoothFaoi (m.ofSide side) m.nSections d w) {rho : SurfRef → ℝ}
    (hrho : ∀ b, rho b = (s t).rho b) {x : SurfRef → ℝ}
    (hx : ∀ b ∈ surfaces p, lengthAt p (u t) b ≠ 0 → x b = (o t).qinc b) :
    |(o t).qabs (.pv r side k sh) - keptLight (m.ofSide side) p (fitStep p (u t))
        ((s t).compAbs (.pv r side k sh)).sum rho (s t).sky x (.pv r side k sh)|
      ≤ (w + d * (π / m.nSections) + d * TOL) * sentLight p (fitStep p (u t)) rho (s t).sky x := by
  classical
  set g := fitStep p (u t)
  set a := SurfRef.pv r side k sh
  have hla' := (hT.len _ ha).resolve_left hla
  have hq := fullStep_qabs_some (p := p) (s := s t) (F := tsVfMatrix p u t)
    (asg := asgAoiTs m p u t) ha
  have h2 := (runFullMode_some h t).2
  have hv : (o t).vfAoi = applyAsg (tsVfMatrix p u t) (asgAoiTs m p u t) := by rw [h2]; rfl
  obtain ⟨hB, hsky⟩ := C06_radiosity p u s _ o h hs t
  rw [← h2, ← hv, hsky] at hq
  set E := w + d * (π / m.nSections) + d * TOL with hE
  have kept : ∀ b ∈ surfaces p,
      |vfBetween p (o t).vfAoi a b * (o t).q0 b - rayKept (m.ofSide side) p g a b * (rho b * x b)|
      ≤ E * (if (g.coords b).length = 0 then 0 else |rho b * x b|) := by
    intro b hb
    by_cases h0 : (g.coords b).length = 0
    · rw [if_pos h0, rayKept_point h0, aoi_entry_point h t ha hb h0]
      simp
    · have e0 : (o t).q0 b = rho b * x b := by rw [hx b hb h0, hrho, hB.sent b hb]
      rw [if_neg h0, e0, ← sub_mul, abs_mul]
      exact mul_le_mul_of_nonneg_right (C55_aoi_by_rays m p u s o h t hT.array hT.step
        (fun h0 => absurd h0 htilt) hn ha hb hla' (hT.len b hb) hf.continuous hf.bound hf.change)
        (abs_nonneg _)
  have k2 : |(vfToSky p (o t).vfAoi a - rayKeptSky (m.ofSide side) p g a) * (s t).sky|
      ≤ E * |(s t).sky| := by
    rw [abs_mul]
    exact mul_le_mul_of_nonneg_right (C55_sky_by_rays m p u s o h t hT.array hT.step htilt hD hH hn
      ha hla' hgr hf.continuous hf.bound hf.change) (abs_nonneg _)
  have e : (o t).qabs a - keptLight (m.ofSide side) p g ((s t).compAbs a).sum rho (s t).sky x a
      = ∑ b ∈ surfaces p, (vfBetween p (o t).vfAoi a b * (o t).q0 b
          - rayKept (m.ofSide side) p g a b * (rho b * x b))
        + (vfToSky p (o t).vfAoi a - rayKeptSky (m.ofSide side) p g a) * (s t).sky := by
    rw [hq, keptLight]
    simp only [sub_mul, Finset.sum_sub_distrib]
    ring
  rw [e]
  refine (abs_add_le _ _).trans ?_
  rw [sentLight, mul_add, Finset.mul_sum]
  exact add_le_add ((Finset.abs_sum_le_sum_abs _ _).trans (Finset.sum_le_sum kept)) k2

theorem rho_reflectivity (q : IrrParams) (v : IrrIn) :
    reflectivity v.albedo q.rhoFront q.rhoBack = rhoOf q v := by
  funext a
  match a with
  | .gnd _ _ _ => rfl
  | .pv _ .front _ _ => rfl
  | .pv _ .back _ _ => rfl

/-- The angle between the sun and the modules is the one in the plane of the scene. -/
theorem elevation_of_scene {p : ArrayParams} {u : StepIn} {v : IrrIn} (hu : PhysicalStep p u)
    (hv : SameStep u v) (hz0 : 0 ≤ u.solarZenith) (hz1 : u.solarZenith < 90)
    (haz : cosd (u.surfaceAzimuth - p.axisAzimuth) = 0) {r k : ℕ} {side : RowSide} {sh : Bool} {el : ℝ}
    (hel : IsElevation ((outward (fitStep p u).rot.deg (.pv r side k sh)).x * (fitStep p u).sun.x
      + (outward (fitStep p u).rot.deg (.pv r side k sh)).y * (fitStep p u).sun.y) el) :
    IsElevation (cosIncidence v.surfaceTilt v.surfaceAzimuth v.solarZenith v.solarAzimuth) el := by
  rw [incidence_step hu hv hz0 (by linarith) haz]
  obtain ⟨h0, h1, h2⟩ := hel
  refine ⟨h0, h1, h2.trans ?_⟩
  rw [outward_dot]
  cases side
  · rfl
  · exact abs_neg _

/-- **C94.**  Isotropic irradiance model: the absorbed irradiance of a PV surface is the light from
the sun, kept according to the angle between the sun and the modules, and the light that comes to the
middle of the surface along straight lines from the sky and from other surfaces, of which as much is
kept as the fAOI function says for the angle of each ray. -/
theorem C94_isotropic (m : AOIMethods) (p : ArrayParams) (u : ι → StepIn) (q : IrrParams)
    (v : ι → IrrIn) (o : ι → FullOut)
    (h : runFullMode p u (fun t => isotropicStep q (v t)) (fun t => some (asgAoiTs m p u t)) = some o)
    (hl : ∀ t, LossesOk q (v t)) (t : ι) (hT : Traceable p (u t)) (hv : SameStep (u t) (v t))
    (hz0 : 0 ≤ (u t).solarZenith) (hz1 : (u t).solarZenith < 90)
    (haz : cosd ((u t).surfaceAzimuth - p.axisAzimuth) = 0) (htilt : (u t).surfaceTilt ≠ 0)
    (hD : TOL ≤ p.distance) (hH : TOL ≤ p.height) (hn : 0 < m.nSections)
    {r k : ℕ} {side : RowSide} {sh : Bool} (ha : .pv r side k sh ∈ surfaces p)
    (hla : lengthAt p (u t) (.pv r side k sh) ≠ 0)
    (hgr : GroundReaches p (fitStep p (u t)) r (.pv r side k sh))
    (hm : q.faoi side = some (m.ofSide side)) {d w : ℝ}
    (hf : SmoothFaoi (m.ofSide side) m.nSections d w) (x : SurfRef → ℝ) (el : ℝ) :
    let g := fitStep p (u t)
    let a := SurfRef.pv r side k sh
    let f := m.ofSide side
    let sun := sunlight p g (v t).dni (openShare q)
    let ρ := reflectivity (v t).albedo q.rhoFront q.rhoBack
    IsElevation ((outward g.rot.deg a).x * g.sun.x + (outward g.rot.deg a).y * g.sun.y) el →
    ArrivingLight p g sun ρ (v t).dhi x →
    |(o t).qabs a - keptLight f p g (f el * sun a) ρ (v t).dhi x a|
      ≤ (w + d * (π / m.nSections) + d * TOL) * sentLight p g ρ (v t).dhi x := by
  intro g a f sun ρ hel hx
  have hx' := (C91_isotropic p u q v _ o h hl t hT hv hz0 hz1 haz x).1 hx
  have key := absorbed_by_rays h (fun t => isotropic_inverseOk p q (v t) (hl t).front.1.ne'
    (hl t).back.1.ne' (hl t).albedo.1.ne') hT htilt hD hH hn ha hla hgr hf
    (rho := ρ) (fun b => congrFun (rho_reflectivity q (v t)) b) hx'
  have hel' := elevation_of_scene hT.step hv hz0 hz1 haz hel
  have hc := (C68_absorbed q p (fitStep p (u t)) (v t) r k side sh f hm el hel').1 _ rfl
  have hsun : sun a = (directCats q (v t)).get a :=
    sunlight_eq hT.array hT.step hv hz0 hz1 haz ha hla
  rw [hc, List.sum_singleton, ← hsun] at key
  exact key

/-- **C94.**  The same for the hybrid Perez model: the light from the sun includes the circumsolar
light, and of the light of the band above the horizon as much is kept as the fAOI function says for
the tilt of the modules. -/
theorem C94_hybrid (m : AOIMethods) (p : ArrayParams) (u : ι → StepIn) (q : IrrParams)
    (v : ι → IrrIn) (o : ι → FullOut)
    (h : runFullMode p u (fun t => hybridPerezStep q p (fitStep p (u t)) (v t))
      (fun t => some (asgAoiTs m p u t)) = some o)
    (hl : ∀ t, LossesOk q (v t)) (t : ι) (hT : Traceable p (u t)) (hv : SameStep (u t) (v t))
    (hz0 : 0 ≤ (u t).solarZenith) (hz1 : (u t).solarZenith < 90)
    (haz : cosd ((u t).surfaceAzimuth - p.axisAzimuth) = 0) (htilt : (u t).surfaceTilt ≠ 0)
    (hov : p.width * |cosd (u t).surfaceTilt| < p.distance)
    (hb0 : 0 < q.horizonBandAngle) (hb1 : q.horizonBandAngle < 90) (K : ℝ)
    (hK : (v t).perez.luminanceCircumsolar = K * (fitStep p (u t)).sun.y)
    (hKf : (v t).perez.poaCircumsolar
      = K * max 0 (frontDotSun (fitStep p (u t)).rot.deg (fitStep p (u t)).sun))
    (hD : TOL ≤ p.distance) (hH : TOL ≤ p.height) (hn : 0 < m.nSections)
    {r k : ℕ} {side : RowSide} {sh : Bool} (ha : .pv r side k sh ∈ surfaces p)
    (hla : lengthAt p (u t) (.pv r side k sh) ≠ 0)
    (hgr : GroundReaches p (fitStep p (u t)) r (.pv r side k sh))
    (hm : q.faoi side = some (m.ofSide side)) {d w : ℝ}
    (hf : SmoothFaoi (m.ofSide side) m.nSections d w) (x : SurfRef → ℝ) (el : ℝ) :
    let g := fitStep p (u t)
    let a := SurfRef.pv r side k sh
    let f := m.ofSide side
    let sun := sunlight p g ((v t).dni + K) (openShare q)
    let band := bandLight p g |(v t).perez.poaHorizon| q.horizonBandAngle
    let sky := (v t).perez.luminanceIsotropic
    let ρ := reflectivity (v t).albedo q.rhoFront q.rhoBack
    IsElevation ((outward g.rot.deg a).x * g.sun.x + (outward g.rot.deg a).y * g.sun.y) el →
    ArrivingLight p g (fun b => sun b + band b) ρ sky x →
    |(o t).qabs a - keptLight f p g (f el * sun a + f (u t).surfaceTilt * band a) ρ sky x a|
      ≤ (w + d * (π / m.nSections) + d * TOL) * sentLight p g ρ sky x := by
  intro g a f sun band sky ρ hel hx
  have hx' := (C91_hybrid p u q v _ o h hl t hT hv hz0 hz1 haz hov hb0 hb1 K hK hKf x).1 hx
  have key := absorbed_by_rays h (fun t => hybrid_inverseOk p _ q (v t) (hl t).front.1.ne'
    (hl t).back.1.ne' (hl t).albedo.1.ne') hT htilt hD hH hn ha hla hgr hf
    (rho := ρ) (fun b => congrFun (rho_reflectivity q (v t)) b) hx'
  have hel' := elevation_of_scene hT.step hv hz0 hz1 haz hel
  have hc := (C68_absorbed q p (fitStep p (u t)) (v t) r k side sh f hm el hel').2 _ _ _ rfl
  have hy : 0 < cosd (u t).solarZenith := by
    unfold cosd deg2rad
    apply Real.cos_pos_of_mem_Ioo
    constructor <;> nlinarith [Real.pi_pos]
  have hsun : sun a = (directCats q (v t)).get a + (circumsolarCats q (v t)).get a := by
    have h1 := sunlight_eq (q := q) hT.array hT.step hv hz0 hz1 haz ha hla
    have h2 := sunlight_eq (q := q) (v := { v t with dni := K }) hT.array hT.step
      ⟨hv.zenith, hv.azimuth, hv.tilt, hv.surfaceAzimuth⟩ hz0 hz1 haz ha hla
    have h3 : (circumsolarCats q (v t)).get a = (directCats q { v t with dni := K }).get a := by
      refine circumsolar_get (by rw [hv.zenith]; exact hy.ne') (by rw [hv.zenith]; exact hK) ?_ a
      rw [incidence_step hT.step hv hz0 (by linarith) haz]
      exact hKf
    have h5 : sun a = sunlight p (fitStep p (u t)) (v t).dni (openShare q) a
          + sunlight p (fitStep p (u t)) K (openShare q) a := by
      change sunlight p g ((v t).dni + K) (openShare q) a = _
      unfold sunlight; ring
    simp only at h2
    rw [h5, h1, h2, h3]
  have hband : band a = horizonOf q p g (v t) a := by
    cases side with
    | front => rfl
    | back =>
      have := C56_band_by_rays q p (u t) hT.array hT.step.tilt_nonneg hT.step.tilt_lt
        hT.step.above hov hb0 hb1 ha
      simp only [decide_true] at this
      simp only [band, a, bandLight, SurfRef.kind, horizonOf, poaHorizonUsed]
      rw [← this]
  rw [hc, List.sum_cons, List.sum_cons, List.sum_singleton, hv.tilt] at key
  have e : f el * sun a + f (u t).surfaceTilt * band a
      = f el * (directCats q (v t)).get a
        + (f el * (circumsolarCats q (v t)).get a
          + f (u t).surfaceTilt * horizonOf q p (fitStep p (u t)) (v t) a) := by
    rw [hsun, hband]; ring
  rw [e]
  exact key

/-- **C94**, at a time step of a run whose pvlib follows Perez' formulas, with the hybrid Perez
model: the sun has the strength `DNI + DHI F1 / cos zenith`, the sky the luminance
`DHI (1 - F1)`, the horizon band the irradiance `|DHI F2 sin tilt|`. -/
theorem C94_perez {τ : Type} [Inhabited τ] {P : Pvlib τ} {F1 F2 : PerezIn → ℝ}
    (hP : PerezFormula P.perez F1 F2) {args : RunArgs τ} {l : List IrrIn}
    (hin : args.inputs P = some l) {i : ℕ} (m : AOIMethods) (p : ArrayParams) (u : ι → StepIn)
    (q : IrrParams) (v : ι → IrrIn) (o : ι → FullOut)
    (h : runFullMode p u (fun t => hybridPerezStep q p (fitStep p (u t)) (v t))
      (fun t => some (asgAoiTs m p u t)) = some o)
    (hl : ∀ t, LossesOk q (v t)) (t : ι) (hi : l[i]? = some (v t)) (hs : SkyLit P args i (v t))
    (hT : Traceable p (u t)) (hv : SameStep (u t) (v t))
    (hz0 : 0 ≤ (u t).solarZenith) (hz1 : (u t).solarZenith ≤ 85)
    (haz : cosd ((u t).surfaceAzimuth - p.axisAzimuth) = 0) (htilt : (u t).surfaceTilt ≠ 0)
    (hov : p.width * |cosd (u t).surfaceTilt| < p.distance)
    (hb0 : 0 < q.horizonBandAngle) (hb1 : q.horizonBandAngle < 90)
    (hD : TOL ≤ p.distance) (hH : TOL ≤ p.height) (hn : 0 < m.nSections)
    {r k : ℕ} {side : RowSide} {sh : Bool} (ha : .pv r side k sh ∈ surfaces p)
    (hla : lengthAt p (u t) (.pv r side k sh) ≠ 0)
    (hgr : GroundReaches p (fitStep p (u t)) r (.pv r side k sh))
    (hm : q.faoi side = some (m.ofSide side)) {d w : ℝ}
    (hf : SmoothFaoi (m.ofSide side) m.nSections d w) (x : SurfRef → ℝ) (el : ℝ) :
    let f1 := F1 (args.perezIn P i)
    let f2 := F2 (args.perezIn P i)
    let g := fitStep p (u t)
    let a := SurfRef.pv r side k sh
    let f := m.ofSide side
    let sun := sunlight p g ((v t).dni + (v t).dhi * f1 / cosd (v t).solarZenith) (openShare q)
    let band := bandLight p g |(v t).dhi * f2 * sind (v t).surfaceTilt| q.horizonBandAngle
    let sky := (v t).dhi * (1 - f1)
    let ρ := reflectivity (v t).albedo q.rhoFront q.rhoBack
    IsElevation ((outward g.rot.deg a).x * g.sun.x + (outward g.rot.deg a).y * g.sun.y) el →
    ArrivingLight p g (fun b => sun b + band b) ρ sky x →
    |(o t).qabs a - keptLight f p g (f el * sun a + f (u t).surfaceTilt * band a) ρ sky x a|
      ≤ (w + d * (π / m.nSections) + d * TOL) * sentLight p g ρ sky x := by
  intro f1 f2
  obtain ⟨h1, h2, h3, h4⟩ := C64_luminances hP hin hi hs
  have hmono : cosd 85 ≤ cosd (v t).solarZenith := by
    rw [hv.zenith]; exact cosd_anti hz0 (by norm_num) hz1
  have hpos : 0 < cosd (v t).solarZenith := lt_of_lt_of_le cosd_85_pos hmono
  have hsun : (fitStep p (u t)).sun.y = cosd (v t).solarZenith := by rw [hv.zenith]; rfl
  have := C94_hybrid m p u q v o h hl t hT hv hz0 (by linarith) haz htilt hov hb0 hb1
    ((v t).dhi * f1 / cosd (v t).solarZenith)
    (by rw [hsun, h2]; exact (div_mul_cancel₀ _ hpos.ne').symm)
    (by rw [h3, max_eq_left hmono, incidence_step hT.step hv hz0 (by linarith) haz]; ring)
    hD hH hn ha hla hgr hm hf x el
  rw [h1, h4] at this
  exact this

/-- The parameters of the examples, with an fAOI function for each side. -/
noncomputable def faoiParams : IrrParams :=
  { demoIrrParams with
    faoiFront := some (demoAoi.ofSide .front), faoiBack := some (demoAoi.ofSide .back) }

/-- The hypotheses of C94 can be met: the upper half of the back of the first of two vertical rows,
with the sun 45 degrees over the plane of the modules. -/
theorem C94_demo (t : Fin 3) :
    let v := inputAt halfPvlib (oneStep 90 270 45 270) 0
    let g := fitStep vertArray vertStep
    let a := SurfRef.pv 0 .back 1 false
    let f : ℝ → ℝ := fun x => 1 - |x - 90| / 180
    let sun := sunlight vertArray g 100 (openShare faoiParams)
    let ρ := reflectivity (1 / 10) faoiParams.rhoFront faoiParams.rhoBack
    ∃ o x, runFullMode vertArray (fun _ => vertStep) (fun _ => isotropicStep faoiParams v)
        (fun t => some (asgAoiTs demoAoi vertArray (fun _ : Fin 3 => vertStep) t)) = some o ∧
      ArrivingLight vertArray g sun ρ 100 x ∧
      |(o t).qabs a - keptLight f vertArray g (f 45 * sun a) ρ 100 x a|
        ≤ (1 / 600 + 1 * (π / (300 : ℕ)) + 1 * TOL) * sentLight vertArray g ρ 100 x := by
  intro v g a f sun ρ
  have hloss : LossesOk faoiParams v := by
    refine ⟨demo_losses.front, demo_losses.back, ?_⟩
    have : v.albedo = 1 / 10 := rfl
    rw [this]; norm_num
  obtain ⟨o, ho⟩ := C07_isotropic vertArray (fun _ : Fin 3 => vertStep) faoiParams
    (fun _ => v) (fun t => some (asgAoiTs demoAoi vertArray (fun _ : Fin 3 => vertStep) t))
    (fun _ => hloss) vert_physicalArray (fun _ => vert_physicalStep)
  obtain ⟨d1, d2, d3⟩ := demoAoi_ok
  have hsame : SameStep vertStep v := ⟨rfl, rfl, rfl, rfl⟩
  have haz : cosd (vertStep.surfaceAzimuth - vertArray.axisAzimuth) = 0 := by
    change cosd (270 - 0) = 0
    rw [show (270 - 0 : ℝ) = 90 + 180 by norm_num, cosd_add_180, cosd_90, neg_zero]
  have hx := (C91_isotropic vertArray (fun _ : Fin 3 => vertStep) faoiParams (fun _ => v) _ o
    ho (fun _ => hloss) t vert_traceable hsame (by norm_num [vertStep]) (by norm_num [vertStep]) haz
    (o t).qinc).2 fun _ _ _ => rfl
  refine ⟨o, (o t).qinc, ho, hx, ?_⟩
  refine C94_isotropic demoAoi vertArray (fun _ : Fin 3 => vertStep) faoiParams (fun _ => v) o
    ho (fun _ => hloss) t vert_traceable hsame (by norm_num [vertStep]) (by norm_num [vertStep]) haz
    (by norm_num [vertStep]) (by norm_num [TOL, vertArray, ArrayParams.distance])
    (by norm_num [TOL, vertArray]) (by norm_num [demoAoi])
    (vert_mem 1 (by norm_num) false) (by rw [vert_len 1 (by norm_num)]; norm_num)
    vert_groundReaches rfl ⟨d1, d2, d3⟩ (o t).qinc 45 ?_ hx
  rw [vert_outward, vert_fit]
  refine ⟨by norm_num, by norm_num, ?_⟩
  change sind 45 = |1 * -(√2 / 2) + 0 * (√2 / 2)|
  rw [sind_45, one_mul, zero_mul, add_zero, abs_neg, abs_of_nonneg (by positivity)]

/-- The hypotheses of C94 for the hybrid Perez model can be met: the same rows under a sky that sends
half of its light from around the sun. -/
theorem C94_perez_demo (t : Fin 3) :
    let v := inputAt halfPvlib (oneStep 90 270 45 270) 0
    let g := fitStep vertArray vertStep
    let a := SurfRef.pv 0 .back 1 false
    let f : ℝ → ℝ := fun x => 1 - |x - 90| / 180
    let sun := sunlight vertArray g (100 + 50 / cosd 45) (openShare faoiParams)
    let band := bandLight vertArray g 0 faoiParams.horizonBandAngle
    let ρ := reflectivity (1 / 10) faoiParams.rhoFront faoiParams.rhoBack
    ∃ o x, runFullMode vertArray (fun _ => vertStep)
        (fun _ => hybridPerezStep faoiParams vertArray g v)
        (fun t => some (asgAoiTs demoAoi vertArray (fun _ : Fin 3 => vertStep) t)) = some o ∧
      ArrivingLight vertArray g (fun b => sun b + band b) ρ 50 x ∧
      |(o t).qabs a - keptLight f vertArray g (f 45 * sun a + f 90 * band a) ρ 50 x a|
        ≤ (1 / 600 + 1 * (π / (300 : ℕ)) + 1 * TOL) * sentLight vertArray g ρ 50 x := by
  intro v g a f sun band ρ
  have hloss : LossesOk faoiParams v := by
    refine ⟨demo_losses.front, demo_losses.back, ?_⟩
    have : v.albedo = 1 / 10 := rfl
    rw [this]; norm_num
  obtain ⟨o, ho⟩ := C07_hybrid vertArray (fun _ : Fin 3 => vertStep) faoiParams
    (fun _ => v) (fun t => some (asgAoiTs demoAoi vertArray (fun _ : Fin 3 => vertStep) t))
    (fun _ => hloss) vert_physicalArray (fun _ => vert_physicalStep)
  obtain ⟨d1, d2, d3⟩ := demoAoi_ok
  have hsame : SameStep vertStep v := ⟨rfl, rfl, rfl, rfl⟩
  have haz : cosd (vertStep.surfaceAzimuth - vertArray.axisAzimuth) = 0 := by
    change cosd (270 - 0) = 0
    rw [show (270 - 0 : ℝ) = 90 + 180 by norm_num, cosd_add_180, cosd_90, neg_zero]
  have hc : cosIncidence 90 270 45 270 ≠ 0 := by
    rw [cosIncidence_east]; exact (sind_pos (by norm_num) (by norm_num)).ne'
  have hlit := oneStep_lit (tilt := 90) (azimuth := 270) (zenith := 45) (sunAzimuth := 270)
    (by norm_num) (by norm_num) (by norm_num) hc
  have hov : vertArray.width * |cosd vertStep.surfaceTilt| < vertArray.distance := by
    rw [show vertStep.surfaceTilt = 90 from rfl, cosd_90]
    norm_num [vertArray, ArrayParams.distance]
  have e1 : v.dni + v.dhi * (1 / 2) / cosd v.solarZenith = 100 + 50 / cosd 45 := by
    change (100:ℝ) + 100 * (1 / 2) / cosd 45 = _
    norm_num
  have e2 : v.dhi * (1 - 1 / 2) = 50 := by
    change (100:ℝ) * (1 - 1 / 2) = 50
    norm_num
  have hx := (C91_perez halfPvlib_formula (oneStep_inputs 90 270 45 270) (i := 0) vertArray _
    faoiParams (fun _ => v) _ o ho (fun _ => hloss) t rfl hlit vert_traceable hsame
    (by norm_num [vertStep]) (by norm_num [vertStep]) haz hov
    (by norm_num [faoiParams, demoIrrParams]) (by norm_num [faoiParams, demoIrrParams])
    (o t).qinc).2 fun _ _ _ => rfl
  have hel : IsElevation ((outward g.rot.deg a).x * g.sun.x + (outward g.rot.deg a).y * g.sun.y)
      45 := by
    simp only [g, a]
    rw [vert_outward, vert_fit]
    refine ⟨by norm_num, by norm_num, ?_⟩
    change sind 45 = |1 * -(√2 / 2) + 0 * (√2 / 2)|
    rw [sind_45, one_mul, zero_mul, add_zero, abs_neg, abs_of_nonneg (by positivity)]
  have key := C94_perez halfPvlib_formula (oneStep_inputs 90 270 45 270) (i := 0) demoAoi vertArray
    (fun _ : Fin 3 => vertStep) faoiParams (fun _ => v) o ho (fun _ => hloss) t rfl hlit
    vert_traceable hsame (by norm_num [vertStep]) (by norm_num [vertStep]) haz
    (by norm_num [vertStep]) hov
    (by norm_num [faoiParams, demoIrrParams]) (by norm_num [faoiParams, demoIrrParams])
    (by norm_num [TOL, vertArray, ArrayParams.distance])
    (by norm_num [TOL, vertArray]) (by norm_num [demoAoi])
    (vert_mem 1 (by norm_num) false) (by rw [vert_len 1 (by norm_num)]; norm_num)
    vert_groundReaches rfl ⟨d1, d2, d3⟩ (o t).qinc 45 hel hx
  simp only [e1, e2, mul_zero, zero_mul, abs_zero] at hx key
  exact ⟨o, (o t).qinc, ho, hx, key⟩

end PVF
