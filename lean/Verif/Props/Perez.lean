import Verif.Spec.Perez
import Verif.Props.Run
import Verif.Lemmas.Wedge

/-!
# Perez' model in the irradiance models: C64, C65, C66, C67
-/

namespace PVF

variable {τ : Type} [Inhabited τ]

theorem cosd_85_pos : 0 < cosd 85 := by
  unfold cosd deg2rad
  have := Real.pi_pos
  apply Real.cos_pos_of_mem_Ioo
  constructor <;> nlinarith

/-- The entry of the list of inputs. -/
theorem inputs_get {P : Pvlib τ} {a : RunArgs τ} {l : List IrrIn} (hl : a.inputs P = some l)
    {i : ℕ} {v : IrrIn} (hv : l[i]? = some v) : v = inputAt P a i := by
  have ha : a.Aligned := by
    by_contra h
    rw [RunArgs.inputs, if_neg fun h' => h h'.1] at hl
    cases hl
  rw [inputs_eq P a ha] at hl
  split_ifs at hl with h
  simp only [Option.some.injEq] at hl
  subst hl
  rw [List.getElem?_map] at hv
  cases hr : (List.range a.dni.length)[i]? with
  | none => rw [hr] at hv; cases hv
  | some j =>
    rw [hr] at hv
    obtain ⟨hi, rfl⟩ := List.getElem?_eq_some_iff.1 hr
    simpa using hv.symm

/-- One row of the Perez decomposition. -/
theorem perez_row {perez : PerezIn → PerezComponents} {F1 F2 : PerezIn → ℝ}
    (hP : PerezFormula perez F1 F2) (r : PerezIn) (hz : r.solarZenith ≤ 90)
    (hs : r.dhi = 0 ∨ (perez r).skyDiffuse ≠ 0) :
    (cosd r.surfaceTilt ≠ -1 → (r.ownOut perez).luminanceIsotropic = r.dhi * (1 - F1 r)) ∧
    (0 < cosIncidence r.surfaceTilt r.surfaceAzimuth r.solarZenith r.solarAzimuth →
      (r.ownOut perez).luminanceCircumsolar = r.dhi * F1 r) ∧
    (r.ownOut perez).poaCircumsolar = perezSun F1 r ∧
    (r.ownOut perez).poaHorizon = perezBand F2 r := by
  have h85 := cosd_85_pos
  have hb : 0 < max (cosd r.solarZenith) (cosd 85) := lt_max_of_lt_right h85
  unfold PerezIn.ownOut
  simp only [aoiProjection_eq_dot]
  rcases hs with h0 | hne
  · have hz0 : (perez r).skyDiffuse = 0 := by
      rw [hP.total r hz, perezDome, perezSun, perezBand, h0]; simp
    obtain ⟨_, h2, h3⟩ := hP.none r hz hz0
    rw [if_pos hz0, if_pos hz0, h2, h3, perezSun, perezBand, h0]
    simp
  · obtain ⟨h1, h2, h3⟩ := hP.parts r hz hne
    rw [if_neg hne, if_neg hne, h1, h2, h3]
    refine ⟨fun ht => ?_, fun hc => ?_, rfl, rfl⟩
    · have : 1 + cosd r.surfaceTilt ≠ 0 := fun h => ht (by linarith)
      rw [perezDome]; field_simp
    · rw [perezSun, max_comm 0, max_eq_left hc.le]
      have := hc.ne'
      field_simp

theorem cosIncidence_flip (r : PerezIn) :
    cosIncidence r.flip.surfaceTilt r.flip.surfaceAzimuth r.flip.solarZenith r.flip.solarAzimuth
      = - cosIncidence r.surfaceTilt r.surfaceAzimuth r.solarZenith r.solarAzimuth := by
  rw [← aoiProjection_eq_dot, ← aoiProjection_eq_dot, aoiProjection_flip]

/-! ## C64 -/

/-- Any time step of any run, for any `perez` that follows Perez' formulas.  If the sun is not
below the horizon and not in the plane of the modules, the modules do not face straight down and
diffuse light arrives on them (on their back if the sun shines there), then the luminances used by
the hybrid model are the shares `1 - F1` and `F1` of the diffuse irradiance, and the light on the
front is that of Perez' model. -/
theorem C64_luminances {P : Pvlib τ} {F1 F2 : PerezIn → ℝ} (hP : PerezFormula P.perez F1 F2)
    {a : RunArgs τ} {l : List IrrIn} (hl : a.inputs P = some l) {i : ℕ} {v : IrrIn}
    (hv : l[i]? = some v) (hs : SkyLit P a i v) :
    v.perez.luminanceIsotropic = v.dhi * (1 - F1 (a.perezIn P i)) ∧
    v.perez.luminanceCircumsolar = v.dhi * F1 (a.perezIn P i) ∧
    v.perez.poaCircumsolar = v.dhi * F1 (a.perezIn P i)
      * (max 0 (cosIncidence v.surfaceTilt v.surfaceAzimuth v.solarZenith v.solarAzimuth)
        / max (cosd v.solarZenith) (cosd 85)) ∧
    v.perez.poaHorizon = v.dhi * F2 (a.perezIn P i) * sind v.surfaceTilt := by
  obtain ⟨hz, htilt, hcos, hfront, hback⟩ := hs
  have hvi := inputs_get hl hv
  subst hvi
  have hr := perez_row hP (a.perezIn P i) hz hfront
  have hper : (inputAt P a i).perez = open Classical in
      if (a.perezIn P i).hitsBack then
        { (a.perezIn P i).ownOut P.perez with
          luminanceCircumsolar := ((a.perezIn P i).flip.ownOut P.perez).luminanceCircumsolar }
      else (a.perezIn P i).ownOut P.perez := rfl
  rw [hper]
  by_cases hb : (a.perezIn P i).hitsBack
  · rw [if_pos hb]
    have hlt : cosIncidence (a.perezIn P i).surfaceTilt (a.perezIn P i).surfaceAzimuth
        (a.perezIn P i).solarZenith (a.perezIn P i).solarAzimuth < 0 := by
      rw [← aoiProjection_eq_dot]; exact hb.1
    have hf := perez_row hP (a.perezIn P i).flip hz (hback hlt)
    refine ⟨hr.1 htilt, ?_, hr.2.2.1, hr.2.2.2⟩
    have h2 := hf.2.1 (by rw [cosIncidence_flip]; linarith)
    have h3 : F1 (a.perezIn P i).flip = F1 (a.perezIn P i) := (hP.orient _ _ _).1
    rw [h3] at h2
    exact h2
  · rw [if_neg hb]
    have hge : 0 ≤ cosIncidence (a.perezIn P i).surfaceTilt (a.perezIn P i).surfaceAzimuth
        (a.perezIn P i).solarZenith (a.perezIn P i).solarAzimuth := by
      by_contra h
      exact hb ⟨by rw [aoiProjection_eq_dot]; linarith, hz⟩
    exact ⟨hr.1 htilt, hr.2.1 (lt_of_le_of_ne hge (Ne.symm hcos)), hr.2.2.1, hr.2.2.2⟩

/-- Diffuse light does arrive, on the front and on the back, if it is positive, the circumsolar
share is at least zero and less than one, the horizon is not darkened and the modules do not face
straight down (up, for the back). -/
theorem C64_light_arrives {perez : PerezIn → PerezComponents} {F1 F2 : PerezIn → ℝ}
    (hP : PerezFormula perez F1 F2) (r : PerezIn) (hz : r.solarZenith ≤ 90) (hd : 0 < r.dhi)
    (h1 : 0 ≤ F1 r) (h1' : F1 r < 1) (h2 : 0 ≤ F2 r) (ht : 0 ≤ r.surfaceTilt)
    (ht' : r.surfaceTilt ≤ 180) :
    (r.surfaceTilt < 180 → (perez r).skyDiffuse ≠ 0) ∧
      (0 < r.surfaceTilt → (perez r.flip).skyDiffuse ≠ 0) := by
  have key : ∀ r : PerezIn, r.solarZenith ≤ 90 → 0 < r.dhi → 0 ≤ F1 r → F1 r < 1 → 0 ≤ F2 r →
      0 ≤ r.surfaceTilt → r.surfaceTilt < 180 → (perez r).skyDiffuse ≠ 0 := by
    intro r hz hd h1 h1' h2 ht ht'
    rw [hP.total r hz]
    have hc : -1 < cosd r.surfaceTilt := by
      rw [← cosd_180]
      unfold cosd deg2rad
      have := Real.pi_pos
      apply Real.cos_lt_cos_of_nonneg_of_le_pi
      · positivity
      · linarith
      · gcongr
    have hs : 0 ≤ sind r.surfaceTilt := by
      rcases ht.eq_or_lt with h | h
      · rw [← h, sind_zero]
      · exact (sind_pos h ht').le
    have e1 : 0 < perezDome F1 r := by
      unfold perezDome
      have : 0 < 1 - F1 r := by linarith
      have : 0 < 1 + cosd r.surfaceTilt := by linarith
      positivity
    have e2 : 0 ≤ perezSun F1 r := by
      unfold perezSun
      have := cosd_85_pos
      have : 0 ≤ max (cosd r.solarZenith) (cosd 85) := le_max_of_le_right this.le
      have := le_max_left 0 (cosIncidence r.surfaceTilt r.surfaceAzimuth r.solarZenith r.solarAzimuth)
      positivity
    have e3 : 0 ≤ perezBand F2 r := by unfold perezBand; positivity
    rw [max_eq_right (by linarith)]
    linarith
  refine ⟨key r hz hd h1 h1' h2 ht, fun h => ?_⟩
  have ho : F1 r.flip = F1 r ∧ F2 r.flip = F2 r := hP.orient _ _ _
  refine key r.flip hz hd (by rwa [ho.1]) (by rwa [ho.1]) (by rwa [ho.2]) ?_ ?_
  · change 0 ≤ 180 - r.surfaceTilt; linarith
  · change 180 - r.surfaceTilt < 180; linarith

theorem SameSky.coeff {a a' : RunArgs τ} {i : ℕ} (h : SameSky a a' i) {P : Pvlib τ}
    {F1 F2 : PerezIn → ℝ} (hP : PerezFormula P.perez F1 F2) :
    F1 (a'.perezIn P i) = F1 (a.perezIn P i) := by
  rw [← (hP.orient (a.perezIn P i) (a'.surfaceTilt.getD i 0) (a'.surfaceAzimuth.getD i 0)).1]
  congr 1
  simp only [RunArgs.perezIn, h.time, h.zenith, h.azimuth, h.dni, h.dhi]

/-- The luminances do not depend on the orientation of the modules: two runs with the same sun and
irradiance at a time step and with any tilts and azimuths use the same ones. -/
theorem C64_orientation {P : Pvlib τ} {F1 F2 : PerezIn → ℝ} (hP : PerezFormula P.perez F1 F2)
    {a a' : RunArgs τ} {l l' : List IrrIn} (hl : a.inputs P = some l) (hl' : a'.inputs P = some l')
    {i : ℕ} {v v' : IrrIn} (hv : l[i]? = some v) (hv' : l'[i]? = some v')
    (hsame : SameSky a a' i) (hs : SkyLit P a i v) (hs' : SkyLit P a' i v') :
    v'.perez.luminanceIsotropic = v.perez.luminanceIsotropic ∧
      v'.perez.luminanceCircumsolar = v.perez.luminanceCircumsolar ∧
      v.perez.luminanceIsotropic + v.perez.luminanceCircumsolar = v.dhi := by
  have h := C64_luminances hP hl hv hs
  have h' := C64_luminances hP hl' hv' hs'
  have hd : v'.dhi = v.dhi := by
    rw [inputs_get hl hv, inputs_get hl' hv']; exact hsame.dhi.symm
  rw [h.1, h.2.1, h'.1, h'.2.1, hsame.coeff hP, hd]
  exact ⟨rfl, rfl, by ring⟩

/-! ## C65 -/

/-- Light on the ground under the whole sky.  In both models, direct and circumsolar light on an
illuminated part of the ground and light from the whole dome add up to DNI times the cosine of the
zenith plus DHI; fast mode uses the same amount if the global irradiance is not given.  On shaded
ground they add up to the irradiance that fast mode uses for shaded ground. -/
theorem C65_ground {P : Pvlib τ} {F1 F2 : PerezIn → ℝ} (hP : PerezFormula P.perez F1 F2)
    {a : RunArgs τ} {l : List IrrIn} (hl : a.inputs P = some l) {i : ℕ} {v : IrrIn}
    (hv : l[i]? = some v) (hs : SkyLit P a i v) (q : IrrParams) (p : ArrayParams) (g : StepGeom)
    (e z : ℕ) :
    ∀ s ∈ [isotropicStep q v, hybridPerezStep q p g v],
      (s.comp (.gnd false e z)).sum + s.sky = v.dni * cosd v.solarZenith + v.dhi ∧
      (s.comp (.gnd true e z)).sum + s.sky = s.gndShaded ∧
      (v.ghi = none → s.gndIllum = (s.comp (.gnd false e z)).sum + s.sky) := by
  have h := C64_luminances hP hl hv hs
  intro s hsm
  simp only [List.mem_cons, List.not_mem_nil, or_false] at hsm
  rcases hsm with rfl | rfl
  · simp only [isotropicStep, Cats.get, directCats, IrrIn.ghiUsed, List.sum_cons, List.sum_nil]
    refine ⟨by ring, by ring, fun hg => by rw [hg, Option.getD_none]; ring⟩
  · simp only [hybridPerezStep, Cats.get, directCats, circumsolarCats, horizonOf, IrrIn.ghiUsed,
      List.sum_cons, List.sum_nil, h.1, h.2.1]
    refine ⟨by ring, by ring, fun hg => by rw [hg, Option.getD_none]; ring⟩

/-- Hence the incident irradiance of the ground that full mode computes is the irradiance that fast
mode uses, less the share of the isotropic light that rows keep out, plus reflections. -/
theorem C65_full_mode {P : Pvlib τ} {F1 F2 : PerezIn → ℝ} (hP : PerezFormula P.perez F1 F2)
    {a : RunArgs τ} {l : List IrrIn} (hl : a.inputs P = some l) {i : ℕ} {v : IrrIn}
    (hv : l[i]? = some v) (hs : SkyLit P a i v) (hghi : v.ghi = none) (q : IrrParams)
    (p : ArrayParams) (g : StepGeom) (F : ℕ → ℕ → ℝ) (aoi : Option (List Asg)) {sh : Bool} {e z : ℕ}
    (hm : SurfRef.gnd sh e z ∈ surfaces p) :
    ∀ s ∈ [isotropicStep q v, hybridPerezStep q p g v],
      (fullStep p s F aoi).qinc (.gnd sh e z)
        = (if sh then s.gndShaded else s.gndIllum) - (1 - vfToSky p F (.gnd sh e z)) * s.sky
          + (fullStep p s F aoi).reflection (.gnd sh e z) := by
  intro s hsm
  have hg := C65_ground hP hl hv hs q p g e z s hsm
  rw [fullStep_reflection hm, fullStep_isotropic hm]
  cases sh
  · rw [if_neg (by simp), hg.2.2 hghi]; ring
  · rw [if_pos rfl, ← hg.2.1]; ring

/-! ## C66 -/

theorem circ_front {q : IrrParams} {v : IrrIn} :
    (circumsolarCats q v).frontIllum = open Classical in
      if 0 ≤ cosIncidence v.surfaceTilt v.surfaceAzimuth v.solarZenith v.solarAzimuth
        then v.perez.poaCircumsolar else 0 := by
  unfold circumsolarCats
  simp only [aoiFront_le_iff]

theorem circ_back {q : IrrParams} {v : IrrIn} :
    (circumsolarCats q v).backIllum = v.perez.luminanceCircumsolar
      * (max 0 (-cosIncidence v.surfaceTilt v.surfaceAzimuth v.solarZenith v.solarAzimuth)
        / cosd v.solarZenith) := by
  unfold circumsolarCats poaCircumsolarBack
  simp only [aoiFront_le_iff, cosd_aoiBack]
  by_cases h : 0 ≤ cosIncidence v.surfaceTilt v.surfaceAzimuth v.solarZenith v.solarAzimuth
  · rw [if_neg (by simpa using h), max_eq_left (by linarith)]; simp
  · rw [if_pos h, max_eq_right (by linarith)]

/-- Modules turned over, same sun (run `a'`): the direct light on an illuminated back is the direct
light on the front of the modules turned over.  The circumsolar light on the back is that on the
front of the modules turned over times `max (cos zenith) (cos 85) / cos zenith`. -/
theorem C66_turned_over {P : Pvlib τ} {F1 F2 : PerezIn → ℝ} (hP : PerezFormula P.perez F1 F2)
    {a a' : RunArgs τ} {l l' : List IrrIn} (hl : a.inputs P = some l) (hl' : a'.inputs P = some l')
    {i : ℕ} {v v' : IrrIn} (hv : l[i]? = some v) (hv' : l'[i]? = some v')
    (hsame : SameSky a a' i) (hs : SkyLit P a i v) (hs' : SkyLit P a' i v')
    (hover : v'.surfaceTilt = 180 - v.surfaceTilt)
    (hover' : v'.surfaceAzimuth = pyMod (v.surfaceAzimuth - 180) 360)
    (hz : cosd v.solarZenith ≠ 0) (q : IrrParams) (p : ArrayParams) (g g' : StepGeom)
    (r k : ℕ) {d c h d' c' h' : ℝ}
    (hb : (hybridPerezStep q p g v).comp (.pv r .back k false) = [d, c, h])
    (hf : (hybridPerezStep q p g' v').comp (.pv r .front k false) = [d', c', h']) :
    d = d' ∧ c = c' * (max (cosd v.solarZenith) (cosd 85) / cosd v.solarZenith) ∧
      (0 ≤ v.solarZenith → v.solarZenith ≤ 85 → c = c') := by
  have h0 := C64_luminances hP hl hv hs
  have h1 := C64_luminances hP hl' hv' hs'
  have hvi := inputs_get hl hv
  have hvi' := inputs_get hl' hv'
  have ez : v'.solarZenith = v.solarZenith := by rw [hvi, hvi']; exact hsame.zenith.symm
  have ea : v'.solarAzimuth = v.solarAzimuth := by rw [hvi, hvi']; exact hsame.azimuth.symm
  have ed : v'.dni = v.dni := by rw [hvi, hvi']; exact hsame.dni.symm
  have eh : v'.dhi = v.dhi := by rw [hvi, hvi']; exact hsame.dhi.symm
  have hcos : cosIncidence v'.surfaceTilt v'.surfaceAzimuth v'.solarZenith v'.solarAzimuth
      = - cosIncidence v.surfaceTilt v.surfaceAzimuth v.solarZenith v.solarAzimuth := by
    rw [hover, hover', ez, ea]
    exact cosIncidence_flip ⟨v.surfaceTilt, v.surfaceAzimuth, v.solarZenith, v.solarAzimuth, 0, 0, 0, 0⟩
  simp only [hybridPerezStep, Cats.get, List.cons.injEq, and_true, direct_back, direct_front,
    circ_back, circ_front] at hb hf
  obtain ⟨rfl, rfl, _⟩ := hb
  obtain ⟨rfl, rfl, _⟩ := hf
  have hb85 : 0 < max (cosd v.solarZenith) (cosd 85) := lt_max_of_lt_right cosd_85_pos
  have hc : v.perez.luminanceCircumsolar
      * (max 0 (-cosIncidence v.surfaceTilt v.surfaceAzimuth v.solarZenith v.solarAzimuth)
        / cosd v.solarZenith)
      = (open Classical in
      if 0 ≤ cosIncidence v'.surfaceTilt v'.surfaceAzimuth v'.solarZenith v'.solarAzimuth
        then v'.perez.poaCircumsolar else 0)
        * (max (cosd v.solarZenith) (cosd 85) / cosd v.solarZenith) := by
    rw [h0.2.1, h1.2.2.1, hcos, hsame.coeff hP, eh, ez]
    split_ifs with hh
    · field_simp
    · rw [max_eq_left (not_le.1 hh).le]; simp
  refine ⟨by rw [hcos, ed], hc, fun hz0 hz85 => ?_⟩
  rw [hc, max_eq_left (cosd_anti hz0 (by norm_num) hz85), div_self hz, mul_one]

/-! ### Concrete cases -/

open Classical in
/-- Perez' model with given coefficients. -/
noncomputable def perezWith (F1 F2 : PerezIn → ℝ) (r : PerezIn) : PerezComponents :=
  let total := max 0 (perezDome F1 r + perezSun F1 r + perezBand F2 r)
  if total = 0 then ⟨0, 0, 0, 0⟩ else ⟨total, perezDome F1 r, perezSun F1 r, perezBand F2 r⟩

theorem perezWith_formula {F1 F2 : PerezIn → ℝ}
    (h : ∀ r tilt az, F1 { r with surfaceTilt := tilt, surfaceAzimuth := az } = F1 r ∧
      F2 { r with surfaceTilt := tilt, surfaceAzimuth := az } = F2 r) :
    PerezFormula (perezWith F1 F2) F1 F2 := by
  refine ⟨h, fun r _ => ?_, fun r _ hne => ?_, fun r _ h0 => ?_⟩ <;>
    unfold perezWith at * <;> simp only at *
  · split_ifs with h0 <;> simp [h0]
  · split_ifs at hne ⊢ with h0
    · simp at hne
    · simp
  · split_ifs at h0 ⊢ with h1
    · simp
    · exact absurd h0 h1

/-- Half of the diffuse light comes from the direction of the sun, horizon not brightened;
transposition with an isotropic sky. -/
noncomputable def halfPvlib : Pvlib ℕ where
  dniExtra := fun _ => 1367
  airmass := fun _ => 1
  perez := perezWith (fun _ => 1 / 2) (fun _ => 0)
  poaGlobal := fun tilt az zenith sunAz dni ghi dhi albedo =>
    max 0 (dni * cosIncidence tilt az zenith sunAz) + dhi * ((1 + cosd tilt) / 2)
      + ghi * albedo * ((1 - cosd tilt) / 2)
  emptyOk := false

theorem halfPvlib_formula : PerezFormula halfPvlib.perez (fun _ => 1 / 2) (fun _ => 0) :=
  perezWith_formula fun _ _ _ => ⟨rfl, rfl⟩

theorem halfPvlib_transposition : IsotropicTransposition halfPvlib.poaGlobal :=
  fun _ _ _ _ _ _ _ _ => rfl

/-- A run with one time step: 100 W/m2 of direct and of diffuse light, albedo 1/10. -/
noncomputable def oneStep (tilt azimuth zenith sunAzimuth : ℝ) : RunArgs ℕ where
  timestamps := [0]
  dni := [100]
  dhi := [100]
  solarZenith := [zenith]
  solarAzimuth := [sunAzimuth]
  surfaceTilt := [tilt]
  surfaceAzimuth := [azimuth]
  albedo := .inl (1 / 10)
  ghi := none

theorem oneStep_inputs (tilt azimuth zenith sunAzimuth : ℝ) :
    (oneStep tilt azimuth zenith sunAzimuth).inputs halfPvlib
      = some [inputAt halfPvlib (oneStep tilt azimuth zenith sunAzimuth) 0] := by
  rw [inputs_eq _ _ (by simp [RunArgs.Aligned, oneStep, RunArgs.albedoList]),
    if_pos (Or.inl (by simp [oneStep]))]
  rfl

theorem oneStep_lit {tilt azimuth zenith sunAzimuth : ℝ} (ht : 0 < tilt) (ht' : tilt < 180)
    (hz : zenith ≤ 90) (hc : cosIncidence tilt azimuth zenith sunAzimuth ≠ 0) :
    SkyLit halfPvlib (oneStep tilt azimuth zenith sunAzimuth) 0
      (inputAt halfPvlib (oneStep tilt azimuth zenith sunAzimuth) 0) := by
  have h := C64_light_arrives halfPvlib_formula
    ((oneStep tilt azimuth zenith sunAzimuth).perezIn halfPvlib 0) hz
    (by norm_num [RunArgs.perezIn, oneStep]) (by norm_num) (by norm_num) le_rfl ht.le ht'.le
  refine ⟨hz, ?_, hc, Or.inr (h.1 ht'), fun _ => Or.inr (h.2 ht)⟩
  change cosd tilt ≠ -1
  intro h1
  have h2 := cosd_sq_add_sind_sq tilt
  rw [h1] at h2
  have := sind_pos ht ht'
  nlinarith

theorem cosIncidence_west (z : ℝ) : cosIncidence 90 90 z 270 = - sind z := by
  rw [← aoiProjection_eq_dot, aoiProjection, cosd_90, sind_90,
    show (270 : ℝ) - 90 = 180 by norm_num, cosd_180]; ring

theorem cosIncidence_east (z : ℝ) : cosIncidence 90 270 z 270 = sind z := by
  rw [← aoiProjection_eq_dot, aoiProjection, cosd_90, sind_90, sub_self, cosd_zero]; ring

/-- The factor is not bounded: while half of 100 W/m2 of diffuse light comes from the direction of
the sun, the circumsolar light on the back of vertical modules exceeds every bound for some sun
above the horizon.  On the front of the modules turned over it stays below `50 / cos 85`. -/
theorem C66_unbounded (bound : ℝ) : ∃ z, 0 < z ∧ z < 90 ∧
    ∃ v v' : IrrIn, (oneStep 90 90 z 270).inputs halfPvlib = some [v] ∧
      (oneStep 90 270 z 270).inputs halfPvlib = some [v'] ∧
      ∀ q p g r k, ∃ d c h d' c' h',
        (hybridPerezStep q p g v).comp (.pv r .back k false) = [d, c, h] ∧
        (hybridPerezStep q p g v').comp (.pv r .front k false) = [d', c', h'] ∧
        bound < c ∧ c' ≤ 50 / cosd 85 := by
  set M := |bound| / 50 + 1 with hM
  have hMpos : 0 < M := by positivity
  have hpi := Real.pi_pos
  have e : deg2rad (rad2deg (Real.arctan M)) = Real.arctan M := by
    unfold deg2rad rad2deg; field_simp
  have hz0 : 0 < rad2deg (Real.arctan M) := by
    unfold rad2deg
    have := Real.arctan_pos.2 hMpos
    positivity
  have hz1 : rad2deg (Real.arctan M) < 90 := by
    unfold rad2deg
    rw [div_lt_iff₀ hpi]
    linarith [Real.arctan_lt_pi_div_two M]
  set z := rad2deg (Real.arctan M) with hz
  have hs : 0 < sind z := sind_pos hz0 (by linarith)
  have htan : sind z / cosd z = M := by
    unfold sind cosd
    rw [e, ← Real.tan_eq_sin_div_cos, Real.tan_arctan]
  refine ⟨z, hz0, hz1, _, _, oneStep_inputs _ _ _ _, oneStep_inputs _ _ _ _, fun q p g r k => ?_⟩
  refine ⟨_, _, _, _, _, _, rfl, rfl, ?_, ?_⟩
  · have h := C64_luminances halfPvlib_formula (oneStep_inputs 90 90 z 270) (i := 0) rfl
      (oneStep_lit (by norm_num) (by norm_num) hz1.le (by rw [cosIncidence_west]; linarith))
    simp only [Cats.get]
    rw [circ_back, h.2.1]
    change bound < 100 * (1 / 2) * (max 0 (-cosIncidence 90 90 z 270) / cosd z)
    rw [cosIncidence_west, neg_neg, max_eq_right hs.le, htan, hM]
    linarith [le_abs_self bound]
  · have h := C64_luminances halfPvlib_formula (oneStep_inputs 90 270 z 270) (i := 0) rfl
      (oneStep_lit (by norm_num) (by norm_num) hz1.le (by rw [cosIncidence_east]; linarith))
    simp only [Cats.get]
    rw [circ_front, h.2.2.1]
    change (if 0 ≤ cosIncidence 90 270 z 270 then
      100 * (1 / 2) * (max 0 (cosIncidence 90 270 z 270) / max (cosd z) (cosd 85)) else 0) ≤ _
    rw [cosIncidence_east, if_pos hs.le, max_eq_right hs.le]
    have h85 := cosd_85_pos
    have h1 : sind z ≤ 1 := Real.sin_le_one _
    have h2 : cosd 85 ≤ max (cosd z) (cosd 85) := le_max_right _ _
    have h3 : sind z / max (cosd z) (cosd 85) ≤ 1 / cosd 85 :=
      div_le_div₀ (by norm_num) h1 h85 h2
    calc 100 * (1 / 2) * (sind z / max (cosd z) (cosd 85)) ≤ 100 * (1 / 2) * (1 / cosd 85) := by
          gcongr
      _ = 50 / cosd 85 := by ring

/-! ## C67 -/

/-- Irradiance of shaded fronts in fast mode, opaque modules.  Isotropic model: light from the dome
and from bare ground.  Hybrid model: the same less the circumsolar light of Perez' model, although
the isotropic transposition does not contain it. -/
theorem C67_shaded_front {P : Pvlib τ} {F1 F2 : PerezIn → ℝ} (hP : PerezFormula P.perez F1 F2)
    (hT : IsotropicTransposition P.poaGlobal)
    {a : RunArgs τ} {l : List IrrIn} (hl : a.inputs P = some l) {i : ℕ} {v : IrrIn}
    (hv : l[i]? = some v) (hs : SkyLit P a i v) (q : IrrParams) (hq : q.moduleSpacingRatio = 0)
    (hq' : q.moduleTransparency = 0) (hdni : 0 ≤ v.dni) (p : ArrayParams) (g : StepGeom) :
    (isotropicStep q v).pvrowShaded = v.dhi * ((1 + cosd v.surfaceTilt) / 2)
      + v.ghiUsed * v.albedo * ((1 - cosd v.surfaceTilt) / 2) ∧
    (hybridPerezStep q p g v).pvrowShaded = v.dhi * ((1 + cosd v.surfaceTilt) / 2)
      + v.ghiUsed * v.albedo * ((1 - cosd v.surfaceTilt) / 2)
      - v.dhi * F1 (a.perezIn P i)
        * (max 0 (cosIncidence v.surfaceTilt v.surfaceAzimuth v.solarZenith v.solarAzimuth)
          / max (cosd v.solarZenith) (cosd 85)) := by
  have h := C64_luminances hP hl hv hs
  have hpoa : v.poaGlobal
      = max 0 (v.dni * cosIncidence v.surfaceTilt v.surfaceAzimuth v.solarZenith v.solarAzimuth)
        + v.dhi * ((1 + cosd v.surfaceTilt) / 2)
        + v.ghiUsed * v.albedo * ((1 - cosd v.surfaceTilt) / 2) := by
    have e := inputs_get hl hv
    subst e
    exact hT _ _ _ _ _ _ _ _
  have hcf : (circumsolarCats q v).frontIllum = v.perez.poaCircumsolar := by
    rw [circ_front]
    split_ifs with hc
    · rfl
    · rw [h.2.2.1, max_eq_left (not_le.1 hc).le]; simp
  have hthru : ∀ x, throughModules q x = 0 := fun x => by simp [throughModules, hq, hq']
  have hd := direct_front q v
  have hmax : v.dni * max 0 (cosIncidence v.surfaceTilt v.surfaceAzimuth v.solarZenith v.solarAzimuth)
      = max 0 (v.dni * cosIncidence v.surfaceTilt v.surfaceAzimuth v.solarZenith v.solarAzimuth) := by
    rw [mul_max_of_nonneg _ _ hdni, mul_zero]
  refine ⟨?_, ?_⟩
  · simp only [isotropicStep]
    rw [hd, hmax, hpoa]; ring
  · have e1 : (directCats q v).frontShaded = 0 := hthru _
    have e2 : (circumsolarCats q v).frontShaded = 0 := hthru _
    simp only [hybridPerezStep]
    rw [e1, e2, hcf, hd, hmax, hpoa, h.2.2.1]; ring

/-- It is never negative in the isotropic model. -/
theorem C67_isotropic_nonneg {P : Pvlib τ} (hT : IsotropicTransposition P.poaGlobal)
    {a : RunArgs τ} {l : List IrrIn} (hl : a.inputs P = some l) {i : ℕ} {v : IrrIn}
    (hv : l[i]? = some v) (q : IrrParams) (hdni : 0 ≤ v.dni) (hdhi : 0 ≤ v.dhi)
    (hghi : 0 ≤ v.ghiUsed) (halb : 0 ≤ v.albedo) : 0 ≤ (isotropicStep q v).pvrowShaded := by
  have hpoa : v.poaGlobal
      = max 0 (v.dni * cosIncidence v.surfaceTilt v.surfaceAzimuth v.solarZenith v.solarAzimuth)
        + v.dhi * ((1 + cosd v.surfaceTilt) / 2)
        + v.ghiUsed * v.albedo * ((1 - cosd v.surfaceTilt) / 2) := by
    have e := inputs_get hl hv
    subst e
    exact hT _ _ _ _ _ _ _ _
  simp only [isotropicStep]
  rw [direct_front, hpoa, mul_max_of_nonneg _ _ hdni, mul_zero]
  have h1 : -1 ≤ cosd v.surfaceTilt := Real.neg_one_le_cos _
  have h2 : cosd v.surfaceTilt ≤ 1 := Real.cos_le_one _
  have h3 : 0 ≤ v.dhi * ((1 + cosd v.surfaceTilt) / 2) := mul_nonneg hdhi (by linarith)
  have h4 : 0 ≤ v.ghiUsed * v.albedo * ((1 - cosd v.surfaceTilt) / 2) :=
    mul_nonneg (mul_nonneg hghi halb) (by linarith)
  linarith

/-- In the hybrid model it can be negative: modules tilted by 60 degrees straight towards a sun 30
degrees above the horizon, 100 W/m2 of direct and of diffuse light, half of the latter
circumsolar. -/
theorem C67_hybrid_negative (q : IrrParams) (hq : q.moduleSpacingRatio = 0)
    (hq' : q.moduleTransparency = 0) (p : ArrayParams) (g : StepGeom) :
    ∃ v : IrrIn, (oneStep 60 180 60 180).inputs halfPvlib = some [v] ∧ 0 ≤ v.dni ∧ 0 ≤ v.dhi ∧
      0 ≤ v.albedo ∧ (hybridPerezStep q p g v).pvrowShaded < 0 := by
  have hci : cosIncidence 60 180 60 180 = 1 := by
    rw [← aoiProjection_eq_dot, aoiProjection, sub_self, cosd_zero]
    have := cosd_sq_add_sind_sq 60
    nlinarith
  refine ⟨_, oneStep_inputs _ _ _ _, ?_, ?_, ?_, ?_⟩
  · norm_num [inputAt, oneStep]
  · norm_num [inputAt, oneStep]
  · norm_num [inputAt, oneStep, RunArgs.albedoList]
  · rw [(C67_shaded_front halfPvlib_formula halfPvlib_transposition (oneStep_inputs 60 180 60 180)
      (i := 0) rfl (oneStep_lit (by norm_num) (by norm_num) (by norm_num) (by rw [hci]; norm_num))
      q hq hq' (by norm_num [inputAt, oneStep]) p g).2]
    change 100 * ((1 + cosd 60) / 2) + (100 * cosd 60 + 100) * (1 / 10) * ((1 - cosd 60) / 2)
      - 100 * (1 / 2) * (max 0 (cosIncidence 60 180 60 180) / max (cosd 60) (cosd 85)) < 0
    rw [max_eq_left (cosd_anti (by norm_num) (by norm_num) (by norm_num)), hci, cosd_60]
    norm_num

/-- A transposition with Perez' model, as documented, would have avoided this: if `poa_global`
contains dome, circumsolar and horizon light of Perez' model, the value is not negative. -/
theorem C67_perez_transposition {P : Pvlib τ} {F1 F2 : PerezIn → ℝ}
    (hP : PerezFormula P.perez F1 F2) {a : RunArgs τ} {l : List IrrIn} (hl : a.inputs P = some l)
    {i : ℕ} {v : IrrIn} (hv : l[i]? = some v) (hs : SkyLit P a i v) (ground : ℝ)
    (hground : 0 ≤ ground) (hdni : 0 ≤ v.dni)
    (hpoa : v.poaGlobal
      = v.dni * max 0 (cosIncidence v.surfaceTilt v.surfaceAzimuth v.solarZenith v.solarAzimuth)
        + (P.perez (a.perezIn P i)).skyDiffuse + ground)
    (hdhi : 0 ≤ v.dhi) (h1 : 0 ≤ F1 (a.perezIn P i)) (h1' : F1 (a.perezIn P i) ≤ 1)
    (h2 : 0 ≤ F2 (a.perezIn P i) * sind v.surfaceTilt) (q : IrrParams)
    (hs0 : 0 ≤ q.moduleSpacingRatio) (hs1 : q.moduleSpacingRatio ≤ 1)
    (ht0 : 0 ≤ q.moduleTransparency) (p : ArrayParams) (g : StepGeom) :
    0 ≤ (hybridPerezStep q p g v).pvrowShaded := by
  have h := C64_luminances hP hl hv hs
  have hcf : (circumsolarCats q v).frontIllum = v.perez.poaCircumsolar := by
    rw [circ_front]
    split_ifs with hc
    · rfl
    · rw [h.2.2.1, max_eq_left (not_le.1 hc).le]; simp
  have hthru : ∀ x, 0 ≤ x → 0 ≤ throughModules q x := fun x hx => by
    unfold throughModules
    have : 0 ≤ 1 - q.moduleSpacingRatio := by linarith
    positivity
  have hd := direct_front q v
  have hmx := le_max_left 0
    (cosIncidence v.surfaceTilt v.surfaceAzimuth v.solarZenith v.solarAzimuth)
  have hb : 0 < max (cosd v.solarZenith) (cosd 85) := lt_max_of_lt_right cosd_85_pos
  have hcpos : 0 ≤ (circumsolarCats q v).frontIllum := by
    rw [hcf, h.2.2.1]; positivity
  have hdpos : 0 ≤ (directCats q v).frontIllum := by rw [hd]; positivity
  have e1 : 0 ≤ (directCats q v).frontShaded := hthru _ hdpos
  have e2 : 0 ≤ (circumsolarCats q v).frontShaded := hthru _ hcpos
  have hsky := hP.total (a.perezIn P i) (by
    have e := inputs_get hl hv; have := hs.zenith; rw [e] at this; exact this)
  have hdome : 0 ≤ perezDome F1 (a.perezIn P i) := by
    unfold perezDome
    have c1 : -1 ≤ cosd (a.perezIn P i).surfaceTilt := Real.neg_one_le_cos _
    have c2 : 0 ≤ (a.perezIn P i).dhi := by
      have e := inputs_get hl hv; rw [e] at hdhi; exact hdhi
    exact mul_nonneg (mul_nonneg c2 (by linarith)) (by linarith)
  have hband : 0 ≤ perezBand F2 (a.perezIn P i) := by
    unfold perezBand
    have c2 : 0 ≤ (a.perezIn P i).dhi := by
      have e := inputs_get hl hv; rw [e] at hdhi; exact hdhi
    have c3 : 0 ≤ F2 (a.perezIn P i) * sind (a.perezIn P i).surfaceTilt := by
      have e := inputs_get hl hv; rw [e] at h2; exact h2
    rw [mul_assoc]; exact mul_nonneg c2 c3
  have hsun : perezSun F1 (a.perezIn P i) = v.perez.poaCircumsolar := by
    rw [h.2.2.1, inputs_get hl hv]; rfl
  have hle := le_max_right 0 (perezDome F1 (a.perezIn P i) + perezSun F1 (a.perezIn P i)
    + perezBand F2 (a.perezIn P i))
  rw [← hsky, hsun] at hle
  simp only [hybridPerezStep]
  rw [hcf] at *
  rw [hpoa, hd] at *
  linarith

/-- `halfPvlib` with Perez' transposition, bare ground black. -/
noncomputable def perezPvlib : Pvlib ℕ :=
  { halfPvlib with
    poaGlobal := fun tilt az zenith sunAz dni _ dhi _ =>
      dni * max 0 (cosIncidence tilt az zenith sunAz)
        + (halfPvlib.perez ⟨tilt, az, zenith, sunAz, dni, dhi, 1367, 1⟩).skyDiffuse }

/-- The sun and modules of `C67_hybrid_negative` with Perez' transposition. -/
theorem C67_demo (q : IrrParams) (hq : q.moduleSpacingRatio = 0)
    (hq' : q.moduleTransparency = 0) (p : ArrayParams) (g : StepGeom) :
    ∃ v : IrrIn, (oneStep 60 180 60 180).inputs perezPvlib = some [v] ∧
      0 ≤ (hybridPerezStep q p g v).pvrowShaded := by
  have hci : cosIncidence 60 180 60 180 = 1 := by
    rw [← aoiProjection_eq_dot, aoiProjection, sub_self, cosd_zero]
    have := cosd_sq_add_sind_sq 60
    nlinarith
  have hin : (oneStep 60 180 60 180).inputs perezPvlib
      = some [inputAt perezPvlib (oneStep 60 180 60 180) 0] := by
    rw [inputs_eq _ _ (by simp [RunArgs.Aligned, oneStep, RunArgs.albedoList]),
      if_pos (Or.inl (by simp [oneStep]))]
    rfl
  have hlit := oneStep_lit (tilt := 60) (azimuth := 180) (zenith := 60) (sunAzimuth := 180)
    (by norm_num) (by norm_num) (by norm_num) (by rw [hci]; norm_num)
  have hlit' : SkyLit perezPvlib (oneStep 60 180 60 180) 0
      (inputAt perezPvlib (oneStep 60 180 60 180) 0) :=
    ⟨hlit.zenith, hlit.tilt, hlit.cos, hlit.front, hlit.back⟩
  refine ⟨_, hin, C67_perez_transposition (P := perezPvlib) (F1 := fun _ => 1 / 2) (F2 := fun _ => 0)
    halfPvlib_formula hin (i := 0) rfl hlit' 0 le_rfl (by norm_num [inputAt, oneStep]) ?_
    (by norm_num [inputAt, oneStep]) (by norm_num) (by norm_num) (by simp) q
    (by rw [hq]) (by rw [hq]; norm_num) (by rw [hq']) p g⟩
  rw [add_zero]; rfl

/-- C64 and C65 in a concrete case: half of the diffuse light from the direction of the sun,
vertical modules with the sun behind them. -/
theorem C64_demo : ∃ v : IrrIn, (oneStep 90 90 60 270).inputs halfPvlib = some [v] ∧
    v.perez.luminanceIsotropic = 50 ∧ v.perez.luminanceCircumsolar = 50 ∧
    ∀ q p g e z, ((hybridPerezStep q p g v).comp (.gnd false e z)).sum
      + (hybridPerezStep q p g v).sky = 150 := by
  have hlit := oneStep_lit (tilt := 90) (azimuth := 90) (zenith := 60) (sunAzimuth := 270)
    (by norm_num) (by norm_num) (by norm_num) (by
      rw [cosIncidence_west]; linarith [sind_pos (x := 60) (by norm_num) (by norm_num)])
  have h := C64_luminances halfPvlib_formula (oneStep_inputs 90 90 60 270) (i := 0) rfl hlit
  refine ⟨_, oneStep_inputs _ _ _ _, ?_, ?_, fun q p g e z => ?_⟩
  · rw [h.1]; norm_num [inputAt, oneStep]
  · rw [h.2.1]; norm_num [inputAt, oneStep]
  · rw [(C65_ground halfPvlib_formula (oneStep_inputs 90 90 60 270) (i := 0) rfl hlit q p g e z _
      (by simp)).1]
    change 100 * cosd 60 + 100 = (150 : ℝ)
    rw [cosd_60]; norm_num

end PVF
