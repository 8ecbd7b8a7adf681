import Verif.Spec.Shade
import Verif.Props.Shading
import Verif.Props.Irradiance
import Verif.Lemmas.Fast

/-!
# How row-to-row shading depends on the array and on the sun (C87)
-/

namespace PVF

theorem side_shaded {p : ArrayParams} {rot : Rot} {sun : Pt} {i : ℕ} {s : RowSide}
    (hw : 0 < p.width) (hgcr : 0 < p.gcr) (h0 : -180 < rot.deg) (h1 : rot.deg < 180)
    (hr : rot.deg ≠ 0) (hy : 0 < sun.y) (hF : frontDotSun rot.deg sun ≠ 0) (hi : i < p.nRows)
    (hseg : 0 < p.nSeg i s) :
    (FacesSun rot.deg sun s → FacesRow p.nRows rot.deg i s →
      sideShadedLength ((fitGeom p rot sun).side i s)
        = max 0 (p.width - p.distance * (sun.y / |frontDotSun rot.deg sun|))) ∧
    (¬ (FacesSun rot.deg sun s ∧ FacesRow p.nRows rot.deg i s) →
      sideShadedLength ((fitGeom p rot sun).side i s) = 0) := by
  have hd : 0 < p.distance := div_pos hw hgcr
  have e : (fitGeom p rot sun).side i s = sideSegments (rowCenter p i) p.width rot.deg (p.nSeg i s)
      (sideShade p (arctan2 sun.y sun.x) rot.deg i s) := by cases s <;> rfl
  have hb : 0 ≤ sideShade p (arctan2 sun.y sun.x) rot.deg i s ∧
      sideShade p (arctan2 sun.y sun.x) rot.deg i s ≤ p.width := by
    have hI := interrow_bounds hw.le (arctan2 sun.y sun.x) rot.deg
    cases s <;> simp only [sideShade, rowShadedLengths] <;> split_ifs <;>
      first | exact ⟨le_rfl, hw.le⟩ | exact hI.1 | exact hI.2
  have hl : sideShadedLength ((fitGeom p rot sun).side i s)
      = sideShade p (arctan2 sun.y sun.x) rot.deg i s := by
    rw [e]; exact C22_shaded_length _ _ _ _ _ hseg h0 h1 hr hb.1 hb.2
  rw [hl]
  have hS := sideShade_eq hw hd hF h0 h1 hr hy hi
  have habs : |p.distance * sun.y / frontDotSun rot.deg sun|
      = p.distance * (sun.y / |frontDotSun rot.deg sun|) := by
    rw [abs_div, abs_of_pos (mul_pos hd hy), mul_div_assoc]
  rw [habs] at hS
  by_cases hsun : FacesSun rot.deg sun s
  · have hss : sunnySide rot.deg sun = s := by
      cases s
      · simp only [FacesSun] at hsun; simp [sunnySide, hsun]
      · simp only [FacesSun] at hsun; simp [sunnySide, not_lt.2 hsun.le]
    have hq : (if 0 < sind rot.deg / frontDotSun rot.deg sun then 0 < i else i + 1 < p.nRows)
        ↔ FacesRow p.nRows rot.deg i s := by
      have hleft : 0 < sind rot.deg / frontDotSun rot.deg sun ↔ FacesLeft rot.deg s := by
        cases s
        · simp only [FacesSun] at hsun
          simp only [FacesLeft]
          constructor
          · intro h
            by_contra hn
            have := sind_neg_of_neg (lt_of_le_of_ne (not_lt.1 hn) hr) h0
            exact absurd h (not_lt.2 (div_neg_of_neg_of_pos this hsun).le)
          · intro h; exact div_pos (sind_pos h h1) hsun
        · simp only [FacesSun] at hsun
          simp only [FacesLeft]
          constructor
          · intro h
            by_contra hn
            have := sind_pos (lt_of_le_of_ne (not_lt.1 hn) hr.symm) h1
            exact absurd h (not_lt.2 (div_neg_of_pos_of_neg this hsun).le)
          · intro h; exact div_pos_of_neg_of_neg (sind_neg_of_neg h h0) hsun
      unfold FacesRow
      by_cases hL : FacesLeft rot.deg s
      · simp [hleft, hL]
      · simp [hleft, hL]
    rw [hss] at hS
    constructor
    · intro _ hf
      rw [hS, if_pos (hq.2 hf)]
    · intro hn
      rw [hS, if_neg (fun h => hn ⟨hsun, hq.1 h⟩)]
  · refine ⟨fun h => absurd h hsun, fun _ => ?_⟩
    rcases Nat.lt_or_ge 1 p.nRows with hn | hn
    · have hI := interrowShading_eq (p := p) (sin_alpha_ne hy.ne') (sunFront_ne hF) hd hw hn
      rw [kappa_eq hy.ne'] at hI
      cases s
      · have hF' : frontDotSun rot.deg sun < 0 := lt_of_le_of_ne (not_lt.1 hsun) hF
        have : ¬ 0 < frontDotSun rot.deg sun / sun.y :=
          not_lt.2 (div_neg_of_neg_of_pos hF' hy).le
        simp only [sideShade, rowShadedLengths, hI, this, if_false]
        split_ifs <;> rfl
      · have hF' : 0 < frontDotSun rot.deg sun := lt_of_le_of_ne (not_lt.1 hsun) hF.symm
        have : ¬ frontDotSun rot.deg sun / sun.y < 0 := not_lt.2 (div_pos hF' hy).le
        simp only [sideShade, rowShadedLengths, hI, this, if_false]
        split_ifs <;> rfl
    · have hI : interrowShading p (arctan2 sun.y sun.x) rot.deg = (0, 0) := by
        simp [interrowShading, not_lt.2 hn]
      cases s <;> simp [sideShade, rowShadedLengths, hI]

theorem side_shaded_step {p : ArrayParams} {u : StepIn} {i : ℕ} {s : RowSide}
    (hw : 0 < p.width) (hgcr : 0 < p.gcr) (h : ShadeStep p u) (hi : i < p.nRows)
    (hseg : 0 < p.nSeg i s) :
    let g := fitStep p u
    (FacesSun g.rot.deg g.sun s → FacesRow p.nRows g.rot.deg i s →
      sideShadedLength (g.side i s)
        = max 0 (p.width - p.distance * (g.sun.y / |frontDotSun g.rot.deg g.sun|))) ∧
    (¬ (FacesSun g.rot.deg g.sun s ∧ FacesRow p.nRows g.rot.deg i s) →
      sideShadedLength (g.side i s) = 0) := by
  intro g
  obtain ⟨a, b, c⟩ := rotation_range (sa := u.surfaceAzimuth) (aa := p.axisAzimuth)
    h.tilt_pos h.tilt_lt
  exact side_shaded hw hgcr a b c h.sun_up h.not_edge_on hi hseg

/-- C87: on a side facing the sun and a neighbouring row the lit length is the module width or,
if less, the row distance divided by the width of the shadow that one metre of module throws on
the ground; all other sides have no shade. -/
theorem C87_lit_length (p : ArrayParams) (u : StepIn) (i : ℕ) (s : RowSide) (hw : 0 < p.width)
    (hgcr : 0 < p.gcr) (h : ShadeStep p u) (hi : i < p.nRows) (hseg : 0 < p.nSeg i s) :
    let g := fitStep p u
    let shadow := (g.ground.shadowXs i).2 - (g.ground.shadowXs i).1
    0 < shadow ∧
    (FacesSun g.rot.deg g.sun s → FacesRow p.nRows g.rot.deg i s →
      p.width - sideShadedLength (g.side i s)
        = min p.width (p.width / p.gcr / (shadow / p.width))) ∧
    (¬ (FacesSun g.rot.deg g.sun s ∧ FacesRow p.nRows g.rot.deg i s) →
      sideShadedLength (g.side i s) = 0) := by
  intro g shadow
  have hF := h.not_edge_on
  have hy := h.sun_up
  have hsh : shadow = p.width * (|frontDotSun g.rot.deg g.sun| / g.sun.y) := by
    have hx : g.ground.shadowXs i = shadowXs (fullRowCoords (rowCenter p i) p.width g.rot.deg)
      (arctan2 g.sun.y g.sun.x) := rfl
    have := shadowXs_eq p (rot := g.rot.deg) (sin_alpha_ne hy.ne') i hw.le
    simp only [shadow]
    rw [hx, this, kappa_eq hy.ne', abs_div, abs_of_pos hy]
    simp only
    ring
  have hA : 0 < |frontDotSun g.rot.deg g.sun| := abs_pos.2 hF
  obtain ⟨h1, h2⟩ := side_shaded_step hw hgcr h hi hseg
  refine ⟨by rw [hsh]; exact mul_pos hw (div_pos hA hy), fun a b => ?_, h2⟩
  rw [h1 a b]
  have e1 : p.width / p.gcr / (shadow / p.width)
      = p.distance * (g.sun.y / |frontDotSun g.rot.deg g.sun|) := by
    rw [hsh, ArrayParams.distance]
    field_simp
  rw [e1]
  set X := p.distance * (g.sun.y / |frontDotSun g.rot.deg g.sun|)
  rcases le_total p.width X with hX | hX
  · rw [min_eq_left hX, max_eq_left (by linarith)]; ring
  · rw [min_eq_right hX, max_eq_right (by linarith)]; ring

/-- C87: the shaded length of a side depends on ground coverage ratio, module width, tilt and sun
only: not on the height, nor on the number of segments, nor on the number of rows and the position
in the array, as long as a row stands in front of the side. -/
theorem C87_only (p p' : ArrayParams) (u : StepIn) (i i' : ℕ) (s : RowSide) (hw : 0 < p.width)
    (hgcr : 0 < p.gcr) (ha : p'.axisAzimuth = p.axisAzimuth) (hg' : p'.gcr = p.gcr)
    (hw' : p'.width = p.width) (h : ShadeStep p u) (hi : i < p.nRows) (hi' : i' < p'.nRows)
    (hseg : 0 < p.nSeg i s) (hseg' : 0 < p'.nSeg i' s)
    (hf : FacesRow p.nRows (fitStep p u).rot.deg i s ↔
      FacesRow p'.nRows (fitStep p u).rot.deg i' s) :
    sideShadedLength ((fitStep p' u).side i' s) = sideShadedLength ((fitStep p u).side i s) := by
  have er : (fitStep p' u).rot = (fitStep p u).rot := by simp only [fitStep, fitGeom, ha]
  have es : (fitStep p' u).sun = (fitStep p u).sun := by simp only [fitStep, fitGeom, ha]
  have h' : ShadeStep p' u := ⟨h.tilt_pos, h.tilt_lt, by rw [es]; exact h.sun_up,
    by rw [er, es]; exact h.not_edge_on⟩
  obtain ⟨a1, a2⟩ := side_shaded_step hw hgcr h hi hseg
  obtain ⟨b1, b2⟩ := side_shaded_step (hw'.symm ▸ hw) (hg'.symm ▸ hgcr) h' hi' hseg'
  rw [er, es] at b1 b2
  by_cases hc : FacesSun (fitStep p u).rot.deg (fitStep p u).sun s ∧
      FacesRow p.nRows (fitStep p u).rot.deg i s
  · rw [a1 hc.1 hc.2, b1 hc.1 (hf.1 hc.2), hw', ArrayParams.distance, ArrayParams.distance, hw',
      hg']
  · rw [a2 hc, b2 (fun hh => hc ⟨hh.1, hf.2 hh.2⟩)]

/-- C87: rows further apart have no more shade, on any side of any row. -/
theorem C87_distance (p p' : ArrayParams) (u : StepIn) (i : ℕ) (s : RowSide) (hw : 0 < p.width)
    (hgcr : 0 < p.gcr) (ha : p'.axisAzimuth = p.axisAzimuth) (hw' : p'.width = p.width)
    (hn : p'.nRows = p.nRows) (hle : p.gcr ≤ p'.gcr) (h : ShadeStep p u) (hi : i < p.nRows)
    (hseg : 0 < p.nSeg i s) (hseg' : 0 < p'.nSeg i s) :
    sideShadedLength ((fitStep p u).side i s) ≤ sideShadedLength ((fitStep p' u).side i s) := by
  have er : (fitStep p' u).rot = (fitStep p u).rot := by simp only [fitStep, fitGeom, ha]
  have es : (fitStep p' u).sun = (fitStep p u).sun := by simp only [fitStep, fitGeom, ha]
  have h' : ShadeStep p' u := ⟨h.tilt_pos, h.tilt_lt, by rw [es]; exact h.sun_up,
    by rw [er, es]; exact h.not_edge_on⟩
  obtain ⟨a1, a2⟩ := side_shaded_step hw hgcr h hi hseg
  obtain ⟨b1, b2⟩ := side_shaded_step (hw'.symm ▸ hw) (hgcr.trans_le hle) h' (hn ▸ hi) hseg'
  rw [er, es, hn] at b1 b2
  have hq : 0 ≤ (fitStep p u).sun.y / |frontDotSun (fitStep p u).rot.deg (fitStep p u).sun| :=
    div_nonneg h.sun_up.le (abs_nonneg _)
  by_cases hc : FacesSun (fitStep p u).rot.deg (fitStep p u).sun s ∧
      FacesRow p.nRows (fitStep p u).rot.deg i s
  · rw [a1 hc.1 hc.2, b1 hc.1 hc.2, hw']
    refine max_le_max le_rfl (sub_le_sub_left (mul_le_mul_of_nonneg_right ?_ hq) _)
    simp only [ArrayParams.distance, hw']
    exact div_le_div_of_nonneg_left hw.le hgcr hle
  · rw [a2 hc, b2 hc]

theorem front_lowness {rot : ℝ} {sun : Pt} {s : RowSide} (hr : rot ≠ 0)
    (h0 : -180 < rot) (h1 : rot < 180) (hy : 0 < sun.y)
    (hf : FacesSun rot sun s) :
    |frontDotSun rot sun| / sun.y
      = (if s = .front then cosd rot else -cosd rot) + |sind rot| * sunLowness rot sun s := by
  have pos : ∀ s, FacesLeft rot s → sunLowness rot sun s = - sun.x / sun.y := fun s h => if_pos h
  have neg : ∀ s, ¬ FacesLeft rot s → sunLowness rot sun s = sun.x / sun.y := fun s h => if_neg h
  rcases lt_or_gt_of_ne hr with hr' | hr'
  · rw [abs_of_neg (sind_neg_of_neg hr' h0)]
    cases s
    · rw [abs_of_pos hf, if_pos rfl, neg .front (not_lt.2 hr'.le)]
      simp only [frontDotSun]; field_simp; ring
    · rw [abs_of_neg hf, if_neg (by simp), pos .back hr']
      simp only [frontDotSun]; field_simp; ring
  · rw [abs_of_pos (sind_pos hr' h1)]
    cases s
    · rw [abs_of_pos hf, if_pos rfl, pos .front hr']
      simp only [frontDotSun]; field_simp; ring
    · rw [abs_of_neg hf, if_neg (by simp), neg .back (not_lt.2 hr'.le)]
      simp only [frontDotSun]; field_simp; ring

/-- C87: with the modules as they are, the lower the sun stands on the side to which the lit side
faces, the more of it is in the shade. -/
theorem C87_sun (p : ArrayParams) (u u' : StepIn) (i : ℕ) (s : RowSide) (hw : 0 < p.width)
    (hgcr : 0 < p.gcr) (ht : u'.surfaceTilt = u.surfaceTilt)
    (hz : u'.surfaceAzimuth = u.surfaceAzimuth) (h : ShadeStep p u) (h' : ShadeStep p u')
    (hs : FacesSun (fitStep p u).rot.deg (fitStep p u).sun s)
    (hs' : FacesSun (fitStep p u').rot.deg (fitStep p u').sun s)
    (hle : sunLowness (fitStep p u).rot.deg (fitStep p u).sun s
      ≤ sunLowness (fitStep p u').rot.deg (fitStep p u').sun s)
    (hi : i < p.nRows) (hseg : 0 < p.nSeg i s) :
    sideShadedLength ((fitStep p u).side i s) ≤ sideShadedLength ((fitStep p u').side i s) := by
  have er : (fitStep p u').rot = (fitStep p u).rot := by simp only [fitStep, fitGeom, ht, hz]
  obtain ⟨a1, a2⟩ := side_shaded_step hw hgcr h hi hseg
  obtain ⟨b1, b2⟩ := side_shaded_step hw hgcr h' hi hseg
  obtain ⟨r0, r1, r2⟩ := rotation_range (sa := u.surfaceAzimuth) (aa := p.axisAzimuth)
    h.tilt_pos h.tilt_lt
  have hF' := h'.not_edge_on
  rw [er] at b1 b2 hs' hle hF'
  have hy := h.sun_up
  have hy' := h'.sun_up
  have hF := h.not_edge_on
  by_cases hc : FacesRow p.nRows (fitStep p u).rot.deg i s
  · rw [a1 hs hc, b1 hs' hc]
    refine max_le_max le_rfl (sub_le_sub_left (mul_le_mul_of_nonneg_left ?_
      (div_pos hw hgcr).le) _)
    have k1 := front_lowness r2 r0 r1 hy hs
    have k2 := front_lowness r2 r0 r1 hy' hs'
    have hq : |frontDotSun (fitStep p u).rot.deg (fitStep p u).sun| / (fitStep p u).sun.y
        ≤ |frontDotSun (fitStep p u).rot.deg (fitStep p u').sun| / (fitStep p u').sun.y := by
      rw [show |frontDotSun (fitStep p u).rot.deg (fitStep p u).sun| / (fitStep p u).sun.y = _
        from k1, show |frontDotSun (fitStep p u).rot.deg (fitStep p u').sun|
          / (fitStep p u').sun.y = _ from k2]
      exact add_le_add le_rfl (mul_le_mul_of_nonneg_left hle (abs_nonneg _))
    have := one_div_le_one_div_of_le (div_pos (abs_pos.2 hF) hy) hq
    rwa [one_div_div, one_div_div] at this
  · rw [a2 (fun hh => hc hh.2), b2 (fun hh => hc hh.2)]

theorem cosd_le_one' (x : ℝ) : cosd x ≤ 1 := Real.cos_le_one _

/-- C87: with the sun where it is, on the side to which the fronts face, tilting the modules more
gives more shade on the fronts, until they face the sun. -/
theorem C87_tilt (p : ArrayParams) (u u' : StepIn) (i : ℕ) (hw : 0 < p.width)
    (hgcr : 0 < p.gcr) (hz : u'.surfaceAzimuth = u.surfaceAzimuth)
    (hsz : u'.solarZenith = u.solarZenith) (hsa : u'.solarAzimuth = u.solarAzimuth)
    (hle : u.surfaceTilt ≤ u'.surfaceTilt) (h : ShadeStep p u) (h' : ShadeStep p u')
    (hs : FacesSun (fitStep p u).rot.deg (fitStep p u).sun .front)
    (hs' : FacesSun (fitStep p u').rot.deg (fitStep p u').sun .front)
    (hface : sind u'.surfaceTilt
      ≤ cosd u'.surfaceTilt * sunLowness (fitStep p u').rot.deg (fitStep p u').sun .front)
    (hi : i < p.nRows) (hseg : 0 < p.nSeg i .front) :
    sideShadedLength ((fitStep p u).side i .front)
      ≤ sideShadedLength ((fitStep p u').side i .front) := by
  have es : (fitStep p u').sun = (fitStep p u).sun := by simp only [fitStep, fitGeom, hsz, hsa]
  obtain ⟨a1, a2⟩ := side_shaded_step hw hgcr h hi hseg
  obtain ⟨b1, b2⟩ := side_shaded_step hw hgcr h' hi hseg
  have q1 : (fitStep p u).rot.deg = if sind (u.surfaceAzimuth - p.axisAzimuth) < 0
      then u.surfaceTilt else -u.surfaceTilt := C25_orientation _ _ _ h.tilt_pos
  have q2 : (fitStep p u').rot.deg = if sind (u.surfaceAzimuth - p.axisAzimuth) < 0
      then u'.surfaceTilt else -u'.surfaceTilt := by
    rw [← hz]; exact C25_orientation _ _ _ h'.tilt_pos
  have p1 := h.tilt_pos
  have p2 := h'.tilt_pos
  have hfl : FacesLeft (fitStep p u').rot.deg .front ↔ FacesLeft (fitStep p u).rot.deg .front := by
    simp only [FacesLeft]
    rw [q1, q2]
    split_ifs
    · simp [p1, p2]
    · constructor <;> intro hh <;> linarith
  have hy := h.sun_up
  have hF := h.not_edge_on
  obtain ⟨r0, r1, r2⟩ := rotation_range (sa := u.surfaceAzimuth) (aa := p.axisAzimuth)
    h.tilt_pos h.tilt_lt
  obtain ⟨r0', r1', r2'⟩ := rotation_range (sa := u'.surfaceAzimuth) (aa := p.axisAzimuth)
    h'.tilt_pos h'.tilt_lt
  have hy' := h'.sun_up
  have k1 : |frontDotSun (fitStep p u).rot.deg (fitStep p u).sun| / (fitStep p u).sun.y
      = cosd (fitStep p u).rot.deg + |sind (fitStep p u).rot.deg|
        * sunLowness (fitStep p u).rot.deg (fitStep p u).sun .front :=
    by have := front_lowness r2 r0 r1 hy hs; rwa [if_pos rfl] at this
  have k2 : |frontDotSun (fitStep p u').rot.deg (fitStep p u').sun| / (fitStep p u').sun.y
      = cosd (fitStep p u').rot.deg + |sind (fitStep p u').rot.deg|
        * sunLowness (fitStep p u').rot.deg (fitStep p u').sun .front :=
    by have := front_lowness r2' r0' r1' hy' hs'; rwa [if_pos rfl] at this
  have hlow : sunLowness (fitStep p u').rot.deg (fitStep p u').sun .front
      = sunLowness (fitStep p u).rot.deg (fitStep p u).sun .front := by
    classical
    unfold sunLowness
    rw [es]
    exact if_congr hfl rfl rfl
  have c1 : cosd (fitStep p u).rot.deg = cosd u.surfaceTilt := by
    rw [q1]; split_ifs <;> simp [cosd_neg]
  have c2 : cosd (fitStep p u').rot.deg = cosd u'.surfaceTilt := by
    rw [q2]; split_ifs <;> simp [cosd_neg]
  have s1 : |sind (fitStep p u).rot.deg| = sind u.surfaceTilt := by
    have := abs_of_pos (sind_pos h.tilt_pos h.tilt_lt)
    rw [q1]; split_ifs <;> simp [sind_neg, this]
  have s2 : |sind (fitStep p u').rot.deg| = sind u'.surfaceTilt := by
    have := abs_of_pos (sind_pos h'.tilt_pos h'.tilt_lt)
    rw [q2]; split_ifs <;> simp [sind_neg, this]
  rw [c1, s1] at k1
  rw [c2, s2, hlow] at k2
  rw [hlow] at hface
  set a := sunLowness (fitStep p u).rot.deg (fitStep p u).sun .front
  have hF' := h'.not_edge_on
  have pos2 : 0 < cosd u'.surfaceTilt + sind u'.surfaceTilt * a := by
    rw [← k2]; exact div_pos (abs_pos.2 hF') hy'
  have hδ : 0 ≤ sind (u'.surfaceTilt - u.surfaceTilt) := by
    rcases hle.eq_or_lt with e | l
    · rw [e, sub_self, sind_zero]
    · exact (sind_pos (by linarith) (by linarith [h'.tilt_lt])).le
  have hc1 := cosd_le_one' (u'.surfaceTilt - u.surfaceTilt)
  have ec : cosd u.surfaceTilt = cosd u'.surfaceTilt * cosd (u'.surfaceTilt - u.surfaceTilt)
      + sind u'.surfaceTilt * sind (u'.surfaceTilt - u.surfaceTilt) := by
    rw [← cosd_sub]; congr 1; ring
  have esd : sind u.surfaceTilt = sind u'.surfaceTilt * cosd (u'.surfaceTilt - u.surfaceTilt)
      - cosd u'.surfaceTilt * sind (u'.surfaceTilt - u.surfaceTilt) := by
    have : sind u.surfaceTilt = sind (u'.surfaceTilt - (u'.surfaceTilt - u.surfaceTilt)) := by
      congr 1; ring
    rw [this]
    simp only [cosd, sind, deg2rad, ← Real.sin_sub]; congr 1; ring
  have hq : |frontDotSun (fitStep p u).rot.deg (fitStep p u).sun| / (fitStep p u).sun.y
      ≤ |frontDotSun (fitStep p u').rot.deg (fitStep p u').sun| / (fitStep p u').sun.y := by
    rw [k1, k2, ec, esd]
    set C := cosd (u'.surfaceTilt - u.surfaceTilt)
    set S := sind (u'.surfaceTilt - u.surfaceTilt)
    have e1 : cosd u'.surfaceTilt * C + sind u'.surfaceTilt * S
        + (sind u'.surfaceTilt * C - cosd u'.surfaceTilt * S) * a
        = (cosd u'.surfaceTilt + sind u'.surfaceTilt * a) * C
          - (cosd u'.surfaceTilt * a - sind u'.surfaceTilt) * S := by ring
    rw [e1]
    have := mul_nonneg (sub_nonneg.2 hface) hδ
    have := mul_le_mul_of_nonneg_left hc1 pos2.le
    linarith
  by_cases hc : FacesRow p.nRows (fitStep p u).rot.deg i .front
  · have hc' : FacesRow p.nRows (fitStep p u').rot.deg i .front := by
      unfold FacesRow at hc ⊢; rw [hfl]; exact hc
    rw [a1 hs hc, b1 hs' hc']
    refine max_le_max le_rfl (sub_le_sub_left (mul_le_mul_of_nonneg_left ?_
      (div_pos hw hgcr).le) _)
    have := one_div_le_one_div_of_le (div_pos (abs_pos.2 hF) hy) hq
    rwa [one_div_div, one_div_div] at this
  · have hc' : ¬ FacesRow p.nRows (fitStep p u').rot.deg i .front := by
      unfold FacesRow at hc ⊢; rw [hfl]; exact hc
    rw [a2 (fun hh => hc hh.2), b2 (fun hh => hc' hh.2)]

/-- C87: no row has any shade exactly if one row's shadow on the ground is not wider than the row
distance. -/
theorem C87_no_shade (p : ArrayParams) (u : StepIn) (hw : 0 < p.width) (hgcr : 0 < p.gcr)
    (hn : 1 < p.nRows) (h : ShadeStep p u) (hseg : ∀ i s, 0 < p.nSeg i s) :
    let g := fitStep p u
    (∀ i < p.nRows, ∀ s, sideShadedLength (g.side i s) = 0) ↔
      p.gcr * |frontDotSun g.rot.deg g.sun| ≤ g.sun.y := by
  intro g
  have hA : 0 < |frontDotSun g.rot.deg g.sun| := abs_pos.2 h.not_edge_on
  have hiff : p.width - p.distance * (g.sun.y / |frontDotSun g.rot.deg g.sun|) ≤ 0 ↔
      p.gcr * |frontDotSun g.rot.deg g.sun| ≤ g.sun.y := by
    have e : p.distance * (g.sun.y / |frontDotSun g.rot.deg g.sun|)
        = p.width * (g.sun.y / (p.gcr * |frontDotSun g.rot.deg g.sun|)) := by
      rw [ArrayParams.distance]; field_simp
    rw [e, ← one_le_div (mul_pos hgcr hA)]
    constructor
    · intro hh; by_contra hc; nlinarith [not_le.1 hc]
    · intro hh; nlinarith
  constructor
  · intro hall
    rw [← hiff]
    obtain ⟨s, hs⟩ : ∃ s, FacesSun g.rot.deg g.sun s := by
      rcases lt_or_gt_of_ne h.not_edge_on with hh | hh
      · exact ⟨.back, hh⟩
      · exact ⟨.front, hh⟩
    obtain ⟨i, hi, hf⟩ : ∃ i < p.nRows, FacesRow p.nRows g.rot.deg i s := by
      by_cases hl : FacesLeft g.rot.deg s
      · exact ⟨1, hn, fun _ => one_pos, fun k => absurd hl k⟩
      · exact ⟨0, by omega, fun k => absurd k hl, fun _ => by omega⟩
    have h1 := hall i hi s
    rw [(side_shaded_step hw hgcr h hi (hseg i s)).1 hs hf] at h1
    have := le_max_right (0 : ℝ) (p.width - p.distance
      * (g.sun.y / |frontDotSun g.rot.deg g.sun|))
    linarith
  · intro hle i hi s
    obtain ⟨a1, a2⟩ := side_shaded_step hw hgcr h hi (hseg i s)
    by_cases hc : FacesSun g.rot.deg g.sun s ∧ FacesRow p.nRows g.rot.deg i s
    · rw [a1 hc.1 hc.2]; exact max_eq_left (hiff.2 hle)
    · exact a2 hc

/-- C87, the backtracking condition: with modules and sun on the same azimuth, perpendicular to the
axis, there is no shade exactly if `gcr * cos (zenith - tilt) ≤ cos zenith`. -/
theorem C87_backtracking (p : ArrayParams) (u : StepIn) (hw : 0 < p.width) (hgcr : 0 < p.gcr)
    (hn : 1 < p.nRows) (hseg : ∀ i s, 0 < p.nSeg i s) (ht0 : 0 < u.surfaceTilt)
    (ht1 : u.surfaceTilt < 180) (hz0 : 0 ≤ u.solarZenith) (hz1 : u.solarZenith < 90)
    (haz : u.solarAzimuth = u.surfaceAzimuth)
    (hperp : sind (u.surfaceAzimuth - p.axisAzimuth) = 1 ∨
      sind (u.surfaceAzimuth - p.axisAzimuth) = -1)
    (hface : 0 < cosd (u.solarZenith - u.surfaceTilt)) :
    (∀ i < p.nRows, ∀ s, sideShadedLength ((fitStep p u).side i s) = 0) ↔
      p.gcr * cosd (u.solarZenith - u.surfaceTilt) ≤ cosd u.solarZenith := by
  have q1 : (fitStep p u).rot.deg = if sind (u.surfaceAzimuth - p.axisAzimuth) < 0
      then u.surfaceTilt else -u.surfaceTilt := C25_orientation _ _ _ ht0
  have hsun : (fitStep p u).sun = ⟨sind u.solarZenith * sind (u.surfaceAzimuth - p.axisAzimuth),
      cosd u.solarZenith⟩ := by
    have : (fitStep p u).sun = solar2dVector u.solarZenith u.solarAzimuth p.axisAzimuth := rfl
    rw [this, solar2dVector, haz, cosd_sub, cosd_90, sind_90]
    simp
  have hy : 0 < cosd u.solarZenith := by
    refine Real.cos_pos_of_mem_Ioo ⟨?_, ?_⟩ <;> unfold deg2rad <;> nlinarith [Real.pi_pos]
  have hF : frontDotSun (fitStep p u).rot.deg (fitStep p u).sun
      = cosd (u.solarZenith - u.surfaceTilt) := by
    rw [hsun, q1, frontDotSun, cosd_sub]
    rcases hperp with e | e
    · rw [e, if_neg (by norm_num), cosd_neg, sind_neg]; simp only; ring
    · rw [e, if_pos (by norm_num)]; simp only; ring
  have h : ShadeStep p u := ⟨ht0, ht1, by rw [hsun]; exact hy, by rw [hF]; exact hface.ne'⟩
  have := C87_no_shade p u hw hgcr hn h hseg
  simp only at this
  rw [this, hF, abs_of_pos hface, hsun]

/-! ## Concrete cases -/

/-- Modules and sun to the left, with any tilt and zenith. -/
noncomputable def leftStep (zenith tilt : ℝ) : StepIn where
  solarZenith := zenith
  solarAzimuth := 270
  surfaceTilt := tilt
  surfaceAzimuth := 270

theorem sind_270 : sind (270 - 0) = -1 := by
  rw [show (270 - 0 : ℝ) = 90 + 180 by norm_num, sind_add_180, sind_90]

theorem left_rot {p : ArrayParams} (hp : p.axisAzimuth = 0) {z t : ℝ} (ht : 0 < t) :
    (fitStep p (leftStep z t)).rot.deg = t := by
  have : (fitStep p (leftStep z t)).rot = rotationFromTiltAzimuth 270 p.axisAzimuth t := rfl
  rw [this, C25_orientation _ _ _ ht, hp, sind_270, if_pos (by norm_num)]

theorem left_sun {p : ArrayParams} (hp : p.axisAzimuth = 0) (z t : ℝ) :
    (fitStep p (leftStep z t)).sun = ⟨- sind z, cosd z⟩ := by
  have : (fitStep p (leftStep z t)).sun = solar2dVector z 270 p.axisAzimuth := rfl
  rw [this, solar2dVector, hp, show (270 - 0 - 90 : ℝ) = 180 by norm_num, cosd_180]
  simp

theorem left_front {p : ArrayParams} (hp : p.axisAzimuth = 0) {z t : ℝ} (ht : 0 < t) :
    frontDotSun (fitStep p (leftStep z t)).rot.deg (fitStep p (leftStep z t)).sun
      = cosd (z - t) := by
  rw [left_rot hp ht, left_sun hp, frontDotSun, cosd_sub]; simp only; ring

theorem left_shadeStep {p : ArrayParams} (hp : p.axisAzimuth = 0) {z t : ℝ} (ht : 0 < t)
    (ht' : t < 180) (hz : 0 < cosd z) (hf : 0 < cosd (z - t)) : ShadeStep p (leftStep z t) :=
  ⟨ht, ht', by rw [left_sun hp]; exact hz, by rw [left_front hp ht]; exact hf.ne'⟩

theorem dense_seg (i : ℕ) (s : RowSide) : 0 < denseArray.nSeg i s := by
  cases s <;> simp only [ArrayParams.nSeg, ArrayParams.nFront, ArrayParams.nBack, denseArray] <;>
    split_ifs <;> simp

theorem dense_left_shade {z t : ℝ} (ht : 0 < t) (ht' : t < 180) (hz : 0 < cosd z)
    (hf : 0 < cosd (z - t)) :
    sideShadedLength ((fitStep denseArray (leftStep z t)).side 1 .front)
      = max 0 (1 - 5 / 4 * (cosd z / cosd (z - t))) := by
  have h := left_shadeStep (p := denseArray) rfl ht ht' hz hf
  have e := (side_shaded_step (p := denseArray) (i := 1) (s := .front) (by norm_num [denseArray])
    (by norm_num [denseArray]) h (by simp [denseArray]) (dense_seg _ _)).1
    (by simp only [FacesSun]; rw [left_front rfl ht]; exact hf)
    (by
      refine ⟨fun _ => one_pos, fun hh => absurd ?_ hh⟩
      simp only [FacesLeft]; rw [left_rot rfl ht]; exact ht)
  rw [e, left_front rfl ht, left_sun rfl, abs_of_pos hf]
  norm_num [denseArray, ArrayParams.distance]

/-- The condition for backtracking separates: at the same step an array with ground coverage ratio
0.8 has shade, one with 0.5 has none. -/
theorem C87_demo :
    (¬ ∀ i < denseArray.nRows, ∀ s,
      sideShadedLength ((fitStep denseArray (leftStep 60 30)).side i s) = 0) ∧
    (∀ i < denseArray.nRows, ∀ s,
      sideShadedLength ((fitStep { denseArray with gcr := 1 / 2 } (leftStep 60 30)).side i s) = 0)
    := by
  have h3 : (1.7 : ℝ) < Real.sqrt 3 := by
    rw [Real.lt_sqrt (by norm_num)]; norm_num
  have h3' : Real.sqrt 3 < 1.8 := by
    rw [Real.sqrt_lt (by norm_num) (by norm_num)]; norm_num
  have hf : cosd (60 - 30) = Real.sqrt 3 / 2 := by
    rw [show (60 - 30 : ℝ) = 30 by norm_num, cosd_30]
  constructor
  · rw [C87_backtracking denseArray (leftStep 60 30) (by norm_num [denseArray])
      (by norm_num [denseArray]) (by simp [denseArray]) dense_seg (by norm_num [leftStep])
      (by norm_num [leftStep]) (by norm_num [leftStep]) (by norm_num [leftStep]) rfl
      (Or.inr sind_270) (by simp only [leftStep]; rw [hf]; positivity)]
    simp only [leftStep, denseArray]
    rw [hf, cosd_60]
    intro h; linarith
  · refine (C87_backtracking { denseArray with gcr := 1 / 2 } (leftStep 60 30)
      (by norm_num [denseArray]) (by norm_num [denseArray]) (by simp [denseArray])
      (fun i s => ?_) (by norm_num [leftStep])
      (by norm_num [leftStep]) (by norm_num [leftStep]) (by norm_num [leftStep]) rfl
      (Or.inr sind_270) (by simp only [leftStep]; rw [hf]; positivity)).2 ?_
    · have := dense_seg i s
      cases s <;> exact this
    · simp only [leftStep]
      rw [hf, cosd_60]; linarith

/-- The hypotheses of `C87_sun` and `C87_tilt` are met with strictly more shade: from the sun in the
zenith to zenith angle 60 degrees, and from tilt 30 to 60 degrees. -/
theorem C87_strict_demo :
    (sunLowness (fitStep denseArray (leftStep 0 30)).rot.deg (fitStep denseArray (leftStep 0 30)).sun
        .front
      ≤ sunLowness (fitStep denseArray (leftStep 60 30)).rot.deg
        (fitStep denseArray (leftStep 60 30)).sun .front ∧
    sideShadedLength ((fitStep denseArray (leftStep 0 30)).side 1 .front)
      < sideShadedLength ((fitStep denseArray (leftStep 60 30)).side 1 .front)) ∧
    (sind 60 ≤ cosd 60 * sunLowness (fitStep denseArray (leftStep 60 60)).rot.deg
        (fitStep denseArray (leftStep 60 60)).sun .front ∧
    sideShadedLength ((fitStep denseArray (leftStep 60 30)).side 1 .front)
      < sideShadedLength ((fitStep denseArray (leftStep 60 60)).side 1 .front)) := by
  have h3 : (1.7 : ℝ) < Real.sqrt 3 := by
    rw [Real.lt_sqrt (by norm_num)]; norm_num
  have h3' : Real.sqrt 3 < 1.8 := by
    rw [Real.sqrt_lt (by norm_num) (by norm_num)]; norm_num
  have hsq : Real.sqrt 3 * Real.sqrt 3 = 3 := Real.mul_self_sqrt (by norm_num)
  have hf : cosd (60 - 30) = Real.sqrt 3 / 2 := by
    rw [show (60 - 30 : ℝ) = 30 by norm_num, cosd_30]
  have hf0 : cosd (0 - 30) = Real.sqrt 3 / 2 := by
    rw [show (0 - 30 : ℝ) = -30 by norm_num, cosd_neg, cosd_30]
  have hf1 : cosd (60 - 60) = 1 := by rw [sub_self, cosd_zero]
  have low : ∀ z t : ℝ, 0 < t → sunLowness (fitStep denseArray (leftStep z t)).rot.deg
      (fitStep denseArray (leftStep z t)).sun .front = sind z / cosd z := by
    intro z t ht
    have hl : FacesLeft (fitStep denseArray (leftStep z t)).rot.deg .front := by
      simp only [FacesLeft]; rw [left_rot rfl ht]; exact ht
    rw [sunLowness, if_pos hl, left_sun rfl]; simp
  have q : (1 : ℝ) / 2 / (Real.sqrt 3 / 2) < 3 / 5 := by
    rw [div_lt_iff₀ (by positivity)]; linarith
  have q' : (5 : ℝ) / 9 < 1 / 2 / (Real.sqrt 3 / 2) := by
    rw [lt_div_iff₀ (by positivity)]; linarith
  have a0 := dense_left_shade (z := 0) (t := 30) (by norm_num) (by norm_num)
    (by rw [cosd_zero]; norm_num) (by rw [hf0]; positivity)
  have a1 := dense_left_shade (z := 60) (t := 30) (by norm_num) (by norm_num)
    (by rw [cosd_60]; norm_num) (by rw [hf]; positivity)
  have a2 := dense_left_shade (z := 60) (t := 60) (by norm_num) (by norm_num)
    (by rw [cosd_60]; norm_num) (by rw [hf1]; norm_num)
  rw [hf0, cosd_zero, max_eq_left] at a0
  rw [hf, cosd_60, max_eq_right (by linarith)] at a1
  rw [hf1, cosd_60, max_eq_right (by norm_num)] at a2
  · rw [a0, a1, a2, low _ _ (by norm_num), low _ _ (by norm_num), low _ _ (by norm_num), sind_zero,
      cosd_zero, sind_60, cosd_60]
    refine ⟨⟨by rw [zero_div]; positivity, by linarith⟩, ⟨le_of_eq (by ring), by linarith⟩⟩
  · have : (1 : ℝ) ≤ 1 / (Real.sqrt 3 / 2) := by
      rw [le_div_iff₀ (by positivity)]; linarith
    linarith

end PVF
