import Verif.Spec.Mirror
import Verif.Lemmas.MirrorFast
import Verif.Props.AoiRays
import Verif.Props.Compass
import Verif.Props.Demos

/-! # Mornings and afternoons are alike in fast mode: C95 -/

namespace PVF

/-! ## Steps -/

theorem PhysicalArray.mirror {p : ArrayParams} (h : PhysicalArray p) : PhysicalArray p.mirror :=
  ⟨h.width_pos, h.gcr_pos⟩

theorem PhysicalStep.mirror {p : ArrayParams} {u u' : StepIn} (hu : PhysicalStep p u)
    (hm : MirroredStep p.axisAzimuth u u') (hA : Across p u) : PhysicalStep p.mirror u' := by
  have hax : p.mirror.axisAzimuth = p.axisAzimuth := rfl
  have hrot := hm.rot hA.tilted hA.across
  have hsun := hm.solar
  constructor
  · rw [hm.tilt]; exact hu.tilt_nonneg
  · rw [hm.tilt]; exact hu.tilt_lt
  · rw [hm.tilt]; exact hu.above
  · rw [hax, hsun]; exact hu.sun_y
  · rw [hax, hsun, hrot, frontDotSun_mirror]; exact hu.sun_front
  · rw [hax, hsun, hrot]
    have := hu.shade_ok
    unfold ShadeOk at this ⊢
    rw [frontDotSun_mirror]
    exact this

theorem fitStep_mirror {p : ArrayParams} {u u' : StepIn} (hm : MirroredStep p.axisAzimuth u u') :
    fitStep p.mirror u' = fitGeom p.mirror
      (rotationFromTiltAzimuth u'.surfaceAzimuth p.axisAzimuth u'.surfaceTilt)
      ⟨-(solar2dVector u.solarZenith u.solarAzimuth p.axisAzimuth).x,
        (solar2dVector u.solarZenith u.solarAzimuth p.axisAzimuth).y⟩ := by
  have hax : p.mirror.axisAzimuth = p.axisAzimuth := rfl
  unfold fitStep
  rw [hax, hm.solar]

/-- C95: the view factors that fast mode works with are the same in the mirror, and so is the list
of view factors to the shadows of the rows, in reverse order, unless shadows overlap. -/
theorem C95_view_factors (p : ArrayParams) (u u' : StepIn) (hm : MirroredStep p.axisAzimuth u u')
    (hp : PhysicalArray p) (hu : PhysicalStep p u) (hA : Across p u)
    (hin : ShadowsInside p (fitStep p u)) (r k : ℕ) (sh : Bool) (hr : r < p.nRows)
    (hk : k < p.nBack r) (hb : RowBehind p (fitStep p u) r) :
    let v := fastVF p (fitStep p u) r ((fitStep p u).coords (.pv r .back k sh))
    let v' := fastVF p.mirror (fitStep p.mirror u') ((p.nRows - 1 - r : ℕ) : ℤ)
      ((fitStep p.mirror u').coords (mirrorPv p r .back k sh))
    SameView v v' ∧
    (¬ (fitStep p u).ground.flagOverlap → v'.toEachGndShadow = v.toEachGndShadow.reverse) := by
  intro v v'
  have hrot := hm.rot hA.tilted hA.across
  have h0 := mirror_rot_ne (axis := p.axisAzimuth) hA.tilted
  have hu' := hu.mirror hm hA
  have h := physical_of hp hu
  have h' : Physical p.mirror
      (rotationFromTiltAzimuth u'.surfaceAzimuth p.axisAzimuth u'.surfaceTilt).deg :=
    physical_of hp.mirror hu'
  have ho := ordered_of hp hu
  have ho' := ordered_of hp.mirror hu'
  rw [fitStep_mirror hm] at ho'
  have ha : SurfRef.pv r .back k sh ∈ allRefs p := mem_allRefs_pv.2 ⟨hr, hk⟩
  have hn : p.nRows = 1 ∨ HasNb (faceL (rotationFromTiltAzimuth u.surfaceAzimuth p.axisAzimuth
      u.surfaceTilt).deg .back) p.nRows r := by
    refine hb.imp id fun hb => ?_
    change (if 0 < (rotationFromTiltAzimuth u.surfaceAzimuth p.axisAzimuth u.surfaceTilt).deg
      then _ else _) at hb
    unfold HasNb faceL
    by_cases hc : 0 < (rotationFromTiltAzimuth u.surfaceAzimuth p.axisAzimuth u.surfaceTilt).deg
    · rw [if_pos hc] at hb
      simp [hc]
      omega
    · rw [if_neg hc] at hb
      simp [hc]
      omega
  have a1 := fast_shadows_mirror h h' h0 hrot hu.sun_y hu.sun_front ho ho' hin ha
  have a2 := fast_ground_mirror h h' h0 hrot hu.sun_y hu.sun_front ha hn
  have a3 := fast_row_mirror h h' h0 hrot hu.sun_y hu.sun_front ha
  simp only [← fitStep_mirror hm] at a1 a2 a3
  obtain ⟨b1, b2⟩ := a1
  obtain ⟨b3, b4⟩ := a3
  refine ⟨⟨b1, ?_, a2, b3, b4, ?_, ?_⟩, b2⟩
  · have e : v'.toGndTotal - v'.toGndShaded = v.toGndTotal - v.toGndShaded := congrArg₂ _ a2 b1
    exact e
  · have e : v'.toPvrowTotal - v'.toPvrowShaded = v.toPvrowTotal - v.toPvrowShaded :=
      congrArg₂ _ b3 b4
    exact e
  · have e : 1 - v'.toGndTotal - v'.toPvrowTotal = 1 - v.toGndTotal - v.toPvrowTotal :=
      congrArg₂ _ (congrArg _ a2) b3
    exact e

/-! ## Light -/

section
variable {axis : ℝ} {v v' : IrrIn} (h : MirroredIn axis v v')
include h

theorem MirroredIn.step : MirroredStep axis v.step v'.step where
  zenith := by rw [h.rest]; rfl
  tilt := by rw [h.rest]; rfl
  sun := h.sun
  surface := h.surface

theorem MirroredIn.aoiFront : v'.aoiFront = v.aoiFront := by
  obtain ⟨k, hk⟩ := h.sun
  obtain ⟨l, hl⟩ := h.surface
  have e : cosd (v'.solarAzimuth - v'.surfaceAzimuth) = cosd (v.solarAzimuth - v.surfaceAzimuth) := by
    have : v'.solarAzimuth - v'.surfaceAzimuth
        = -(v.solarAzimuth - v.surfaceAzimuth) + 360 * ((k - l : ℤ) : ℝ) := by
      push_cast; linarith
    rw [this, cosd_add_360, cosd_neg]
  have e1 : v'.surfaceTilt = v.surfaceTilt := by rw [h.rest]
  have e2 : v'.solarZenith = v.solarZenith := by rw [h.rest]
  unfold IrrIn.aoiFront aoiFunction aoiProjection
  rw [e, e1, e2]

theorem MirroredIn.direct (q : IrrParams) : directCats q v' = directCats q v := by
  have e := h.aoiFront
  have e1 : v'.dni = v.dni := by rw [h.rest]
  have e2 : v'.solarZenith = v.solarZenith := by rw [h.rest]
  unfold directCats IrrIn.aoiBack
  rw [e, e1, e2]

theorem MirroredIn.circumsolar (q : IrrParams) : circumsolarCats q v' = circumsolarCats q v := by
  have e := h.aoiFront
  have e1 : v'.perez = v.perez := by rw [h.rest]
  have e2 : v'.solarZenith = v.solarZenith := by rw [h.rest]
  unfold circumsolarCats poaCircumsolarBack IrrIn.aoiBack
  rw [e, e1, e2]

end

/-- The same light for a surface and its mirror image. -/
structure MirroredLight (s s' : IrrStep) (a a' : SurfRef) : Prop where
  comp : s'.comp a' = s.comp a
  sky : s'.sky = s.sky
  albedo : s'.albedo = s.albedo
  rhoFront : s'.rhoFront = s.rhoFront
  gndShaded : s'.gndShaded = s.gndShaded
  gndIllum : s'.gndIllum = s.gndIllum
  pvrowShaded : s'.pvrowShaded = s.pvrowShaded
  pvrowIllum : s'.pvrowIllum = s.pvrowIllum

theorem sameFast_of {p p' : ArrayParams} {g g' : StepGeom} {s s' : IrrStep} {i i' : ℤ}
    {a a' : SurfRef} (hl : MirroredLight s s' a a')
    (hv : SameView (fastVF p g i (g.coords a)) (fastVF p' g' i' (g'.coords a'))) :
    SameFast (fastSurface p g s i a) (fastSurface p' g' s' i' a') := by
  constructor <;>
  simp only [fastSurface, hl.comp, hl.sky, hl.albedo, hl.rhoFront, hl.gndShaded, hl.gndIllum,
    hl.pvrowShaded, hl.pvrowIllum, hv.gndShaded, hv.gndIllum, hv.gndTotal, hv.pvrowTotal,
    hv.pvrowShaded, hv.pvrowIllum, hv.sky]
  exact hv

theorem run_mirror {p : ArrayParams} {g g' : StepGeom} {s s' : IrrStep} {r k : ℕ} (sh : Bool)
    (hr : r < p.nRows) (hk : k < p.nBack r)
    (hs : SameFast (fastSurface p g s r (.pv r .back k sh))
      (fastSurface p.mirror g' s' ((p.nRows - 1 - r : ℕ) : ℤ) (mirrorPv p r .back k sh))) :
    ∃ f f', runFastMode p g s r none (.pv r .back k sh) = some f ∧
      runFastMode p.mirror g' s' ((p.nRows - 1 - r : ℕ) : ℤ) none (mirrorPv p r .back k sh)
        = some f' ∧ SameFast f f' := by
  have e1 := (C30_targets p g s r (.pv r .back k sh)).2 ⟨k, sh, hk, rfl⟩
  have hk' : p.nSeg r .back - 1 - k < p.mirror.nBack (p.nRows - 1 - r) := by
    have := mirror_nSeg p hr .back
    have hk' : k < p.nSeg r .back := hk
    change p.nSeg r .back - 1 - k < p.mirror.nSeg (p.nRows - 1 - r) .back
    rw [this]
    omega
  have e2 := (C30_targets p.mirror g' s' (p.nRows - 1 - r) (mirrorPv p r .back k sh)).2
    ⟨_, sh, hk', rfl⟩
  rw [runFastMode_eq] at e1 e2
  refine ⟨_, _, ?_, ?_, hs⟩
  · rw [runFastMode_eq]
    split_ifs at e1 ⊢
    · rfl
    · simp at e1
  · rw [runFastMode_eq]
    split_ifs at e2 ⊢
    · rfl
    · simp at e2

/-- C95: with the isotropic sky model, fast mode gives a surface and its mirror image the same
results. -/
theorem C95_isotropic (p : ArrayParams) (q : IrrParams) (v v' : IrrIn)
    (hm : MirroredIn p.axisAzimuth v v') (hp : PhysicalArray p) (hu : PhysicalStep p v.step)
    (hA : Across p v.step) (hin : ShadowsInside p (fitStep p v.step)) (r k : ℕ) (sh : Bool)
    (hr : r < p.nRows) (hk : k < p.nBack r) (hb : RowBehind p (fitStep p v.step) r) :
    ∃ f f', runFastMode p (fitStep p v.step) (isotropicStep q v) r none (.pv r .back k sh) = some f ∧
      runFastMode p.mirror (fitStep p.mirror v'.step) (isotropicStep q v')
        ((p.nRows - 1 - r : ℕ) : ℤ) none (mirrorPv p r .back k sh) = some f' ∧ SameFast f f' := by
  refine run_mirror sh hr hk (sameFast_of ?_
    (C95_view_factors p v.step v'.step hm.step hp hu hA hin r k sh hr hk hb).1)
  have e1 : v'.dhi = v.dhi := by rw [hm.rest]
  have e2 : v'.albedo = v.albedo := by rw [hm.rest]
  have e3 : v'.poaGlobal = v.poaGlobal := by rw [hm.rest]
  have e4 : v'.ghiUsed = v.ghiUsed := by rw [hm.rest]; rfl
  constructor <;> simp only [isotropicStep, hm.direct, e1, e2, e3, e4]
  cases sh <;> rfl

theorem horizon_mirror (p : ArrayParams) (q : IrrParams) (v v' : IrrIn)
    (hm : MirroredIn p.axisAzimuth v v') (hp : PhysicalArray p) (hu : PhysicalStep p v.step)
    (hA : Across p v.step) (r k : ℕ) (sh : Bool) (hr : r < p.nRows) (hk : k < p.nBack r) :
    horizonOf q p.mirror (fitStep p.mirror v'.step) v' (mirrorPv p r .back k sh)
      = horizonOf q p (fitStep p v.step) v (.pv r .back k sh) := by
  have e1 : v'.perez = v.perez := by rw [hm.rest]
  have hrot := hm.step.rot hA.tilted hA.across
  have h0 := mirror_rot_ne (axis := p.axisAzimuth) hA.tilted
  have h := physical_of hp hu
  have h' := physical_of hp.mirror (hu.mirror hm.step hA)
  have hc := mirror_coords p v.step v'.step hm.step hu hA.tilted hA.across hr (s := .back) hk sh
  set D := (rotationFromTiltAzimuth v.step.surfaceAzimuth p.axisAzimuth v.step.surfaceTilt).deg
    with hD
  have hax : p.mirror.axisAzimuth = p.axisAzimuth := rfl
  rw [hax, hrot] at h'
  have hg : (fitStep p v.step).rot.deg = D := rfl
  have hg' : (fitStep p.mirror v'.step).rot.deg = -D := hrot
  have hfull : ∀ j, ((fitStep p v.step).row j).full = fullRowCoords (rowCenter p j) p.width D :=
    fun _ => rfl
  have hfull' : ∀ j, ((fitStep p.mirror v'.step).row j).full
      = fullRowCoords (rowCenter p.mirror j) p.mirror.width (-D) := by
    intro j
    rw [← hrot]
    rfl
  have hs : ∀ j, j < p.nRows → ∀ pt : Pt,
      shadingAngleTo ((fitStep p.mirror v'.step).row (p.nRows - 1 - j)).full
        (mirrorTo (rowCenter p 0) (rowCenter p (p.nRows - 1)) pt)
        = shadingAngleTo ((fitStep p v.step).row j).full pt := by
    intro j hj pt
    unfold shadingAngleTo
    rw [hfull, hfull', full_highest h h0, full_highest h' (neg_ne_zero.2 h0)]
    have e : tPt (rowCenter p.mirror (p.nRows - 1 - j)) p.mirror.width (-D) p.mirror.width
        = mirrorTo (rowCenter p 0) (rowCenter p (p.nRows - 1)) (tPt (rowCenter p j) p.width D
          p.width) := by
      have hw : p.mirror.width = p.width := rfl
      have hcj : ((p.nRows - 1 - j : ℕ) : ℝ) = p.nRows - 1 - j := by
        rw [Nat.cast_sub (by omega), Nat.cast_sub (by omega)]; simp
      have hc1 : ((p.nRows - 1 : ℕ) : ℝ) = p.nRows - 1 := by
        rw [Nat.cast_sub (by omega)]; simp
      have hd : p.mirror.distance = p.distance := rfl
      have hh : p.mirror.height = p.height := rfl
      unfold tPt rowPt mirrorTo rowCenter
      rw [hw, hcj, hc1, hd, hh, cosd_neg, sind_neg]
      rcases lt_or_gt_of_ne h0 with h1 | h1
      · rw [if_pos (show 0 < -D by linarith), if_neg (show ¬ 0 < D by linarith)]
        ext <;> simp <;> ring
      · rw [if_neg (show ¬ 0 < -D by linarith), if_pos h1]
        ext <;> simp <;> ring
    rw [e]
    simp only [mirrorTo]
    generalize tPt (rowCenter p j) p.width D p.width = w
    rw [show (rowCenter p (p.nRows - 1)).y + (w.y - (rowCenter p 0).y)
        - ((rowCenter p (p.nRows - 1)).y + (pt.y - (rowCenter p 0).y)) = w.y - pt.y by ring,
      show (rowCenter p (p.nRows - 1)).x - (w.x - (rowCenter p 0).x)
        - ((rowCenter p (p.nRows - 1)).x - (pt.x - (rowCenter p 0).x)) = -(w.x - pt.x) by ring,
      div_neg, Real.arctan_neg, abs_neg]
  unfold mirrorPv at hc ⊢
  simp only [horizonOf, poaHorizonUsed, e1]
  rw [hc]
  have hcen : ∀ l : Line, (l.map (mirrorTo (rowCenter p 0) (rowCenter p (p.nRows - 1)))).centroid
      = mirrorTo (rowCenter p 0) (rowCenter p (p.nRows - 1)) l.centroid := by
    intro l
    simp only [Line.map, Line.centroid, mirrorTo]
    ext <;> simp <;> ring
  rw [hcen]
  congr 3
  generalize ((fitStep p v.step).coords (.pv r .back k sh)).centroid = pt
  unfold horizonShadingPct
  simp only [if_true]
  rw [hg, hg']
  have hnn : p.mirror.nRows = p.nRows := rfl
  by_cases hc : D > 0
  · rw [if_neg (show ¬ -D > 0 by linarith), if_pos hc]
    by_cases hl : r = p.nRows - 1
    · rw [if_pos hl, if_pos (by omega)]
    · rw [if_neg hl, if_neg (by omega), ← hs (r + 1) (by omega) pt,
        show p.nRows - 1 - r - 1 = p.nRows - 1 - (r + 1) by omega]
  · rw [if_pos (show -D > 0 by
      have := lt_of_le_of_ne (not_lt.1 hc) h0
      linarith), if_neg hc, hnn]
    by_cases hl : r = 0
    · rw [if_pos hl, if_pos (by omega)]
    · rw [if_neg hl, if_neg (by omega), ← hs (r - 1) (by omega) pt,
        show p.nRows - 1 - r + 1 = p.nRows - 1 - (r - 1) by omega]

/-- C95: with the hybrid Perez model, fast mode gives a surface and its mirror image the same
results. -/
theorem C95_perez (p : ArrayParams) (q : IrrParams) (v v' : IrrIn)
    (hm : MirroredIn p.axisAzimuth v v') (hp : PhysicalArray p) (hu : PhysicalStep p v.step)
    (hA : Across p v.step) (hin : ShadowsInside p (fitStep p v.step)) (r k : ℕ) (sh : Bool)
    (hr : r < p.nRows) (hk : k < p.nBack r) (hb : RowBehind p (fitStep p v.step) r) :
    ∃ f f', runFastMode p (fitStep p v.step) (hybridPerezStep q p (fitStep p v.step) v) r none
        (.pv r .back k sh) = some f ∧
      runFastMode p.mirror (fitStep p.mirror v'.step)
        (hybridPerezStep q p.mirror (fitStep p.mirror v'.step) v') ((p.nRows - 1 - r : ℕ) : ℤ) none
        (mirrorPv p r .back k sh) = some f' ∧ SameFast f f' := by
  refine run_mirror sh hr hk (sameFast_of ?_
    (C95_view_factors p v.step v'.step hm.step hp hu hA hin r k sh hr hk hb).1)
  have e1 : v'.dhi = v.dhi := by rw [hm.rest]
  have e2 : v'.albedo = v.albedo := by rw [hm.rest]
  have e3 : v'.poaGlobal = v.poaGlobal := by rw [hm.rest]
  have e4 : v'.ghiUsed = v.ghiUsed := by rw [hm.rest]; rfl
  have e5 : v'.perez = v.perez := by rw [hm.rest]
  constructor <;> simp only [hybridPerezStep, hm.direct, hm.circumsolar, e1, e2, e3, e4, e5,
    horizon_mirror p q v v' hm hp hu hA r k sh hr hk]
  cases sh <;> rfl

/-! ## Witness -/

/-- Light for `vertStep`: an afternoon. -/
noncomputable def vertAfternoon : IrrIn :=
  { demoIrrIn with solarZenith := 45, solarAzimuth := 270, surfaceTilt := 90, surfaceAzimuth := 270 }

/-- The morning that mirrors it. -/
noncomputable def vertMorning : IrrIn :=
  { demoIrrIn with solarZenith := 45, solarAzimuth := 90, surfaceTilt := 90, surfaceAzimuth := 90 }

/-- The hypotheses of C95 can be met: the upper half of the back of the left one of two rows in the
afternoon, the upper half of the back of the right one in the morning. -/
theorem C95_demo :
    MirroredIn vertArray.axisAzimuth vertAfternoon vertMorning ∧
    ∃ f f', runFastMode vertArray (fitStep vertArray vertAfternoon.step)
        (hybridPerezStep demoIrrParams vertArray (fitStep vertArray vertAfternoon.step)
          vertAfternoon) (0 : ℕ) none (.pv 0 .back 1 false) = some f ∧
      runFastMode vertArray.mirror (fitStep vertArray.mirror vertMorning.step)
        (hybridPerezStep demoIrrParams vertArray.mirror
          (fitStep vertArray.mirror vertMorning.step) vertMorning) (1 : ℕ) none
        (.pv 1 .back 0 false) = some f' ∧ SameFast f f' ∧
      f.viewFactors.toPvrowTotal = (Real.sqrt 29 - 5) / 2 ∧
      f'.viewFactors.toSky = (1 + (5 - Real.sqrt 26)) / 2 := by
  have hm : MirroredIn vertArray.axisAzimuth vertAfternoon vertMorning := by
    refine ⟨⟨1, ?_⟩, ⟨1, ?_⟩, rfl⟩ <;>
      norm_num [vertArray, vertAfternoon, vertMorning]
  have hA : Across vertArray vertAfternoon.step := by
    refine ⟨by norm_num [vertAfternoon, IrrIn.step], ?_⟩
    change sind (270 - 0) ≠ 0
    rw [show (270 - 0 : ℝ) = 90 + 180 by norm_num, sind_add_180, sind_90]
    norm_num
  have hin : ShadowsInside vertArray (fitStep vertArray vertStep) := by
    have hf : ¬ (fitStep vertArray vertStep).ground.flagOverlap := by
      rw [vert_fit]
      change ¬ hasDirectShading vertArray _ 90
      rw [vert_alpha]
      unfold hasDirectShading; rw [vert_interrow]
      have := TOL_pos
      simp only [gt_iff_lt]; push Not; constructor <;> linarith
    have hx : ∀ i, (fitStep vertArray vertStep).ground.noOverlap i
        = (fitStep vertArray vertStep).ground.shadowXs i := by
      intro i
      simp only [GroundIn.noOverlap, hf, and_false, if_false]
    have x0 := vert_xs 0 (by norm_num)
    have x1 := vert_xs 1 (by norm_num)
    rw [hx] at x0 x1
    have hd : ((vertArray.nRows : ℝ) - 1) * vertArray.distance = 5 := by
      norm_num [vertArray, ArrayParams.distance]
    intro i hi x hx
    have hi : i < 2 := hi
    rw [hd]
    interval_cases i
    · rw [x0] at hx
      rcases hx with rfl | rfl <;> norm_num [MIN_X, MAX_X]
    · rw [x1] at hx
      rcases hx with rfl | rfl <;> norm_num [MIN_X, MAX_X]
  have hb : RowBehind vertArray (fitStep vertArray vertStep) 0 := by
    right
    rw [vert_deg]
    norm_num [vertArray]
  obtain ⟨f, f', h1, h2, h3⟩ := C95_perez vertArray demoIrrParams vertAfternoon vertMorning hm vert_physicalArray
    vert_physicalStep hA hin 0 1 false (by norm_num [vertArray])
    (by norm_num [vertArray, ArrayParams.nBack]) hb
  obtain ⟨d1, -, d3, -⟩ := C28_demo
  have hf : f = fastSurface vertArray (fitStep vertArray vertStep) (hybridPerezStep demoIrrParams
      vertArray (fitStep vertArray vertAfternoon.step) vertAfternoon) (0 : ℕ)
      (.pv 0 .back 1 false) := by
    rw [runFastMode_eq] at h1
    split_ifs at h1
    exact (Option.some.inj h1).symm
  have hv : f.viewFactors = fastVF vertArray (fitStep vertArray vertStep) (0 : ℕ)
      ((fitStep vertArray vertStep).coords (.pv 0 .back 1 false)) := by rw [hf]; rfl
  refine ⟨hm, f, f', h1, h2, h3, by rw [hv]; exact d3, ?_⟩
  rw [h3.viewFactors.sky, hv]
  exact d1

end PVF
