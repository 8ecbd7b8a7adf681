import Verif.Lemmas.FastPart
import Verif.Spec.Physical

/-!
# Fast mode for physically placed arrays: ranges (C28), comparison with full mode (C29, C47),
incident irradiance (C30)
-/

namespace PVF

variable {ι : Type*} [Fintype ι]

/-! ## C28 -/

/-- C28: for surfaces on the back of the rows of a physically placed array, all view factors of
fast mode lie between 0 and 1. -/
theorem C28_range (p : ArrayParams) (u : StepIn) (hp : PhysicalArray p) (hu : PhysicalStep p u)
    (r k : ℕ) (sh : Bool) (ha : SurfRef.pv r .back k sh ∈ surfaces p) :
    let g := fitStep p u
    let v := fastVF p g r (g.coords (.pv r .back k sh))
    ∀ x ∈ v.toGndShaded :: v.toGndIllum :: v.toGndTotal :: v.toPvrowShaded :: v.toPvrowIllum
      :: v.toPvrowTotal :: v.toSky :: v.toEachGndShadow, 0 ≤ x ∧ x ≤ 1 := by
  intro g v
  obtain ⟨h1, h2, h3, h4, h5, h6⟩ := fast_range (physical_of hp hu) (rotation_flatOk u p)
    (ordered_of hp hu) (mem_surfaces.1 ha)
  obtain ⟨c1, c2, c3, -, c4⟩ := C28_complete p g r (g.coords (.pv r .back k sh))
  change ∀ x ∈ v.toEachGndShadow, 0 ≤ x at h1
  change 0 ≤ v.toGndShaded at h2
  change 0 ≤ v.toGndIllum at h3
  change 0 ≤ v.toPvrowShaded at h4
  change 0 ≤ v.toPvrowIllum at h5
  change 0 ≤ v.toSky at h6
  change v.toGndTotal + v.toPvrowTotal + v.toSky = 1 at c1
  change v.toGndShaded + v.toGndIllum = v.toGndTotal at c2
  change v.toPvrowShaded + v.toPvrowIllum = v.toPvrowTotal at c3
  change v.toEachGndShadow.sum = v.toGndShaded at c4
  intro x hx
  simp only [List.mem_cons] at hx
  rcases hx with rfl | rfl | rfl | rfl | rfl | rfl | rfl | hx
  any_goals constructor <;> linarith
  have := List.single_le_sum h1 x hx
  exact ⟨h1 x hx, by linarith⟩

/-! ## C29 -/

theorem vfToPart_eq {p : ArrayParams} {u : ι → StepIn} {t : ι} {a : SurfRef} (ha : a ∈ surfaces p)
    (part : SurfRef → Bool) :
    vfToPart p (tsVfMatrix p u t) a part
      = partSum p (entryVF p (fitStep p (u t)) (isEmptyTs fun t => fitStep p (u t)) a) part := by
  unfold vfToPart partSum
  rw [Finset.sum_filter, ← List.sum_toFinset _ (nodup_allRefs p)]
  refine Finset.sum_congr rfl fun b hb => ?_
  rw [vfBetween_eq ha hb]

section
variable (p : ArrayParams) (u : ι → StepIn) (t : ι) (hp : PhysicalArray p)
    (hu : PhysicalStep p (u t))
    (hlen : ∀ b ∈ surfaces p, lengthAt p (u t) b = 0 ∨ lengthAt p (u t) b > TOL)
    (r k : ℕ) (sh : Bool) (ha : SurfRef.pv r .back k sh ∈ surfaces p)
include hp hu hlen ha

theorem noSliver_of : NoSliver p (fitStep p (u t)) := fun a ha' => hlen a (mem_surfaces.2 ha')

/-- C29: fast mode and full mode agree on the view factor to the ground shadows: it is the sum of
the full-mode view factors to all surfaces of shaded ground. -/
theorem C29_shadows :
    let g := fitStep p (u t)
    let a := SurfRef.pv r .back k sh
    (fastVF p g r (g.coords a)).toGndShaded
      = vfToPart p (tsVfMatrix p u t) a fun b => b.isGround && b.isShaded := by
  intro g a
  rw [vfToPart_eq ha]
  exact fast_shadows_eq (physical_of hp hu) (rotation_flatOk (u t) p) (ordered_of hp hu) _
    (mem_surfaces.1 ha) (fun x hx => length_lt_of_empty hx t) (noSliver_of p u t hp hu hlen r k sh ha)

/-- C29: fast mode and full mode agree on the view factors to other rows and to their shaded and
illuminated parts. -/
theorem C29_rows (hcut : ∀ i < p.nRows, 0 < p.nFront i) :
    let g := fitStep p (u t)
    let a := SurfRef.pv r .back k sh
    let v := fastVF p g r (g.coords a)
    let F := tsVfMatrix p u t
    v.toPvrowTotal = vfToPart p F a (fun b => !b.isGround) ∧
    v.toPvrowShaded = vfToPart p F a (fun b => !b.isGround && b.isShaded) ∧
    v.toPvrowIllum = vfToPart p F a (fun b => !b.isGround && !b.isShaded) := by
  intro g a v F
  obtain ⟨h1, h2⟩ := fast_rows_eq (physical_of hp hu) (isEmptyTs fun t => fitStep p (u t))
    (mem_surfaces.1 ha) (fun x hx => length_lt_of_empty hx t)
    (noSliver_of p u t hp hu hlen r k sh ha) hcut
  have e1 : v.toPvrowTotal = vfToPart p F a (fun b => !b.isGround) := by
    rw [vfToPart_eq ha]; exact h1
  have e2 : v.toPvrowShaded = vfToPart p F a (fun b => !b.isGround && b.isShaded) := by
    rw [vfToPart_eq ha]; exact h2
  refine ⟨e1, e2, ?_⟩
  have c3 := (C28_complete p g r (g.coords a)).2.2.1
  change v.toPvrowShaded + v.toPvrowIllum = v.toPvrowTotal at c3
  have : vfToPart p F a (fun b => !b.isGround) = vfToPart p F a (fun b => !b.isGround && b.isShaded)
      + vfToPart p F a (fun b => !b.isGround && !b.isShaded) := by
    unfold vfToPart
    simp only [Finset.sum_filter]
    rw [← Finset.sum_add_distrib]
    refine Finset.sum_congr rfl fun b _ => ?_
    cases b.isGround <;> cases b.isShaded <;> simp
  linarith

/-- C29: the view factor to the ground in fast mode is never less than in full mode. -/
theorem C29_ground_le :
    let g := fitStep p (u t)
    let a := SurfRef.pv r .back k sh
    vfToPart p (tsVfMatrix p u t) a SurfRef.isGround ≤ (fastVF p g r (g.coords a)).toGndTotal := by
  intro g a
  rw [vfToPart_eq ha]
  exact full_ground_le (physical_of hp hu) (rotation_flatOk (u t) p) (ordered_of hp hu) _
    (mem_surfaces.1 ha) (fun x hx => length_lt_of_empty hx t) (noSliver_of p u t hp hu hlen r k sh ha)

/-- C29: the outermost row on the side that the backs of the rows look to has the same view factor
to the ground in both modes, if it is flat or if the ground in front of its back is not
empty, that is, if the point where the line of the row meets the ground is not beyond the end of
the ground. -/
theorem C29_ground_edge
    (hr : if 0 < (fitStep p (u t)).rot.deg then r = p.nRows - 1 else r = 0)
    (hc : (fitStep p (u t)).rot.deg = 0 ∨ ∃ c : ℝ,
      Aligned ⟨c, 0⟩ ((fitStep p (u t)).row r).full.b1 ((fitStep p (u t)).row r).full.b2 ∧
      if 0 < (fitStep p (u t)).rot.deg then c ≤ MAX_X else MIN_X ≤ c) :
    let g := fitStep p (u t)
    let a := SurfRef.pv r .back k sh
    vfToPart p (tsVfMatrix p u t) a SurfRef.isGround = (fastVF p g r (g.coords a)).toGndTotal := by
  intro g a
  rw [vfToPart_eq ha]
  have hph := physical_of hp hu
  refine full_ground_edge hph (rotation_flatOk (u t) p) (ordered_of hp hu) _
    (mem_surfaces.1 ha) (fun x hx => length_lt_of_empty hx t) (noSliver_of p u t hp hu hlen r k sh ha)
    ?_ ?_
  · unfold HasNb
    simp only [faceL_back]
    change if 0 < (rotationFromTiltAzimuth _ _ _).deg then _ else _ at hr
    split_ifs at hr ⊢ <;> simp_all
  · intro x hx
    rcases hc with h0 | ⟨c, h1, h2⟩
    · exfalso
      change (rotationFromTiltAzimuth _ _ _).deg = 0 at h0
      rw [cutPointX_row, if_pos h0] at hx
      split_ifs at hx
    · by_cases h0 : (fitStep p (u t)).rot.deg = 0
      · exfalso
        change (rotationFromTiltAzimuth _ _ _).deg = 0 at h0
        rw [cutPointX_row, if_pos h0] at hx
        split_ifs at hx
      · have := (aligned_cut hph h0 h1).1
        rw [this] at hx
        simp only [XR.fin.injEq] at hx
        subst hx
        simp only [faceL_back]
        change if 0 < (rotationFromTiltAzimuth _ _ _).deg then _ else _ at h2
        split_ifs at h2 ⊢ <;> simp_all

/-- C29: for a row with a neighbour `j` on the side that its back looks to, and whose line meets
the ground within its extent, fast mode sees at most that much more ground than full mode as
the view from the low end of the surface gains below the neighbour behind the end of the ground;
nothing if the line from the low end of the surface through the low end of the neighbour
meets the ground within its extent. -/
theorem C29_ground_inner (j : ℕ) (h0 : (fitStep p (u t)).rot.deg ≠ 0)
    (hj : if 0 < (fitStep p (u t)).rot.deg then j = r + 1 ∧ j < p.nRows else r = j + 1) (c : ℝ)
    (hcg : MIN_X ≤ c ∧ c ≤ MAX_X)
    (hc : Aligned ⟨c, 0⟩ ((fitStep p (u t)).row r).full.b1 ((fitStep p (u t)).row r).full.b2) :
    let g := fitStep p (u t)
    let a := SurfRef.pv r .back k sh
    let O := (g.row j).full.lowest
    let P := (g.coords a).lowest
    let E : Pt := ⟨if 0 < g.rot.deg then MAX_X else MIN_X, 0⟩
    let fast := (fastVF p g r (g.coords a)).toGndTotal
    let full := vfToPart p (tsVfMatrix p u t) a SurfRef.isGround
    fast - full ≤ (distPt E O + distPt O P - distPt E P) / (2 * lengthAt p (u t) a) ∧
    ((∃ x : ℝ, (MIN_X ≤ x ∧ x ≤ MAX_X) ∧ Aligned ⟨x, 0⟩ O P) → fast = full) := by
  intro g a O P E fast full
  have hph := physical_of hp hu
  obtain ⟨hr, hk⟩ := mem_allRefs_pv.1 (mem_surfaces.1 ha)
  have hrot : (fitStep p (u t)).rot.deg
      = (rotationFromTiltAzimuth (u t).surfaceAzimuth p.axisAzimuth (u t).surfaceTilt).deg := rfl
  have hn : HasNb (faceL g.rot.deg .back) p.nRows r := by
    unfold HasNb
    simp only [faceL_back]
    split_ifs at hj ⊢ <;> omega
  have hnb : nb (faceL g.rot.deg .back) r = j := by
    unfold nb
    simp only [faceL_back]
    split_ifs at hj ⊢ <;> omega
  have := full_ground_nb hph (rotation_flatOk (u t) p) (ordered_of hp hu)
    (isEmptyTs fun t => fitStep p (u t)) (mem_surfaces.1 ha)
    (fun x hx => length_lt_of_empty hx t) (noSliver_of p u t hp hu hlen r k sh ha) hn h0 hcg hc
  simp only at this
  have hO : O = tPt (rowCenter p j) p.width g.rot.deg 0 := full_lowest hph j
  have hP : P = tPt (rowCenter p r) p.width g.rot.deg (pvIv p g.rot
      (solar2dVector (u t).solarZenith (u t).solarAzimuth p.axisAzimuth) r .back k sh).1 :=
    (pv_highest_lowest (sun := solar2dVector (u t).solarZenith (u t).solarAzimuth p.axisAzimuth)
      hph hk sh).2
  have hE : E = gp (endX (faceL g.rot.deg .back)) := by
    simp only [E, gp, endX, faceL_back]
    split_ifs <;> simp_all
  have hfull : full = partSum p (entryVF p g (isEmptyTs fun t => fitStep p (u t)) a)
    SurfRef.isGround := vfToPart_eq ha _
  change nb (faceL (rotationFromTiltAzimuth (u t).surfaceAzimuth p.axisAzimuth
    (u t).surfaceTilt).deg .back) r = j at hnb
  rw [hnb] at this
  rw [hO, hP, hE, hfull]
  exact this

/-- C29: as soon as both modes agree on the ground, they agree on the illuminated ground and on the
sky, so that all view factors of fast mode are those of full mode. -/
theorem C29_sky (hcut : ∀ i < p.nRows, 0 < p.nFront i)
    (hgnd : vfToPart p (tsVfMatrix p u t) (.pv r .back k sh) SurfRef.isGround
      = (fastVF p (fitStep p (u t)) r ((fitStep p (u t)).coords (.pv r .back k sh))).toGndTotal)
    (hl : lengthAt p (u t) (.pv r .back k sh) > TOL) :
    let g := fitStep p (u t)
    let a := SurfRef.pv r .back k sh
    let v := fastVF p g r (g.coords a)
    let F := tsVfMatrix p u t
    v.toGndIllum = vfToPart p F a (fun b => b.isGround && !b.isShaded) ∧
    v.toSky = vfToSky p F a := by
  intro g a v F
  have c := C28_complete p g r (g.coords a)
  have c1 : v.toGndTotal + v.toPvrowTotal + v.toSky = 1 := c.1
  have c2 : v.toGndShaded + v.toGndIllum = v.toGndTotal := c.2.1
  have s1 : v.toGndShaded = vfToPart p F a fun b => b.isGround && b.isShaded :=
    C29_shadows p u t hp hu hlen r k sh ha
  have s2 : v.toPvrowTotal = vfToPart p F a fun b => !b.isGround :=
    (C29_rows p u t hp hu hlen r k sh ha hcut).1
  change vfToPart p F a SurfRef.isGround = v.toGndTotal at hgnd
  have e1 : vfToPart p F a SurfRef.isGround = vfToPart p F a (fun b => b.isGround && b.isShaded)
      + vfToPart p F a (fun b => b.isGround && !b.isShaded) := by
    unfold vfToPart
    simp only [Finset.sum_filter]
    rw [← Finset.sum_add_distrib]
    refine Finset.sum_congr rfl fun b _ => ?_
    cases b.isGround <;> cases b.isShaded <;> simp
  have e2 : ∑ b ∈ surfaces p, vfBetween p F a b = vfToPart p F a SurfRef.isGround
      + vfToPart p F a (fun b => !b.isGround) := by
    unfold vfToPart
    simp only [Finset.sum_filter]
    rw [← Finset.sum_add_distrib]
    refine Finset.sum_congr rfl fun b _ => ?_
    cases b.isGround <;> simp
  have hrow := row_sum_surfaces (u := u) (t := t) ha hl
  change ∑ b ∈ surfaces p, vfBetween p F a b + vfToSky p F a = 1 at hrow
  exact ⟨by linarith, by linarith⟩

end

/-! ## C30 -/

theorem runFastMode_eq (p : ArrayParams) (g : StepGeom) (s : IrrStep) (i : ℤ) (seg : Option ℤ)
    (a : SurfRef) : runFastMode p g s i seg a
      = if a ∈ fastTargets p i seg then some (fastSurface p g s i a) else none := by
  unfold runFastMode
  have : ∀ (l : List SurfRef) (m : SurfRef → Option FastOut),
      (l.foldl (fun m a => Function.update m a (some (fastSurface p g s i a))) m) a
        = if a ∈ l then some (fastSurface p g s i a) else m a := by
    intro l
    induction l with
    | nil => intro m; simp
    | cons b l ih =>
      intro m
      rw [List.foldl_cons, ih]
      by_cases h1 : a ∈ l
      · simp [h1]
      · by_cases h2 : a = b
        · subst h2; simp [h1]
        · simp [h1, h2, Function.update]
  exact this _ _

/-- C30: without a segment index fast mode writes to the surfaces on the back of the row, shaded and
illuminated, and to no others. -/
theorem C30_targets (p : ArrayParams) (g : StepGeom) (s : IrrStep) (r : ℕ) (a : SurfRef) :
    (runFastMode p g s r none a).isSome ↔ ∃ k sh, k < p.nBack r ∧ a = .pv r .back k sh := by
  rw [runFastMode_eq]
  have : a ∈ fastTargets p r none ↔ ∃ k sh, k < p.nBack r ∧ a = .pv r .back k sh := by
    simp only [fastTargets, pyIdx_nat, sideRefs, List.mem_flatMap, List.mem_range, List.mem_cons,
      List.not_mem_nil, or_false, ArrayParams.nSeg]
    constructor
    · rintro ⟨k, hk, rfl | rfl⟩
      · exact ⟨k, false, hk, rfl⟩
      · exact ⟨k, true, hk, rfl⟩
    · rintro ⟨k, sh, hk, rfl⟩
      exact ⟨k, hk, by cases sh <;> simp⟩
  rw [← this]
  split_ifs with h <;> simp [h]

/-- C30: with a segment index fast mode writes to the two surfaces of that segment only. -/
theorem C30_targets_segment (p : ArrayParams) (g : StepGeom) (s : IrrStep) (r k : ℕ)
    (a : SurfRef) :
    (runFastMode p g s r (some k) a).isSome ↔ ∃ sh, a = .pv r .back k sh := by
  rw [runFastMode_eq]
  have : a ∈ fastTargets p r (some k) ↔ ∃ sh, a = .pv r .back k sh := by
    simp only [fastTargets, pyIdx_nat, List.mem_cons, List.not_mem_nil, or_false]
    constructor
    · rintro (rfl | rfl)
      · exact ⟨false, rfl⟩
      · exact ⟨true, rfl⟩
    · rintro ⟨sh, rfl⟩
      cases sh <;> simp
  rw [← this]
  split_ifs with h <;> simp [h]

/-- C30: the incident irradiance that fast mode writes is the sum of the light coming directly from
the sky, the isotropic light and the reflections from the shaded and illuminated ground and
from the shaded and illuminated parts of the next row; each part is a view factor times the
irradiance (times the reflectivity), and these view factors add up to 1. -/
theorem C30_components (p : ArrayParams) (g : StepGeom) (s : IrrStep) (i : ℤ) (seg : Option ℤ)
    (a : SurfRef) (o : FastOut) (h : runFastMode p g s i seg a = some o) :
    o.skyTerm = (s.comp a).sum ∧
    o.qinc = o.skyTerm + o.isotropic + o.reflection ∧
    o.reflection = o.reflectionGndShaded + o.reflectionGndIllum
      + o.reflectionPvrowShaded + o.reflectionPvrowIllum ∧
    o.isotropic = o.viewFactors.toSky * s.sky ∧
    o.reflectionGndShaded = o.viewFactors.toGndShaded * (s.albedo * s.gndShaded) ∧
    o.reflectionGndIllum = o.viewFactors.toGndIllum * (s.albedo * s.gndIllum) ∧
    o.reflectionPvrowShaded = o.viewFactors.toPvrowShaded * (s.rhoFront * s.pvrowShaded) ∧
    o.reflectionPvrowIllum = o.viewFactors.toPvrowIllum * (s.rhoFront * s.pvrowIllum) ∧
    o.viewFactors.toSky + o.viewFactors.toGndShaded + o.viewFactors.toGndIllum
      + o.viewFactors.toPvrowShaded + o.viewFactors.toPvrowIllum = 1 := by
  rw [runFastMode_eq] at h
  split_ifs at h
  simp only [Option.some.injEq] at h
  subst h
  obtain ⟨c1, c2, c3, -⟩ := C28_complete p g i (g.coords a)
  refine ⟨sumComponents_eq _, ?_, rfl, rfl, ?_, ?_, ?_, ?_, ?_⟩
  · simp only [fastSurface]; ring
  · simp only [fastSurface]; ring
  · simp only [fastSurface]; ring
  · simp only [fastSurface]; ring
  · simp only [fastSurface]; ring
  · simp only [fastSurface]; linarith

/-- C30: in a physically placed array, if everything that a surface sees sends out between 0 and `M`
then the light arriving at it, other than directly from the sky, is between 0 and `M`. -/
theorem C30_bounds (p : ArrayParams) (u : StepIn) (hp : PhysicalArray p) (hu : PhysicalStep p u)
    (s : IrrStep) (r : ℕ) (a : SurfRef) (o : FastOut) (M : ℝ) (hr : r < p.nRows)
    (h : runFastMode p (fitStep p u) s r none a = some o)
    (hsky : 0 ≤ s.sky ∧ s.sky ≤ M)
    (hgs : 0 ≤ s.albedo * s.gndShaded ∧ s.albedo * s.gndShaded ≤ M)
    (hgi : 0 ≤ s.albedo * s.gndIllum ∧ s.albedo * s.gndIllum ≤ M)
    (hps : 0 ≤ s.rhoFront * s.pvrowShaded ∧ s.rhoFront * s.pvrowShaded ≤ M)
    (hpi : 0 ≤ s.rhoFront * s.pvrowIllum ∧ s.rhoFront * s.pvrowIllum ≤ M) :
    (s.comp a).sum ≤ o.qinc ∧ o.qinc ≤ (s.comp a).sum + M := by
  obtain ⟨k, sh, hk, rfl⟩ := (C30_targets p _ s r a).1 (by rw [h]; rfl)
  obtain ⟨c1, c2, c3, c4, c5, c6, c7, c8, c9⟩ := C30_components _ _ _ _ _ _ _ h
  have hv : o.viewFactors = fastVF p (fitStep p u) r ((fitStep p u).coords (.pv r .back k sh)) := by
    rw [runFastMode_eq] at h
    split_ifs at h
    simp only [Option.some.injEq] at h
    rw [← h]; rfl
  have hR := C28_range p u hp hu r k sh (mem_surfaces.2 (mem_allRefs_pv.2 ⟨hr, hk⟩))
  simp only [← hv] at hR
  have v1 := (hR o.viewFactors.toSky (by simp)).1
  have v2 := (hR o.viewFactors.toGndShaded (by simp)).1
  have v3 := (hR o.viewFactors.toGndIllum (by simp)).1
  have v4 := (hR o.viewFactors.toPvrowShaded (by simp)).1
  have v5 := (hR o.viewFactors.toPvrowIllum (by simp)).1
  have e : o.qinc = (s.comp (.pv r .back k sh)).sum + (o.viewFactors.toSky * s.sky
      + o.viewFactors.toGndShaded * (s.albedo * s.gndShaded)
      + o.viewFactors.toGndIllum * (s.albedo * s.gndIllum)
      + o.viewFactors.toPvrowShaded * (s.rhoFront * s.pvrowShaded)
      + o.viewFactors.toPvrowIllum * (s.rhoFront * s.pvrowIllum)) := by
    rw [c2, c3, c1, c4, c5, c6, c7, c8]; ring
  rw [e]
  constructor
  · have := mul_nonneg v1 hsky.1
    have := mul_nonneg v2 hgs.1
    have := mul_nonneg v3 hgi.1
    have := mul_nonneg v4 hps.1
    have := mul_nonneg v5 hpi.1
    linarith
  · have := mul_le_mul_of_nonneg_left hsky.2 v1
    have := mul_le_mul_of_nonneg_left hgs.2 v2
    have := mul_le_mul_of_nonneg_left hgi.2 v3
    have := mul_le_mul_of_nonneg_left hps.2 v4
    have := mul_le_mul_of_nonneg_left hpi.2 v5
    have hM : o.viewFactors.toSky * M + o.viewFactors.toGndShaded * M
        + o.viewFactors.toGndIllum * M + o.viewFactors.toPvrowShaded * M
        + o.viewFactors.toPvrowIllum * M = M := by
      rw [← add_mul, ← add_mul, ← add_mul, ← add_mul, c9, one_mul]
    linarith

/-! ## C47 -/

/-- C47: the incident irradiances of fast mode and of full mode differ by the view factors times the
differences between the light that fast mode assumes the surroundings to send out and the light
that they do send out, plus the additional ground that fast mode sees (see C29) times the
difference between the illuminated ground and the sky. -/
theorem C47_difference (p : ArrayParams) (u : ι → StepIn) (t : ι) (hp : PhysicalArray p)
    (hu : PhysicalStep p (u t))
    (hlen : ∀ b ∈ surfaces p, lengthAt p (u t) b = 0 ∨ lengthAt p (u t) b > TOL)
    (hcut : ∀ i < p.nRows, 0 < p.nFront i)
    (s : ι → IrrStep) (aoi : ι → Option (List Asg)) (o : ι → FullOut)
    (h : runFullMode p u s aoi = some o) (hs : ∀ t, InverseOk p (s t))
    (r k : ℕ) (sh : Bool) (ha : SurfRef.pv r .back k sh ∈ surfaces p)
    (hl : lengthAt p (u t) (.pv r .back k sh) > TOL) (f : FastOut)
    (hfast : runFastMode p (fitStep p (u t)) (s t) r none (.pv r .back k sh) = some f) :
    let a := SurfRef.pv r .back k sh
    let F := tsVfMatrix p u t
    let e := f.viewFactors.toGndTotal - vfToPart p F a SurfRef.isGround
    f.qinc - (o t).qinc a
      = ∑ b ∈ surfaces p, vfBetween p F a b * (assumedRadiosity (s t) b - (o t).q0 b)
        + e * ((s t).albedo * (s t).gndIllum - (s t).sky) := by
  intro a F e
  obtain ⟨c1, c2, c3, c4, c5, c6, c7, c8, c9⟩ := C30_components _ _ _ _ _ _ _ hfast
  have hv : f.viewFactors = fastVF p (fitStep p (u t)) r ((fitStep p (u t)).coords a) := by
    rw [runFastMode_eq] at hfast
    split_ifs at hfast
    simp only [Option.some.injEq] at hfast
    rw [← hfast]; rfl
  have d2 : f.viewFactors.toGndShaded + f.viewFactors.toGndIllum = f.viewFactors.toGndTotal := by
    rw [hv]; exact (C28_complete p _ r _).2.1
  have s1 : f.viewFactors.toGndShaded = vfToPart p F a fun b => b.isGround && b.isShaded := by
    rw [hv]; exact C29_shadows p u t hp hu hlen r k sh ha
  obtain ⟨-, s2, s3⟩ := C29_rows p u t hp hu hlen r k sh ha hcut
  rw [← hv] at s2 s3
  change f.viewFactors.toPvrowShaded = vfToPart p F a _ at s2
  change f.viewFactors.toPvrowIllum = vfToPart p F a _ at s3
  have hbal := (C06_radiosity p u s aoi o h hs t).1.arriving a ha
  have hrow := row_sum_surfaces (u := u) (t := t) ha hl
  change ∑ b ∈ surfaces p, vfBetween p F a b + vfToSky p F a = 1 at hrow
  have split : ∀ x : SurfRef → ℝ, ∑ b ∈ surfaces p, vfBetween p F a b * x b
      = ∑ b ∈ surfaces p with (b.isGround && b.isShaded), vfBetween p F a b * x b
        + ∑ b ∈ surfaces p with (b.isGround && !b.isShaded), vfBetween p F a b * x b
        + ∑ b ∈ surfaces p with (!b.isGround && b.isShaded), vfBetween p F a b * x b
        + ∑ b ∈ surfaces p with (!b.isGround && !b.isShaded), vfBetween p F a b * x b := by
    intro x
    simp only [Finset.sum_filter]
    rw [← Finset.sum_add_distrib, ← Finset.sum_add_distrib, ← Finset.sum_add_distrib]
    refine Finset.sum_congr rfl fun b _ => ?_
    cases b.isGround <;> cases b.isShaded <;> simp
  have part : ∀ (q : SurfRef → Bool) (v : ℝ), (∀ b, q b = true → assumedRadiosity (s t) b = v) →
      ∑ b ∈ surfaces p with q b, vfBetween p F a b * assumedRadiosity (s t) b
        = vfToPart p F a q * v := by
    intro q v hq
    unfold vfToPart
    rw [Finset.sum_mul]
    refine Finset.sum_congr rfl fun b hb => ?_
    rw [hq b (Finset.mem_filter.1 hb).2]
  have p1 := part (fun b => b.isGround && b.isShaded) ((s t).albedo * (s t).gndShaded) (by
    intro b hb; rcases b with ⟨_ | _⟩ | _ <;> simp_all [SurfRef.isGround, SurfRef.isShaded, assumedRadiosity])
  have p2 := part (fun b => b.isGround && !b.isShaded) ((s t).albedo * (s t).gndIllum) (by
    intro b hb; rcases b with ⟨_ | _⟩ | _ <;> simp_all [SurfRef.isGround, SurfRef.isShaded, assumedRadiosity])
  have p3 := part (fun b => !b.isGround && b.isShaded) ((s t).rhoFront * (s t).pvrowShaded) (by
    intro b hb; rcases b with _ | ⟨_, _, _, _ | _⟩ <;> simp_all [SurfRef.isGround, SurfRef.isShaded, assumedRadiosity])
  have p4 := part (fun b => !b.isGround && !b.isShaded) ((s t).rhoFront * (s t).pvrowIllum) (by
    intro b hb; rcases b with _ | ⟨_, _, _, _ | _⟩ <;> simp_all [SurfRef.isGround, SurfRef.isShaded, assumedRadiosity])
  have q1 := split (assumedRadiosity (s t))
  rw [p1, p2, p3, p4, ← s1, ← s2, ← s3] at q1
  have e1 : vfToPart p F a SurfRef.isGround = f.viewFactors.toGndShaded
      + vfToPart p F a (fun b => b.isGround && !b.isShaded) := by
    rw [s1]
    unfold vfToPart
    simp only [Finset.sum_filter]
    rw [← Finset.sum_add_distrib]
    refine Finset.sum_congr rfl fun b _ => ?_
    cases b.isGround <;> cases b.isShaded <;> simp
  have q2 : ∑ b ∈ surfaces p, vfBetween p F a b = f.viewFactors.toGndShaded
      + vfToPart p F a (fun b => b.isGround && !b.isShaded) + f.viewFactors.toPvrowShaded
      + f.viewFactors.toPvrowIllum := by
    have := split fun _ => 1
    simp only [mul_one] at this
    rw [this, s1, s2, s3]; rfl
  have hsub : ∑ b ∈ surfaces p, vfBetween p F a b * (assumedRadiosity (s t) b - (o t).q0 b)
      = ∑ b ∈ surfaces p, vfBetween p F a b * assumedRadiosity (s t) b
        - ∑ b ∈ surfaces p, vfBetween p F a b * (o t).q0 b := by
    rw [← Finset.sum_sub_distrib]
    exact Finset.sum_congr rfl fun b _ => by ring
  rw [hsub, q1]
  set I := vfToPart p F a (fun b => b.isGround && !b.isShaded)
  have hsky : vfToSky p F a = f.viewFactors.toSky + e := by
    simp only [e]; rw [e1]; linarith
  have hI : I = f.viewFactors.toGndIllum - e := by
    simp only [e]; rw [e1]; linarith
  have hbal' : (o t).qinc a = ((s t).comp a).sum
      + ∑ b ∈ surfaces p, vfBetween p F a b * (o t).q0 b + vfToSky p F a * (s t).sky := hbal
  rw [hbal', c2, c3, c1, c4, c5, c6, c7, c8, hsky, hI]
  ring

/-- C47: if fast mode and full mode agree on the ground (see C29) and each surface that is seen
sends out the light that fast mode assumes up to an error `δ`, then the incident irradiances agree
up to `δ`. -/
theorem C47_error (p : ArrayParams) (u : ι → StepIn) (t : ι) (hp : PhysicalArray p)
    (hu : PhysicalStep p (u t))
    (hlen : ∀ b ∈ surfaces p, lengthAt p (u t) b = 0 ∨ lengthAt p (u t) b > TOL)
    (hcut : ∀ i < p.nRows, 0 < p.nFront i)
    (s : ι → IrrStep) (aoi : ι → Option (List Asg)) (o : ι → FullOut)
    (h : runFullMode p u s aoi = some o) (hs : ∀ t, InverseOk p (s t))
    (r k : ℕ) (sh : Bool) (ha : SurfRef.pv r .back k sh ∈ surfaces p)
    (hl : lengthAt p (u t) (.pv r .back k sh) > TOL) (f : FastOut)
    (hfast : runFastMode p (fitStep p (u t)) (s t) r none (.pv r .back k sh) = some f)
    (hgnd : f.viewFactors.toGndTotal
      = vfToPart p (tsVfMatrix p u t) (.pv r .back k sh) SurfRef.isGround)
    (δ : ℝ) (hδ : 0 ≤ δ) (herr : ∀ b ∈ surfaces p,
      vfBetween p (tsVfMatrix p u t) (.pv r .back k sh) b ≠ 0 →
        |assumedRadiosity (s t) b - (o t).q0 b| ≤ δ) :
    |f.qinc - (o t).qinc (.pv r .back k sh)| ≤ δ := by
  have hd := C47_difference p u t hp hu hlen hcut s aoi o h hs r k sh ha hl f hfast
  simp only at hd
  rw [hd, hgnd, sub_self, zero_mul, add_zero]
  have hok := C02_viewFactorsOk p u t hp hu
  refine (Finset.abs_sum_le_sum_abs _ _).trans ?_
  calc ∑ b ∈ surfaces p, |vfBetween p (tsVfMatrix p u t) (.pv r .back k sh) b
          * (assumedRadiosity (s t) b - (o t).q0 b)|
      ≤ ∑ b ∈ surfaces p, vfBetween p (tsVfMatrix p u t) (.pv r .back k sh) b * δ := by
        refine Finset.sum_le_sum fun b hb => ?_
        have h0 := hok.nonneg _ ha b hb
        rw [abs_mul, abs_of_nonneg h0]
        by_cases hz : vfBetween p (tsVfMatrix p u t) (.pv r .back k sh) b = 0
        · rw [hz]; simp
        · exact mul_le_mul_of_nonneg_left (herr b hb hz) h0
    _ = (∑ b ∈ surfaces p, vfBetween p (tsVfMatrix p u t) (.pv r .back k sh) b) * δ := by
        rw [Finset.sum_mul]
    _ ≤ 1 * δ := by
        apply mul_le_mul_of_nonneg_right _ hδ
        linarith [hok.sum_le _ ha, hok.nonneg_sky _ ha]
    _ = δ := one_mul δ

end PVF
