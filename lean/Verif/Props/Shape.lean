import Verif.Lemmas.Shape
import Verif.Props.ViewFactors
import Verif.Props.FastDemo

/-! # What light exchange between modules depends on: C76 -/

namespace PVF

variable {ι : Type*} [Fintype ι]

theorem Resized.distance {c : ℝ} {p p' : ArrayParams} (h : Resized c p p') :
    p'.distance = c * p.distance := by
  simp only [ArrayParams.distance, h.width, h.gcr, mul_div_assoc]

theorem Resized.shading {c : ℝ} {p p' : ArrayParams} (h : Resized c p p') (alpha rot : ℝ) :
    interrowShading p' alpha rot
      = (c * (interrowShading p alpha rot).1, c * (interrowShading p alpha rot).2) := by
  have hd : shadingDelta p'.distance alpha rot = c * shadingDelta p.distance alpha rot := by
    simp only [shadingDelta, h.distance, mul_assoc]
  simp only [interrowShading, gt_iff_lt, h.rows, h.rows', if_true, hd, h.width]
  have e1 : ∀ x : ℝ, max 0 (c * x) = c * max 0 x := fun x => by
    rw [mul_max_of_nonneg _ _ h.pos.le, mul_zero]
  rw [← mul_sub, ← mul_add, e1, e1]
  simp only [mul_lt_mul_iff_right₀ h.pos]
  congr 1 <;> split_ifs <;> simp

theorem Resized.rowShading {c : ℝ} {p p' : ArrayParams} (h : Resized c p p') {i i' : ℕ}
    (hi : i < p.nRows) (hi' : i' < p'.nRows) (hp : SamePlace p p' i i') (alpha rot : ℝ)
    (s : RowSide) : sideShade p' alpha rot i' s = c * sideShade p alpha rot i s := by
  have e1 : (i' = 0) ↔ (i = 0) := hp.first.symm
  have e2 : (i' = p'.nRows - 1) ↔ (i = p.nRows - 1) := by
    have := hp.last
    omega
  cases s <;> simp only [sideShade, rowShadedLengths, h.shading, e1, e2] <;> split_ifs <;> simp

theorem Resized.coords {c : ℝ} {p p' : ArrayParams} (h : Resized c p p') {i i' : ℕ}
    (hi : i < p.nRows) (hi' : i' < p'.nRows) (hp : SamePlace p p' i i') (u : StepIn) {s : RowSide}
    {k : ℕ} (hk : k < p.nSeg i s) (sh : Bool) :
    (fitStep p' u).coords (.pv i' s k sh)
      = ((fitStep p u).coords (.pv i s k sh)).map (moveTo c (rowCenter p i) (rowCenter p' i')) := by
  have hk' : k < p'.nSeg i' s := by rw [hp.cut]; exact hk
  unfold fitStep
  rw [coords_pv hk, coords_pv hk', h.axis, h.width, hp.cut, h.rowShading hi hi' hp,
    sideSegment_move h.pos (rowCenter p i) (rowCenter p' i')]
  cases sh <;> rfl

theorem Resized.next {c : ℝ} {p p' : ArrayParams} (h : Resized c p p') (i i' : ℕ) :
    moveTo c (rowCenter p (i + 1)) (rowCenter p' (i' + 1))
      = moveTo c (rowCenter p i) (rowCenter p' i') := by
  funext q
  simp only [moveTo, rowCenter, h.distance]
  ext <;> push_cast <;> ring

theorem isEmptyTs_congr {g g' : ι → StepGeom} {a a' : SurfRef}
    (h : ∀ t, ((g' t).coords a').length = ((g t).coords a).length) :
    isEmptyTs g' a' ↔ isEmptyTs g a := by
  unfold isEmptyTs
  rw [Finset.sum_congr rfl fun t _ => h t]

theorem not_isEmptyTs {g : ι → StepGeom} {a : SurfRef} {t : ι}
    (h : ((g t).coords a).length > TOL) : ¬ isEmptyTs g a := by
  unfold isEmptyTs
  have : ((g t).coords a).length ≤ ∑ t, ((g t).coords a).length :=
    Finset.single_le_sum (f := fun t => ((g t).coords a).length)
      (fun _ _ => Line.length_nonneg _) (Finset.mem_univ t)
  linarith

theorem entryVF_next (p : ArrayParams) (g : StepGeom) (emp : SurfRef → Prop) (i : ℕ)
    (s s' : RowSide) (k k' : ℕ) (sh sh' : Bool) :
    (open Classical in
    entryVF p g emp (.pv i s k sh) (.pv (i + 1) s' k' sh')
      = if emp (.pv i s k sh) ∨ emp (.pv (i + 1) s' k' sh') then 0 else if s = s' then 0 else
        (vfPvPv (g.coords (.pv i s k sh)) (g.coords (.pv (i + 1) s' k' sh')) (g.rot.deg > 0)
          (decide (s = .front))).1) ∧
    (open Classical in
    entryVF p g emp (.pv (i + 1) s' k' sh') (.pv i s k sh)
      = if emp (.pv i s k sh) ∨ emp (.pv (i + 1) s' k' sh') then 0 else if s = s' then 0 else
        (vfPvPv (g.coords (.pv i s k sh)) (g.coords (.pv (i + 1) s' k' sh')) (g.rot.deg > 0)
          (decide (s = .front))).2) := by
  by_cases hE : emp (.pv i s k sh) ∨ emp (.pv (i + 1) s' k' sh')
  · have hE' : emp (.pv (i + 1) s' k' sh') ∨ emp (.pv i s k sh) := hE.symm
    simp only [entryVF, if_pos hE, if_pos hE', and_self]
  · have hE' : ¬ (emp (.pv (i + 1) s' k' sh') ∨ emp (.pv i s k sh)) := fun h => hE h.symm
    have h1 : ¬ (i = i + 1 + 1) := by omega
    by_cases hs : s = s'
    · have h2 : ¬ (s ≠ s') := by simpa using hs
      have h3 : ¬ (s' ≠ s) := by simpa using hs.symm
      simp only [entryVF, if_neg hE, if_neg hE', if_pos hs, h2, h3, and_false, if_false, and_self]
    · have h3 : s' ≠ s := fun h => hs h.symm
      simp only [entryVF, if_neg hE, if_neg hE', if_neg hs, ne_eq, hs, h3, not_false_eq_true,
        and_true, if_true, h1, false_and, if_false, and_self]

/-- C76: the view factors between neighbouring rows do not depend on the height of the rows, on how
many rows there are and on where in the array the two rows are (except for edge rows, which nothing
shades from outside). -/
theorem C76_place (p p' : ArrayParams) (u : ι → StepIn) (t : ι) (h : Resized 1 p p') {i i' : ℕ}
    (hi : i + 1 < p.nRows) (hi' : i' + 1 < p'.nRows) (hp : SamePlace p p' i i')
    (hp' : SamePlace p p' (i + 1) (i' + 1)) (s s' : RowSide) {k k' : ℕ} (hk : k < p.nSeg i s)
    (hk' : k' < p.nSeg (i + 1) s') (sh sh' : Bool) :
    let a := SurfRef.pv i s k sh
    let b := SurfRef.pv (i + 1) s' k' sh'
    let a' := SurfRef.pv i' s k sh
    let b' := SurfRef.pv (i' + 1) s' k' sh'
    vfBetween p' (tsVfMatrix p' u t) a' b' = vfBetween p (tsVfMatrix p u t) a b ∧
    vfBetween p' (tsVfMatrix p' u t) b' a' = vfBetween p (tsVfMatrix p u t) b a := by
  classical
  intro a b a' b'
  have ma : a ∈ surfaces p := mem_surfaces.2 (mem_allRefs_pv.2 ⟨by omega, hk⟩)
  have mb : b ∈ surfaces p := mem_surfaces.2 (mem_allRefs_pv.2 ⟨hi, hk'⟩)
  have ma' : a' ∈ surfaces p' := mem_surfaces.2 (mem_allRefs_pv.2 ⟨by omega, by rw [hp.cut]; exact hk⟩)
  have mb' : b' ∈ surfaces p' := mem_surfaces.2 (mem_allRefs_pv.2 ⟨hi', by rw [hp'.cut]; exact hk'⟩)
  have ca : ∀ t, (fitStep p' (u t)).coords a' = ((fitStep p (u t)).coords a).map
      (moveTo 1 (rowCenter p i) (rowCenter p' i')) := fun t =>
    h.coords (by omega) (by omega) hp (u t) hk sh
  have cb : ∀ t, (fitStep p' (u t)).coords b' = ((fitStep p (u t)).coords b).map
      (moveTo 1 (rowCenter p i) (rowCenter p' i')) := fun t => by
    rw [← h.next]; exact h.coords hi hi' hp' (u t) hk' sh'
  have hsc := moveTo_scales zero_le_one (rowCenter p i) (rowCenter p' i')
  have la : ∀ t, ((fitStep p' (u t)).coords a').length = ((fitStep p (u t)).coords a).length :=
    fun t => by rw [ca, hsc.length, one_mul]
  have lb : ∀ t, ((fitStep p' (u t)).coords b').length = ((fitStep p (u t)).coords b).length :=
    fun t => by rw [cb, hsc.length, one_mul]
  have ea := isEmptyTs_congr (g := fun t => fitStep p (u t)) (g' := fun t => fitStep p' (u t)) la
  have eb := isEmptyTs_congr (g := fun t => fitStep p (u t)) (g' := fun t => fitStep p' (u t)) lb
  have hrot : (fitStep p' (u t)).rot = (fitStep p (u t)).rot := by
    simp only [fitStep, fitGeom, h.axis]
  have hv := vfPvPv_map hsc one_pos (l1 := (fitStep p (u t)).coords a)
    (l2 := (fitStep p (u t)).coords b) (by rw [hsc.length, one_mul]) (by rw [hsc.length, one_mul])
    ((fitStep p (u t)).rot.deg > 0) (decide (s = .front))
  rw [← ca, ← cb] at hv
  rw [vfBetween_eq ma mb, vfBetween_eq mb ma, vfBetween_eq ma' mb', vfBetween_eq mb' ma']
  obtain ⟨e1, e2⟩ := entryVF_next p (fitStep p (u t)) (isEmptyTs fun t => fitStep p (u t)) i s s' k
    k' sh sh'
  obtain ⟨e1', e2'⟩ := entryVF_next p' (fitStep p' (u t)) (isEmptyTs fun t => fitStep p' (u t)) i' s
    s' k k' sh sh'
  rw [e1, e2, e1', e2', hrot, hv]
  exact ⟨if_congr (or_congr ea eb) rfl rfl, if_congr (or_congr ea eb) rfl rfl⟩

/-- C76: if rows are made larger and put apart in proportion, the view factors between surfaces of
neighbouring rows stay the same, whatever happens to the height, to the number of rows and to the
place of the rows.  The surfaces are longer than the tolerance in both arrays. -/
theorem C76_scale (c : ℝ) (p p' : ArrayParams) (u : ι → StepIn) (t : ι) (h : Resized c p p')
    {i i' : ℕ} (hi : i + 1 < p.nRows) (hi' : i' + 1 < p'.nRows) (hp : SamePlace p p' i i')
    (hp' : SamePlace p p' (i + 1) (i' + 1)) (s s' : RowSide) {k k' : ℕ} (hk : k < p.nSeg i s)
    (hk' : k' < p.nSeg (i + 1) s') (sh sh' : Bool) :
    let a := SurfRef.pv i s k sh
    let b := SurfRef.pv (i + 1) s' k' sh'
    let a' := SurfRef.pv i' s k sh
    let b' := SurfRef.pv (i' + 1) s' k' sh'
    lengthAt p (u t) a > TOL → lengthAt p (u t) b > TOL →
    lengthAt p' (u t) a' > TOL → lengthAt p' (u t) b' > TOL →
    lengthAt p' (u t) a' = c * lengthAt p (u t) a ∧
    vfBetween p' (tsVfMatrix p' u t) a' b' = vfBetween p (tsVfMatrix p u t) a b ∧
    vfBetween p' (tsVfMatrix p' u t) b' a' = vfBetween p (tsVfMatrix p u t) b a := by
  classical
  intro a b a' b' la lb la' lb'
  have ma : a ∈ surfaces p := mem_surfaces.2 (mem_allRefs_pv.2 ⟨by omega, hk⟩)
  have mb : b ∈ surfaces p := mem_surfaces.2 (mem_allRefs_pv.2 ⟨hi, hk'⟩)
  have ma' : a' ∈ surfaces p' :=
    mem_surfaces.2 (mem_allRefs_pv.2 ⟨by omega, by rw [hp.cut]; exact hk⟩)
  have mb' : b' ∈ surfaces p' :=
    mem_surfaces.2 (mem_allRefs_pv.2 ⟨hi', by rw [hp'.cut]; exact hk'⟩)
  have ca : (fitStep p' (u t)).coords a' = ((fitStep p (u t)).coords a).map
      (moveTo c (rowCenter p i) (rowCenter p' i')) :=
    h.coords (by omega) (by omega) hp (u t) hk sh
  have cb : (fitStep p' (u t)).coords b' = ((fitStep p (u t)).coords b).map
      (moveTo c (rowCenter p i) (rowCenter p' i')) := by
    rw [← h.next]; exact h.coords hi hi' hp' (u t) hk' sh'
  have hsc := moveTo_scales h.pos.le (rowCenter p i) (rowCenter p' i')
  have ea := not_isEmptyTs (g := fun t => fitStep p (u t)) (t := t) la
  have eb := not_isEmptyTs (g := fun t => fitStep p (u t)) (t := t) lb
  have ea' := not_isEmptyTs (g := fun t => fitStep p' (u t)) (t := t) la'
  have eb' := not_isEmptyTs (g := fun t => fitStep p' (u t)) (t := t) lb'
  have hrot : (fitStep p' (u t)).rot = (fitStep p (u t)).rot := by
    simp only [fitStep, fitGeom, h.axis]
  have hv := vfPvPv_map hsc h.pos (l1 := (fitStep p (u t)).coords a)
    (l2 := (fitStep p (u t)).coords b)
    (by rw [← ca]; exact iff_of_true la' la) (by rw [← cb]; exact iff_of_true lb' lb)
    ((fitStep p (u t)).rot.deg > 0) (decide (s = .front))
  rw [← ca, ← cb] at hv
  refine ⟨by rw [lengthAt, ca, hsc.length]; rfl, ?_⟩
  rw [vfBetween_eq ma mb, vfBetween_eq mb ma, vfBetween_eq ma' mb', vfBetween_eq mb' ma']
  obtain ⟨e1, e2⟩ := entryVF_next p (fitStep p (u t)) (isEmptyTs fun t => fitStep p (u t)) i s s' k
    k' sh sh'
  obtain ⟨e1', e2'⟩ := entryVF_next p' (fitStep p' (u t)) (isEmptyTs fun t => fitStep p' (u t)) i' s
    s' k k' sh sh'
  rw [e1, e2, e1', e2', hrot, hv]
  exact ⟨if_congr (iff_of_false (not_or.2 ⟨ea', eb'⟩) (not_or.2 ⟨ea, eb⟩)) rfl rfl,
    if_congr (iff_of_false (not_or.2 ⟨ea', eb'⟩) (not_or.2 ⟨ea, eb⟩)) rfl rfl⟩

/-! ## The mirror -/

theorem cosd_add_360 (x : ℝ) (k : ℤ) : cosd (x + 360 * k) = cosd x := by
  unfold cosd deg2rad
  rw [show (x + 360 * k) * Real.pi / 180 = x * Real.pi / 180 + k * (2 * Real.pi) by ring,
    Real.cos_add_int_mul_two_pi]

theorem sind_add_360 (x : ℝ) (k : ℤ) : sind (x + 360 * k) = sind x := by
  unfold sind deg2rad
  rw [show (x + 360 * k) * Real.pi / 180 = x * Real.pi / 180 + k * (2 * Real.pi) by ring,
    Real.sin_add_int_mul_two_pi]

theorem MirroredStep.solar {axis : ℝ} {u u' : StepIn} (h : MirroredStep axis u u') :
    solar2dVector u'.solarZenith u'.solarAzimuth axis
      = ⟨-(solar2dVector u.solarZenith u.solarAzimuth axis).x,
        (solar2dVector u.solarZenith u.solarAzimuth axis).y⟩ := by
  obtain ⟨k, hk⟩ := h.sun
  simp only [solar2dVector, h.zenith, hk]
  rw [show -(u.solarAzimuth - axis) + 360 * (k : ℝ) - 90
      = -((u.solarAzimuth - axis) - 90 + 180) + 360 * (k : ℝ) by ring, cosd_add_360, cosd_neg,
    cosd_add_180]
  ext <;> simp

theorem MirroredStep.rot {axis : ℝ} {u u' : StepIn} (h : MirroredStep axis u u')
    (h0 : 0 < u.surfaceTilt) (hpar : sind (u.surfaceAzimuth - axis) ≠ 0) :
    (rotationFromTiltAzimuth u'.surfaceAzimuth axis u'.surfaceTilt).deg
      = -(rotationFromTiltAzimuth u.surfaceAzimuth axis u.surfaceTilt).deg := by
  obtain ⟨k, hk⟩ := h.surface
  rw [h.tilt, C25_orientation _ _ _ h0, C25_orientation _ _ _ h0, hk, sind_add_360, sind_neg]
  rcases lt_or_gt_of_ne hpar with h1 | h1
  · rw [if_neg (by linarith), if_pos h1]
  · rw [if_pos (by linarith), if_neg (by linarith), neg_neg]

/-- The coordinates of the mirror image. -/
theorem mirror_coords (p : ArrayParams) (u u' : StepIn) (hm : MirroredStep p.axisAzimuth u u')
    (hs : PhysicalStep p u) (h0 : 0 < u.surfaceTilt)
    (hpar : sind (u.surfaceAzimuth - p.axisAzimuth) ≠ 0) {i : ℕ} (hi : i < p.nRows) {s : RowSide}
    {k : ℕ} (hk : k < p.nSeg i s) (sh : Bool) :
    (fitStep p.mirror u').coords (mirrorPv p i s k sh)
      = ((fitStep p u).coords (.pv i s k sh)).map
          (mirrorTo (rowCenter p 0) (rowCenter p (p.nRows - 1))) := by
  have hrot := hm.rot h0 hpar
  have hsun := hm.solar
  have hne : (rotationFromTiltAzimuth u.surfaceAzimuth p.axisAzimuth u.surfaceTilt).deg ≠ 0 := by
    rw [C25_orientation _ _ _ h0]
    split_ifs
    · exact h0.ne'
    · exact neg_ne_zero.2 h0.ne'
  have hseg : p.mirror.nSeg (p.nRows - 1 - i) s = p.nSeg i s := by
    have : p.nRows - 1 - (p.nRows - 1 - i) = i := by omega
    cases s <;> simp [ArrayParams.nSeg, ArrayParams.nFront, ArrayParams.nBack, ArrayParams.mirror,
      this]
  have hk' : p.nSeg i s - 1 - k < p.mirror.nSeg (p.nRows - 1 - i) s := by rw [hseg]; omega
  have hT : mirrorTo (rowCenter p i) (rowCenter p (p.nRows - 1 - i))
      = mirrorTo (rowCenter p 0) (rowCenter p (p.nRows - 1)) := by
    funext q
    simp only [mirrorTo, rowCenter]
    rw [show p.nRows - 1 - i = p.nRows - (i + 1) by omega, Nat.cast_sub (by omega),
      Nat.cast_sub (by omega)]
    ext <;> push_cast <;> ring
  have hshade : sideShade p.mirror
      (arctan2 (solar2dVector u'.solarZenith u'.solarAzimuth p.axisAzimuth).y
        (solar2dVector u'.solarZenith u'.solarAzimuth p.axisAzimuth).x)
      (rotationFromTiltAzimuth u'.surfaceAzimuth p.axisAzimuth u'.surfaceTilt).deg
      (p.nRows - 1 - i) s
      = sideShade p (arctan2 (solar2dVector u.solarZenith u.solarAzimuth p.axisAzimuth).y
        (solar2dVector u.solarZenith u.solarAzimuth p.axisAzimuth).x)
      (rotationFromTiltAzimuth u.surfaceAzimuth p.axisAzimuth u.surfaceTilt).deg i s := by
    have h := C27_mirror_rows p
      (rotationFromTiltAzimuth u.surfaceAzimuth p.axisAzimuth u.surfaceTilt).deg
      (solar2dVector u.solarZenith u.solarAzimuth p.axisAzimuth) (p.nRows - 1 - i) (by omega) hne
      hs.sun_y hs.sun_front
    rw [show p.nRows - 1 - (p.nRows - 1 - i) = i by omega] at h
    rw [hrot, hsun]
    have h' : rowShadedLengths p.mirror
      (arctan2 (solar2dVector u.solarZenith u.solarAzimuth p.axisAzimuth).y
        (-(solar2dVector u.solarZenith u.solarAzimuth p.axisAzimuth).x))
      (-(rotationFromTiltAzimuth u.surfaceAzimuth p.axisAzimuth u.surfaceTilt).deg)
      (p.nRows - 1 - i) = _ := h
    cases s <;> simp only [sideShade, h']
  have hcen : rowCenter p.mirror (p.nRows - 1 - i) = rowCenter p (p.nRows - 1 - i) := rfl
  have hw : p.mirror.width = p.width := rfl
  have hax : p.mirror.axisAzimuth = p.axisAzimuth := rfl
  unfold fitStep mirrorPv
  rw [coords_pv hk, coords_pv hk', hax, hshade, hseg, hcen, hw, hrot, ← hT]
  obtain ⟨m1, m2⟩ := sideSegment_mirror (rowCenter p i) (rowCenter p (p.nRows - 1 - i)) p.width _ hne
    (p.nSeg i s) (sideShade p (arctan2 (solar2dVector u.solarZenith u.solarAzimuth p.axisAzimuth).y
        (solar2dVector u.solarZenith u.solarAzimuth p.axisAzimuth).x)
      (rotationFromTiltAzimuth u.surfaceAzimuth p.axisAzimuth u.surfaceTilt).deg i s) k hk
  cases sh
  · exact m1
  · exact m2

theorem mirror_nSeg (p : ArrayParams) {i : ℕ} (hi : i < p.nRows) (s : RowSide) :
    p.mirror.nSeg (p.nRows - 1 - i) s = p.nSeg i s := by
  have : p.nRows - 1 - (p.nRows - 1 - i) = i := by omega
  cases s <;> simp [ArrayParams.nSeg, ArrayParams.nFront, ArrayParams.nBack, ArrayParams.mirror,
    this]

theorem mirrorPv_mem (p : ArrayParams) {i : ℕ} (hi : i < p.nRows) {s : RowSide} {k : ℕ}
    (hk : k < p.nSeg i s) (sh : Bool) : mirrorPv p i s k sh ∈ surfaces p.mirror := by
  refine mem_surfaces.2 (mem_allRefs_pv.2 ⟨?_, ?_⟩)
  · change p.nRows - 1 - i < p.nRows; omega
  · rw [mirror_nSeg p hi]; omega

theorem mirror_rot_ne {axis : ℝ} {u : StepIn} (h0 : 0 < u.surfaceTilt) :
    (rotationFromTiltAzimuth u.surfaceAzimuth axis u.surfaceTilt).deg ≠ 0 := by
  rw [C25_orientation _ _ _ h0]
  split_ifs
  · exact h0.ne'
  · exact neg_ne_zero.2 h0.ne'

theorem mirror_length (p : ArrayParams) (u u' : StepIn) (hm : MirroredStep p.axisAzimuth u u')
    (hs : PhysicalStep p u) (h0 : 0 < u.surfaceTilt)
    (hpar : sind (u.surfaceAzimuth - p.axisAzimuth) ≠ 0) {i : ℕ} (hi : i < p.nRows) {s : RowSide}
    {k : ℕ} (hk : k < p.nSeg i s) (sh : Bool) :
    lengthAt p.mirror u' (mirrorPv p i s k sh) = lengthAt p u (.pv i s k sh) := by
  have hsc := mirrorTo_scales (rowCenter p 0) (rowCenter p (p.nRows - 1))
  rw [lengthAt, mirror_coords p u u' hm hs h0 hpar hi hk sh, hsc.length, one_mul]; rfl

/-- The view factors between neighbouring rows in the mirror. -/
theorem mirror_next (p : ArrayParams) (u u' : ι → StepIn) (t : ι)
    (hm : MirroredStep p.axisAzimuth (u t) (u' t)) (hs : PhysicalStep p (u t))
    (h0 : 0 < (u t).surfaceTilt) (hpar : sind ((u t).surfaceAzimuth - p.axisAzimuth) ≠ 0)
    {i : ℕ} (hi : i + 1 < p.nRows) (s s' : RowSide) {k k' : ℕ}
    (hk : k < p.nSeg i s) (hk' : k' < p.nSeg (i + 1) s') (sh sh' : Bool) :
    let a := SurfRef.pv i s k sh
    let b := SurfRef.pv (i + 1) s' k' sh'
    let a' := mirrorPv p i s k sh
    let b' := mirrorPv p (i + 1) s' k' sh'
    lengthAt p (u t) a > TOL → lengthAt p (u t) b > TOL →
    vfBetween p.mirror (tsVfMatrix p.mirror u' t) a' b' = vfBetween p (tsVfMatrix p u t) a b ∧
    vfBetween p.mirror (tsVfMatrix p.mirror u' t) b' a' = vfBetween p (tsVfMatrix p u t) b a := by
  classical
  intro a b a' b' la lb
  have hi0 : i < p.nRows := by omega
  have hrot : (fitStep p.mirror (u' t)).rot.deg = -(fitStep p (u t)).rot.deg := hm.rot h0 hpar
  have hne : (fitStep p (u t)).rot.deg ≠ 0 := mirror_rot_ne h0
  have hsg : (-(fitStep p (u t)).rot.deg > 0) ↔ ¬ ((fitStep p (u t)).rot.deg > 0) := by
    constructor
    · intro h h'; linarith
    · intro h; have := lt_of_le_of_ne (not_lt.1 h) hne; linarith
  have hsc := mirrorTo_scales (rowCenter p 0) (rowCenter p (p.nRows - 1))
  have ca : (fitStep p.mirror (u' t)).coords a' = _ :=
    mirror_coords p (u t) (u' t) hm hs h0 hpar hi0 hk sh
  have cb : (fitStep p.mirror (u' t)).coords b' = _ :=
    mirror_coords p (u t) (u' t) hm hs h0 hpar hi hk' sh'
  have la' : lengthAt p.mirror (u' t) a' > TOL := by
    rw [mirror_length p (u t) (u' t) hm hs h0 hpar hi0 hk sh]; exact la
  have lb' : lengthAt p.mirror (u' t) b' > TOL := by
    rw [mirror_length p (u t) (u' t) hm hs h0 hpar hi hk' sh']; exact lb
  have ea := not_isEmptyTs (g := fun t => fitStep p (u t)) (t := t) la
  have eb := not_isEmptyTs (g := fun t => fitStep p (u t)) (t := t) lb
  have ea' := not_isEmptyTs (g := fun t => fitStep p.mirror (u' t)) (t := t) la'
  have eb' := not_isEmptyTs (g := fun t => fitStep p.mirror (u' t)) (t := t) lb'
  have ma : a ∈ surfaces p := mem_surfaces.2 (mem_allRefs_pv.2 ⟨hi0, hk⟩)
  have mb : b ∈ surfaces p := mem_surfaces.2 (mem_allRefs_pv.2 ⟨hi, hk'⟩)
  have ma' : a' ∈ surfaces p.mirror := mirrorPv_mem p hi0 hk sh
  have mb' : b' ∈ surfaces p.mirror := mirrorPv_mem p hi hk' sh'
  rw [vfBetween_eq ma mb, vfBetween_eq mb ma, vfBetween_eq ma' mb', vfBetween_eq mb' ma']
  obtain ⟨e1, e2⟩ := entryVF_next p (fitStep p (u t)) (isEmptyTs fun t => fitStep p (u t)) i s s' k
    k' sh sh'
  obtain ⟨e1', e2'⟩ := entryVF_next p.mirror (fitStep p.mirror (u' t))
    (isEmptyTs fun t => fitStep p.mirror (u' t)) (p.nRows - 1 - (i + 1)) s' s
    (p.nSeg (i + 1) s' - 1 - k') (p.nSeg i s - 1 - k) sh' sh
  have hb' : b' = SurfRef.pv (p.nRows - 1 - (i + 1)) s' (p.nSeg (i + 1) s' - 1 - k') sh' := rfl
  have ha' : a' = SurfRef.pv (p.nRows - 1 - (i + 1) + 1) s (p.nSeg i s - 1 - k) sh := by
    have : p.nRows - 1 - i = p.nRows - 1 - (i + 1) + 1 := by omega
    simp only [a', mirrorPv, this]
  rw [← ha', ← hb'] at e1' e2'
  rw [e1, e2, e1', e2', if_neg (not_or.2 ⟨eb', ea'⟩), if_neg (not_or.2 ⟨ea, eb⟩),
    if_neg (not_or.2 ⟨eb', ea'⟩), if_neg (not_or.2 ⟨ea, eb⟩)]
  by_cases hss : s = s'
  · rw [if_pos hss, if_pos hss, if_pos hss.symm, if_pos hss.symm]; exact ⟨rfl, rfl⟩
  · have hss' : ¬ s' = s := fun h => hss h.symm
    have hd : decide (s' = RowSide.front) = !decide (s = RowSide.front) := by
      cases s <;> cases s' <;> simp_all
    have hv := vfPvPv_swap (b := decide (s = RowSide.front)) la lb hsg
    have hva := vfPvPv_map hsc one_pos (l1 := (fitStep p (u t)).coords b)
      (l2 := (fitStep p (u t)).coords a) (by rw [hsc.length, one_mul]) (by rw [hsc.length, one_mul])
      (-(fitStep p (u t)).rot.deg > 0) (decide (s' = RowSide.front))
    rw [← ca, ← cb, hd, hv] at hva
    rw [if_neg hss, if_neg hss, if_neg hss', if_neg hss', hrot, hd, hva]
    exact ⟨rfl, rfl⟩

/-- C76: the view factor between two surfaces of modules is the one between their mirror images, if
rows, modules and sun are mirrored about the axis.  The rows are not flat and do not face along the
axis, the surfaces are longer than the tolerance, and the sun is neither in the horizon nor in the
plane of the rows. -/
theorem C76_mirror (p : ArrayParams) (u u' : ι → StepIn) (t : ι)
    (hm : MirroredStep p.axisAzimuth (u t) (u' t)) (hs : PhysicalStep p (u t))
    (h0 : 0 < (u t).surfaceTilt) (hpar : sind ((u t).surfaceAzimuth - p.axisAzimuth) ≠ 0)
    {i j : ℕ} (hi : i < p.nRows) (hj : j < p.nRows) (s s' : RowSide) {k k' : ℕ}
    (hk : k < p.nSeg i s) (hk' : k' < p.nSeg j s') (sh sh' : Bool) :
    let a := SurfRef.pv i s k sh
    let b := SurfRef.pv j s' k' sh'
    let a' := mirrorPv p i s k sh
    let b' := mirrorPv p j s' k' sh'
    lengthAt p.mirror (u' t) a' = lengthAt p (u t) a ∧
    (lengthAt p (u t) a > TOL → lengthAt p (u t) b > TOL →
      vfBetween p.mirror (tsVfMatrix p.mirror u' t) a' b'
        = vfBetween p (tsVfMatrix p u t) a b) := by
  intro a b a' b'
  refine ⟨mirror_length p (u t) (u' t) hm hs h0 hpar hi hk sh, fun la lb => ?_⟩
  by_cases h1 : j = i + 1
  · subst h1
    exact (mirror_next p u u' t hm hs h0 hpar hj s s' hk hk' sh sh' la lb).1
  by_cases h2 : i = j + 1
  · subst h2
    exact (mirror_next p u u' t hm hs h0 hpar hi s' s hk' hk sh' sh lb la).2
  · have e1 := (C04_special_cases p u t).2.2 i s k sh j s' k' sh' (mem_allRefs_pv.2 ⟨hi, hk⟩)
      (mem_allRefs_pv.2 ⟨hj, hk'⟩) (Or.inl ⟨h1, h2⟩)
    have e2 := (C04_special_cases p.mirror u' t).2.2 (p.nRows - 1 - i) s (p.nSeg i s - 1 - k) sh
      (p.nRows - 1 - j) s' (p.nSeg j s' - 1 - k') sh' (mem_surfaces.1 (mirrorPv_mem p hi hk sh))
      (mem_surfaces.1 (mirrorPv_mem p hj hk' sh')) (Or.inl ⟨by omega, by omega⟩)
    exact e2.trans e1.symm

/-! ## An example -/

theorem vert_shade (i : ℕ) (s : RowSide) :
    sideShade vertArray (arctan2 (Real.sqrt 2 / 2) (-(Real.sqrt 2 / 2))) 90 i s = 0 := by
  unfold sideShade rowShadedLengths
  rw [vert_alpha, vert_interrow]
  cases s <;> simp

theorem vert_coords_left : (fitStep vertArray vertStep).coords (.pv 0 .back 1 false)
    = ⟨⟨0, 3 / 2⟩, ⟨0, 5 / 2⟩⟩ := by
  rw [vert_fit, coords_pv_t (by simp [vertArray, ArrayParams.nSeg, ArrayParams.nBack]) false
    (by norm_num [vertArray]) (by norm_num) (by norm_num), if_neg (by norm_num)]
  unfold pvIv
  simp only [vert_shade]
  simp only [tPt, rowPt, cosd_90, sind_90, rowCenter]
  norm_num [vertArray, ArrayParams.distance, X_ORIGIN, Y_GROUND, tIv, tSeg, ArrayParams.nSeg,
    ArrayParams.nBack]

theorem vert_coords_right : (fitStep vertArray vertStep).coords (.pv 1 .front 0 false)
    = ⟨⟨5, 1 / 2⟩, ⟨5, 5 / 2⟩⟩ := by
  rw [vert_fit, coords_pv_t (by simp [vertArray, ArrayParams.nSeg, ArrayParams.nFront]) false
    (by norm_num [vertArray]) (by norm_num) (by norm_num), if_neg (by norm_num)]
  unfold pvIv
  simp only [vert_shade]
  simp only [tPt, rowPt, cosd_90, sind_90, rowCenter]
  norm_num [vertArray, ArrayParams.distance, X_ORIGIN, Y_GROUND, tIv, tSeg, ArrayParams.nSeg,
    ArrayParams.nFront]

theorem vert_exchange (t : Fin 3) :
    lengthAt vertArray vertStep (.pv 0 .back 1 false) = 1 ∧
    lengthAt vertArray vertStep (.pv 1 .front 0 false) = 2 ∧
    vfBetween vertArray (tsVfMatrix vertArray (fun _ => vertStep) t) (.pv 0 .back 1 false)
      (.pv 1 .front 0 false) = (Real.sqrt 29 - 5) / 2 := by
  have la : lengthAt vertArray vertStep (.pv 0 .back 1 false) = 1 := vert_len 1 (by norm_num)
  have lb : lengthAt vertArray vertStep (.pv 1 .front 0 false) = 2 := by
    rw [lengthAt, vert_coords_right]
    norm_num [Line.length, distPt]
    rw [show (4 : ℝ) = 2 ^ 2 by norm_num, Real.sqrt_sq (by norm_num)]
  refine ⟨la, lb, ?_⟩
  have ma : SurfRef.pv 0 .back 1 false ∈ surfaces vertArray := vert_mem 1 (by norm_num) false
  have mb : SurfRef.pv 1 .front 0 false ∈ surfaces vertArray :=
    mem_surfaces.2 (mem_allRefs_pv.2 (by simp [vertArray, ArrayParams.nSeg, ArrayParams.nFront]))
  have ea := not_isEmptyTs (g := fun _ : Fin 3 => fitStep vertArray vertStep) (t := t)
    (a := .pv 0 .back 1 false) (by change lengthAt _ _ _ > TOL; rw [la]; norm_num [TOL])
  have eb := not_isEmptyTs (g := fun _ : Fin 3 => fitStep vertArray vertStep) (t := t)
    (a := .pv 1 .front 0 false) (by change lengthAt _ _ _ > TOL; rw [lb]; norm_num [TOL])
  have hla : (⟨⟨0, 3 / 2⟩, ⟨0, 5 / 2⟩⟩ : Line).length = 1 := by
    rw [← vert_coords_left]; exact la
  rw [vfBetween_eq ma mb, (entryVF_next _ _ _ 0 _ _ _ _ _ _).1, if_neg (not_or.2 ⟨ea, eb⟩),
    if_neg (by decide), vert_coords_left, vert_coords_right]
  simp only [vert_deg, vfPvPv, vfSurfSurf, hla]
  have h29 : (5 : ℝ) ≤ Real.sqrt 29 := Real.le_sqrt_of_sq_le (by norm_num)
  have h25 : Real.sqrt 25 = 5 := by
    rw [show (25 : ℝ) = 5 ^ 2 by norm_num, Real.sqrt_sq (by norm_num)]
  norm_num [distPt, TOL, h25]
  rw [abs_of_nonneg (by linarith)]
  exact if_neg (by decide)

/-- The array of the example with rows three times as wide and apart, seven metres above the
ground. -/
noncomputable def vertLarge : ArrayParams := { vertArray with width := 6, height := 7 }

/-- Many uncut rows. -/
noncomputable def vertMany (n : ℕ) (h : ℝ) : ArrayParams :=
  { vertArray with nRows := n, height := h, cut := fun _ => {} }

/-- The sun and the modules of the example in the mirror. -/
noncomputable def vertMirror : StepIn := { vertStep with solarAzimuth := 90, surfaceAzimuth := 90 }

/-- The hypotheses of C76 can be met: the same view factor, which is not zero, in the example array,
in one with larger rows and in the mirror; and equal view factors within four and nine rows. -/
theorem C76_demo (t : Fin 3) :
    vfBetween vertArray (tsVfMatrix vertArray (fun _ => vertStep) t) (.pv 0 .back 1 false)
      (.pv 1 .front 0 false) = (Real.sqrt 29 - 5) / 2 ∧
    vfBetween vertLarge (tsVfMatrix vertLarge (fun _ => vertStep) t) (.pv 0 .back 1 false)
      (.pv 1 .front 0 false) = (Real.sqrt 29 - 5) / 2 ∧
    vfBetween vertArray.mirror (tsVfMatrix vertArray.mirror (fun _ => vertMirror) t)
      (.pv 1 .back 0 false) (.pv 0 .front 0 false) = (Real.sqrt 29 - 5) / 2 ∧
    ∀ sh sh',
      vfBetween (vertMany 9 5) (tsVfMatrix (vertMany 9 5) (fun _ => vertStep) t) (.pv 4 .back 0 sh)
        (.pv 5 .front 0 sh')
      = vfBetween (vertMany 4 2) (tsVfMatrix (vertMany 4 2) (fun _ => vertStep) t)
        (.pv 1 .back 0 sh) (.pv 2 .front 0 sh') := by
  obtain ⟨la, lb, e⟩ := vert_exchange t
  have k1 : 1 < vertArray.nSeg 0 .back := by simp [vertArray, ArrayParams.nSeg, ArrayParams.nBack]
  have k2 : 0 < vertArray.nSeg 1 .front := by simp [vertArray, ArrayParams.nSeg, ArrayParams.nFront]
  have la' : lengthAt vertArray vertStep (.pv 0 .back 1 false) > TOL := by rw [la]; norm_num [TOL]
  have lb' : lengthAt vertArray vertStep (.pv 1 .front 0 false) > TOL := by rw [lb]; norm_num [TOL]
  refine ⟨e, ?_, ?_, fun sh sh' => ?_⟩
  · have hR : Resized 3 vertArray vertLarge :=
      ⟨by norm_num, rfl, rfl, by norm_num [vertLarge, vertArray], by simp [vertArray],
        by simp [vertLarge, vertArray]⟩
    have hP : ∀ i, SamePlace vertArray vertLarge i i := fun i => ⟨Iff.rfl, Iff.rfl, fun _ => rfl⟩
    have c1 := hR.coords (i := 0) (i' := 0) (by simp [vertArray]) (by simp [vertLarge, vertArray])
      (hP 0) vertStep k1 false
    have c2 := hR.coords (i := 1) (i' := 1) (by simp [vertArray]) (by simp [vertLarge, vertArray])
      (hP 1) vertStep k2 false
    have l1 : lengthAt vertLarge vertStep (.pv 0 .back 1 false) > TOL := by
      rw [lengthAt, c1, (moveTo_scales (by norm_num) _ _).length]
      change 3 * lengthAt vertArray vertStep _ > TOL
      rw [la]; norm_num [TOL]
    have l2 : lengthAt vertLarge vertStep (.pv 1 .front 0 false) > TOL := by
      rw [lengthAt, c2, (moveTo_scales (by norm_num) _ _).length]
      change 3 * lengthAt vertArray vertStep _ > TOL
      rw [lb]; norm_num [TOL]
    have := (C76_scale 3 vertArray vertLarge (fun _ : Fin 3 => vertStep) t hR (i := 0) (i' := 0)
      (by simp [vertArray]) (by simp [vertLarge, vertArray]) (hP 0) (hP 1) .back .front k1 k2 false
      false la' lb' l1 l2).2.1
    rw [← e]; exact this
  · have hm : MirroredStep vertArray.axisAzimuth vertStep vertMirror :=
      ⟨rfl, rfl, ⟨1, by norm_num [vertMirror, vertStep, vertArray]⟩,
        ⟨1, by norm_num [vertMirror, vertStep, vertArray]⟩⟩
    have := (C76_mirror vertArray (fun _ : Fin 3 => vertStep) (fun _ => vertMirror) t hm
      vert_physicalStep (by norm_num [vertStep])
      (by
        rw [show vertStep.surfaceAzimuth - vertArray.axisAzimuth = 90 + 180 by
          norm_num [vertStep, vertArray], sind_add_180, sind_90]
        norm_num) (i := 0) (j := 1) (by simp [vertArray]) (by simp [vertArray]) .back .front k1 k2
      false false).2 la' lb'
    rw [e] at this
    simpa [mirrorPv, vertArray, ArrayParams.nSeg, ArrayParams.nBack, ArrayParams.nFront] using this
  · have hR : Resized 1 (vertMany 4 2) (vertMany 9 5) :=
      ⟨by norm_num, rfl, rfl, by norm_num [vertMany], by simp [vertMany], by simp [vertMany]⟩
    have hP : ∀ i i', i < 3 → 0 < i → i' < 8 → 0 < i' →
        SamePlace (vertMany 4 2) (vertMany 9 5) i i' := by
      intro i i' h1 h2 h3 h4
      refine ⟨by omega, ?_, fun s => by cases s <;> rfl⟩
      simp only [vertMany]; omega
    exact (C76_place (vertMany 4 2) (vertMany 9 5) (fun _ : Fin 3 => vertStep) t hR (i := 1)
      (i' := 4) (by simp [vertMany]) (by simp [vertMany]) (hP 1 4 (by norm_num) (by norm_num)
      (by norm_num) (by norm_num)) (hP 2 5 (by norm_num) (by norm_num) (by norm_num) (by norm_num))
      .back .front (by simp [vertMany, ArrayParams.nSeg, ArrayParams.nBack])
      (by simp [vertMany, ArrayParams.nSeg, ArrayParams.nFront]) sh sh').1

end PVF
