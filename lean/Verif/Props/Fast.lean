import Verif.Lemmas.FastSum
import Verif.Spec.Parts

/-!
# Fast mode: view factors (C28), agreement with full mode (C29), incident irradiance (C30)
-/

namespace PVF

variable {ι : Type*} [Fintype ι]

/-! ## C28 -/

/-- C28: the view factors of fast mode to ground, neighbouring row and sky add up to one, the
ground and the row are split into shaded and illuminated parts, and the shaded ground into the
shadows of the single rows; for any element on any row, also for negative row indices. -/
theorem C28_complete (p : ArrayParams) (g : StepGeom) (i : ℤ) (pv : Line) :
    let v := fastVF p g i pv
    v.toGndTotal + v.toPvrowTotal + v.toSky = 1 ∧
    v.toGndShaded + v.toGndIllum = v.toGndTotal ∧
    v.toPvrowShaded + v.toPvrowIllum = v.toPvrowTotal ∧
    v.toEachGndShadow.length = p.nRows ∧
    v.toEachGndShadow.sum = v.toGndShaded := by
  refine ⟨?_, ?_, ?_, ?_, ?_⟩ <;> simp [fastVF] <;> ring

/-- C28: elements not longer than the tolerance see nothing but the sky. -/
theorem C28_short (p : ArrayParams) (g : StepGeom) (i : ℤ) (pv : Line) (h : pv.length ≤ TOL) :
    let v := fastVF p g i pv
    v.toGndTotal = 0 ∧ v.toGndShaded = 0 ∧ v.toGndIllum = 0 ∧ v.toPvrowTotal = 0 ∧
    v.toPvrowShaded = 0 ∧ v.toPvrowIllum = 0 ∧ v.toSky = 1 := by
  intro v
  have hS : ∀ l, vfSurfSurf pv l pv.length = 0 := by
    intro l; unfold vfSurfSurf; rw [if_neg (not_lt.2 h)]
  have hH : ∀ a b c d e s, vfHottelGnd a b c d e pv.length s = 0 := by
    intro a b c d e s; unfold vfHottelGnd; rw [if_neg (not_lt.2 h)]
  have h1 : v.toGndTotal = 0 := by simp [v, fastVF, vfToGnd, hS]
  have h2 : v.toGndShaded = 0 := by
    simp [v, fastVF, vfToShadow, hS, hH]
  have h3 : v.toPvrowTotal = 0 := by
    simp only [v, fastVF, vfToPvrow, hS]; split_ifs <;> rfl
  have h4 : v.toPvrowShaded = 0 := by
    simp only [v, fastVF, vfToPvrow, hS]; split_ifs <;> rfl
  obtain ⟨c1, c2, c3, -⟩ := C28_complete p g i pv
  change v.toGndTotal + v.toPvrowTotal + v.toSky = 1 at c1
  change v.toGndShaded + v.toGndIllum = v.toGndTotal at c2
  change v.toPvrowShaded + v.toPvrowIllum = v.toPvrowTotal at c3
  exact ⟨h1, h2, by linarith, h3, h4, by linarith, by linarith⟩

section
variable {p : ArrayParams} {rot : Rot} {sun : Pt} (h : Physical p rot.deg)
    (hf : FlatOk rot) (ho : (fitGeom p rot sun).ground.Ordered)
    {r : ℕ} {k : ℕ} {sh : Bool} (ha : SurfRef.pv r .back k sh ∈ allRefs p)
include h hf ho ha

/-- The view factor to the ground shadows in fast mode. -/
theorem fast_shaded :
    let g := fitGeom p rot sun
    let left := faceL rot.deg .back
    let A := g.coords (.pv r .back k sh)
    let B := fun x => strA p left rot.deg r (pvIv p rot sun r .back k sh).1
      (pvIv p rot sun r .back k sh).2 (clipTo left (g.ground.zoneHi r) x)
    (∀ v ∈ (fastVF p g r A).toEachGndShadow, 0 ≤ v) ∧
    (fastVF p g r A).toGndShaded = (if A.length > TOL then
      ((List.range p.nRows).map fun e => B (g.ground.shadowEl e).b2.x
        - B (g.ground.shadowEl e).b1.x).sum / (2 * A.length) else 0) ∧
    ((List.range p.nRows).map fun e => B (g.ground.shadowEl e).b2.x
        - B (g.ground.shadowEl e).b1.x).sum ≤ B MAX_X - B MIN_X := by
  intro g left A B
  have hT := TOL_pos
  have each : ∀ sh' e, (e < if sh' then p.nRows else p.nRows + 1) →
      vfToShadow A r p.nRows (g.rot.deg > 0) g.row
        (coordsLeftOfCut (g.elem sh' e) (g.ground.cuts.getD (pyIdx p.nRows r) .posInf))
        (coordsRightOfCut (g.elem sh' e) (g.ground.cuts.getD (pyIdx p.nRows r) .posInf)) A.length
        = (if A.length > TOL then (B (g.elem sh' e).b2.x - B (g.elem sh' e).b1.x) / (2 * A.length)
          else 0) ∧ 0 ≤ B (g.elem sh' e).b2.x - B (g.elem sh' e).b1.x := by
    intro sh' e he
    have := fast_each (sun := sun) h ha hf (g.elem_inGround sh' e) (elem_ordered ho he)
    simp only [dphi_strA] at this
    exact this
  refine ⟨?_, ?_, ?_⟩
  · intro v hv
    simp only [fastVF, List.mem_map, List.mem_range] at hv
    obtain ⟨e, he, rfl⟩ := hv
    obtain ⟨e1, e2⟩ := each true e (by simpa using he)
    change 0 ≤ vfToShadow A _ _ _ _ (coordsLeftOfCut (g.elem true e) _)
      (coordsRightOfCut (g.elem true e) _) _
    rw [e1]
    split_ifs
    · exact div_nonneg e2 (by linarith)
    · exact le_rfl
  · have : (fastVF p g r A).toGndShaded = ((List.range p.nRows).map fun e =>
        if A.length > TOL then (B (g.ground.shadowEl e).b2.x - B (g.ground.shadowEl e).b1.x)
          / (2 * A.length) else 0).sum := by
      simp only [fastVF]
      congr 1
      apply List.map_congr_left
      intro e he
      exact (each true e (by simpa using he)).1
    rw [this]
    split_ifs
    · rw [div_eq_mul_inv, ← List.sum_map_mul_right]
      simp only [div_eq_mul_inv]
    · simp
  · rw [← g.ground.sum_elements B]
    have : 0 ≤ ((List.range (g.ground.nRows + 1)).map fun e => B (g.ground.illumEl e).b2.x
        - B (g.ground.illumEl e).b1.x).sum := by
      apply List.sum_nonneg
      intro x hx
      simp only [List.mem_map, List.mem_range] at hx
      obtain ⟨e, he, rfl⟩ := hx
      have hN : g.ground.nRows = p.nRows := rfl
      exact (each false e (by rw [hN] at he; simpa using he)).2
    linarith!

/-- In fast mode, ground shadows are at most the whole ground that full mode sees, which is at
most the ground of fast mode. -/
theorem fast_gnd_le :
    let g := fitGeom p rot sun
    let left := faceL rot.deg .back
    let A := g.coords (.pv r .back k sh)
    let a := (pvIv p rot sun r .back k sh).1
    let b := (pvIv p rot sun r .back k sh).2
    A.length > TOL →
    dphi p left rot.deg r a b (clipTo left (g.ground.zoneHi r) MIN_X)
      (clipTo left (g.ground.zoneHi r) MAX_X) / (2 * A.length) ≤ (fastVF p g r A).toGndTotal := by
  intro g left A a b hlen
  obtain ⟨hr, hk⟩ := mem_allRefs_pv.1 ha
  obtain ⟨ia, iab, ib⟩ := pv_iv_bounds (rot := rot) (sun := sun) hk sh h.width.le
  have hT := TOL_pos
  rw [dphi_all p left rot.deg r a b (g.ground.zoneHi_inGround r)]
  by_cases hn : HasNb left p.nRows r
  · have := fast_gnd_nb (sun := sun) h ha hn
    simp only at this
    rw [this, if_pos hlen]
    apply div_le_div_of_nonneg_right _ (by linarith)
    exact zone_phi_le h hf hr hn ia iab
  · have := fast_gnd_edge (sun := sun) h ha hn
    simp only at this
    rw [this, if_pos hlen]
    apply div_le_div_of_nonneg_right _ (by linarith)
    rw [zoneHi_fit p rot sun hr]
    set c := cutPointX (fullRowCoords (rowCenter p r) p.width rot.deg) rot with hc
    change _ ≤ |phi p left rot.deg r a b (sx left (edgeCut left c)) - phi p left rot.deg r a b
      (sx left (endX left))|
    by_cases he : edgeCut left c = c.clipped
    · rw [he]; exact le_abs_self _
    · have : c.clipped = endX left := by
        rw [cutPointX_row] at hc
        have hle : left = faceL rot.deg .back := rfl
        split_ifs at hc with h0 h1
        · exfalso; apply he
          have : left = true := by rw [hle, faceL, h0]; simp
          rw [hc, this]; rfl
        · exact absurd (hf h0) h1
        · rw [hc] at he ⊢
          clear_value left
          cases left
          · simp only [edgeCut, Bool.false_eq_true, if_false, maxMinX, XR.clipped, endX] at he ⊢
            rcases le_total (r * p.distance + (-(p.width / 2) * cosd rot.deg
              - (-(p.width / 2) * sind rot.deg + p.height) * cosd rot.deg / sind rot.deg)) MAX_X
              with hx | hx
            · rw [min_eq_left hx] at he; exact absurd rfl he
            · rw [min_eq_right hx, max_eq_right MIN_lt_MAX.le]
          · simp only [edgeCut, if_true, minMaxX, XR.clipped, endX] at he ⊢
            rcases le_total MIN_X (r * p.distance + (-(p.width / 2) * cosd rot.deg
              - (-(p.width / 2) * sind rot.deg + p.height) * cosd rot.deg / sind rot.deg))
              with hx | hx
            · rw [max_eq_right (le_min hx MIN_lt_MAX.le), min_comm] at he; exact absurd rfl he
            · rw [max_eq_left]; exact (min_le_left _ _).trans hx
      rw [this, sub_self]
      exact abs_nonneg _

theorem fast_range :
    let g := fitGeom p rot sun
    let v := fastVF p g r (g.coords (.pv r .back k sh))
    (∀ x ∈ v.toEachGndShadow, 0 ≤ x) ∧ 0 ≤ v.toGndShaded ∧ 0 ≤ v.toGndIllum ∧
    0 ≤ v.toPvrowShaded ∧ 0 ≤ v.toPvrowIllum ∧ 0 ≤ v.toSky := by
  intro g v
  obtain ⟨hr, hk⟩ := mem_allRefs_pv.1 ha
  obtain ⟨ia, iab, ib⟩ := pv_iv_bounds (rot := rot) (sun := sun) hk sh h.width.le
  set A := g.coords (.pv r .back k sh) with hA
  set left := faceL rot.deg .back with hleft
  set a := (pvIv p rot sun r .back k sh).1 with had
  set b := (pvIv p rot sun r .back k sh).2 with hbd
  have hT := TOL_pos
  obtain ⟨s1, s2, s3⟩ := fast_shaded h hf ho ha
  have hs0 : 0 ≤ v.toGndShaded := List.sum_nonneg s1
  obtain ⟨r1, r2⟩ := fast_row (sun := sun) h ha
  obtain ⟨-, hL0, hLw⟩ := front_shade (sun := sun) h (nb left r)
  by_cases hlen : A.length > TOL
  · have hlab : A.length = b - a := length_pv hk sh h.width.le h.lo h.hi
    have hl0 : 0 < 2 * A.length := by linarith
    have hgl := fast_gnd_le h hf ho ha hlen
    simp only [← hA, ← hleft, ← had, ← hbd] at s2 s3 r1 r2 hgl
    have hill : 0 ≤ v.toGndIllum := by
      have : v.toGndIllum = v.toGndTotal - v.toGndShaded := rfl
      rw [this, sub_nonneg]
      refine le_trans ?_ hgl
      change v.toGndShaded = _ at s2
      rw [s2, if_pos hlen]
      apply div_le_div_of_nonneg_right _ hl0.le
      rw [dphi_strA]
      exact s3
    refine ⟨s1, hs0, hill, ?_, ?_, ?_⟩
    · change 0 ≤ (fastVF p g r A).toPvrowShaded
      rw [r2]
      split_ifs with hc
      · exact div_nonneg (sub_nonneg.2 (kdist_mono hc.1 iab hL0)) hl0.le
      · exact le_rfl
    · have : v.toPvrowIllum = v.toPvrowTotal - v.toPvrowShaded := rfl
      rw [this, sub_nonneg]
      change (fastVF p g r A).toPvrowShaded ≤ (fastVF p g r A).toPvrowTotal
      rw [r1, r2]
      split_ifs with hc
      · exact div_le_div_of_nonneg_right (sub_le_sub_right (kdist_mono hc.1 iab hLw) _) hl0.le
      · exact le_rfl
    · have : v.toSky = 1 - (fastVF p g r A).toGndTotal - (fastVF p g r A).toPvrowTotal := rfl
      rw [this, r1]
      by_cases hn : HasNb left p.nRows r
      · rw [if_pos ⟨hn, hlen⟩]
        have := fast_gnd_nb (sun := sun) h ha hn
        simp only [← hA, ← hleft, ← had, ← hbd] at this
        rw [this, if_pos hlen, sub_sub, ← add_div, sub_nonneg, div_le_one hl0]
        have := abs_le.1 (kdist_abs p left rot.deg r iab p.width)
        linarith [this.2]
      · rw [if_neg (by simp [hn])]
        have := fast_gnd_edge (sun := sun) h ha hn
        simp only [← hA, ← hleft, ← had, ← hbd] at this
        rw [this, if_pos hlen, sub_zero, sub_nonneg, div_le_one hl0]
        rw [← ddist_gp p left rot.deg r hn, ← ddist_gp p left rot.deg r hn]
        refine (abs_sub _ _).trans ?_
        have d := fun Q => ddist_abs p rot.deg r iab Q
        linarith [d (gp (edgeCut left (cutPointX (fullRowCoords (rowCenter p r) p.width rot.deg) rot))),
          d (gp (if left = true then MIN_X else MAX_X))]
  · obtain ⟨z1, z2, z3, z4, z5, z6, z7⟩ := C28_short p g r A (not_lt.1 hlen)
    exact ⟨s1, hs0, z3.ge, z5.ge, z6.ge, by rw [show v.toSky = 1 from z7]; exact zero_le_one⟩

end

end PVF
