import Verif.Spec.RoundedFlat
import Verif.Props.RoundedTrig

/-!
# Accuracy for horizontal rows
-/

namespace PVF

/-- Lines whose first ends are not lower than their second ends. -/
theorem highest_near_of_le {l l' : Line} {τ : ℝ} (h1 : distPt l.b1 l'.b1 ≤ τ) (h2 : distPt l.b2 l'.b2 ≤ τ)
    (hl : l.b2.y ≤ l.b1.y) (hl' : l'.b2.y ≤ l'.b1.y) :
    distPt l.highest l'.highest ≤ τ ∧ distPt l.lowest l'.lowest ≤ τ := by
  have e : ∀ {m : Line}, m.b2.y ≤ m.b1.y → m.highest = m.b1 ∧ m.lowest = m.b2 := fun {m} h => by
    unfold Line.highest Line.lowest
    simp only [ge_iff_le, if_pos h, and_self]
  rw [(e hl).1, (e hl).2, (e hl').1, (e hl').2]
  exact ⟨h1, h2⟩

/-- The segments of horizontal rows. -/
theorem sideSegment_horizontal (center : Pt) (width : ℝ) (cut : ℕ) (sl : ℝ) (i : ℕ) :
    (sideSegment center width 0 cut sl i).illum = (sideSegment center width 0 cut sl i).coords ∧
    (sideSegment center width 0 cut sl i).shaded = ⟨(sideSegment center width 0 cut sl i).coords.b1,
      (sideSegment center width 0 cut sl i).coords.b1⟩ ∧
    (sideSegment center width 0 cut sl i).coords.b2.y ≤ (sideSegment center width 0 cut sl i).coords.b1.y := by
  refine ⟨by simp [sideSegment], by simp [sideSegment], ?_⟩
  simp [sideSegment, sind_180]

theorem Arith.sideSegment_flat {ε : ℝ} (A : Arith ε) (center : Pt) (width : ℝ) (T : Trig) (cut : ℕ) (sl : ℝ)
    (i : ℕ) :
    (A.sideSegment center width 0 T cut sl i).illum = (A.sideSegment center width 0 T cut sl i).coords ∧
    (A.sideSegment center width 0 T cut sl i).shaded
      = ⟨(A.sideSegment center width 0 T cut sl i).coords.b1,
        (A.sideSegment center width 0 T cut sl i).coords.b1⟩ := by
  constructor <;> simp [Arith.sideSegment]

/-- The first end of a stored segment of a horizontal row is not lower than the second one. -/
theorem Arith.segment_order {ε : ℝ} (h1 : ε < 1) (A : Arith ε) (hA : A.Ordered) (center : Pt)
    {width : ℝ} (hw : 0 ≤ width) (cut i : ℕ) (cs sn : ℝ) (hsn : 0 ≤ sn) :
    (A.segmentCoords center width cut i cs sn).b2.y ≤ (A.segmentCoords center width cut i cs sn).b1.y := by
  have hq : 0 ≤ A.div width cut := by
    have hx : 0 ≤ width / cut := by positivity
    have := A.div_err width cut
    rw [abs_of_nonneg hx] at this
    have h := (abs_le.1 this).1
    nlinarith
  refine hA.add _ _ _ (hA.mul_left _ _ _ hsn (hA.sub _ _ _ (hA.mul_left _ _ _ hq ?_)))
  linarith

/-- C102: coordinates of a scene with horizontal rows are close to the exact ones and the same ends of
surfaces count as the higher ones, if the computed sine of 180 degrees is not negative. -/
theorem C102_coords {ε η B K : ℝ} (h0 : 0 ≤ ε) (h1 : ε < 1) (A : Arith ε) (hA : A.Ordered)
    (p : ArrayParams) (nz : Bool) (sun : Pt) (T : Trig) (hB : ArraySize p B)
    (hT : TrigNear 0 (arctan2 sun.y sun.x) T η K) (hsn : T.sn = 0) (hsn180 : 0 ≤ T.sn180)
    (hm : 1 < p.nRows → shadeErr ε η B K < |shadingDelta p.distance (arctan2 sun.y sun.x) 0|)
    (hf : ∀ x, x = (interrowShading p (arctan2 sun.y sun.x) 0).1 ∨
      x = (interrowShading p (arctan2 sun.y sun.x) 0).2 → shadeErr ε η B K < |x - TOL|)
    (hK0 : 0 < K) :
    CoordsNear p (fitGeom p ⟨0, nz⟩ sun) (A.fitGeom p ⟨0, nz⟩ sun T) (sceneErr ε η B K (1 / K)) := by
  set alpha := arctan2 sun.y sun.x with halpha
  set rot : Rot := ⟨0, nz⟩ with hrot
  set τ := sceneErr ε η B K (1 / K) with hτd
  have hη : 0 ≤ η := (abs_nonneg _).trans hT.cs
  have hB0 : 0 < B := hB.width_pos.trans_le hB.width
  have sl := A.interrow_near h0 h1 hB hT hm
  have es0 : 0 ≤ shadeErr ε η B K := (abs_nonneg _).trans sl.1
  have e0 : 0 ≤ endErr ε η B := by
    have := grow_pow_one h0 h1 5
    unfold endErr
    exact add_nonneg (mul_nonneg (by linarith) (by positivity)) (by positivity)
  have g0 : 0 ≤ groundErr ε η B K := by
    have := grow_pow_one h0 h1 3
    unfold groundErr
    exact add_nonneg (add_nonneg (mul_nonneg (by linarith) (by positivity)) (by positivity))
      (by positivity)
  have q0 : 0 ≤ 2 * (endErr ε η B + shadeErr ε η B K) * (1 / (1 / K)) := by positivity
  have t2 : groundErr ε η B K ≤ τ := by
    rw [hτd]; unfold sceneErr
    have : 0 ≤ 2 * (endErr ε η B + shadeErr ε η B K) * (1 + 1 / (1 / K)) := by positivity
    linarith
  have t3 : endErr ε η B + endErr ε η B ≤ τ := by
    rw [hτd]; unfold sceneErr; linarith
  have c1 : ∀ x, |cosd x| ≤ 1 := fun x => Real.abs_cos_le_one _
  have s1 : ∀ x, |sind x| ≤ 1 := fun x => Real.abs_sin_le_one _
  -- segments
  have seg : ∀ r < p.nRows, ∀ (cut k : ℕ) (l l' : ℝ), k < cut → ∀ sh : Bool,
      let s := sideSegment (rowCenter p r) p.width 0 cut l k
      let s' := A.sideSegment (A.rowCenter p r) p.width 0 T cut l' k
      let x := if sh then s.shaded else s.illum
      let x' := if sh then s'.shaded else s'.illum
      (distPt x.b1 x'.b1 ≤ τ ∧ distPt x.b2 x'.b2 ≤ τ) ∧ x.b2.y ≤ x.b1.y ∧ x'.b2.y ≤ x'.b1.y := by
    intro r hr cut k l l' hk sh s s' x x'
    obtain ⟨f1, f2, f3⟩ := sideSegment_horizontal (rowCenter p r) p.width cut l k
    obtain ⟨f1', f2'⟩ := A.sideSegment_flat (A.rowCenter p r) p.width T cut l' k
    obtain ⟨⟨X, hX, nx⟩, ⟨Y, hY, ny⟩⟩ := A.center_near h0 h1 hB hr
    have hkc : ((k : ℝ) + 1) ≤ cut := by exact_mod_cast hk
    have k0 : (0 : ℝ) ≤ k := Nat.cast_nonneg k
    have n1 := A.segRadius_near h0 h1 hB.width_pos.le cut k0 (by linarith)
    have n2 := A.segRadius_near h0 h1 hB.width_pos.le cut (i := (k : ℝ) + 1) (by linarith) hkc
    have hm : 3 / 2 * p.width ≤ 3 / 2 * B := by linarith [hB.width]
    have d1 : distPt s.coords.b1 s'.coords.b1 ≤ τ :=
      (Arith.dist_le_of (A.coord_near h0 h1 n1 hm nx hX hT.cs180 (c1 _))
        (A.coord_near h0 h1 n1 hm ny hY hT.sn180 (s1 _))).trans t3
    have d2 : distPt s.coords.b2 s'.coords.b2 ≤ τ :=
      (Arith.dist_le_of (A.coord_near h0 h1 n2 hm nx hX hT.cs180 (c1 _))
        (A.coord_near h0 h1 n2 hm ny hY hT.sn180 (s1 _))).trans t3
    have o' := A.segment_order h1 hA (A.rowCenter p r) hB.width_pos.le cut k T.cs180 T.sn180 hsn180
    cases sh
    · change (distPt s.illum.b1 s'.illum.b1 ≤ τ ∧ distPt s.illum.b2 s'.illum.b2 ≤ τ) ∧
        s.illum.b2.y ≤ s.illum.b1.y ∧ s'.illum.b2.y ≤ s'.illum.b1.y
      rw [show s.illum = s.coords from f1, show s'.illum = s'.coords from f1']
      exact ⟨⟨d1, d2⟩, f3, o'⟩
    · change (distPt s.shaded.b1 s'.shaded.b1 ≤ τ ∧ distPt s.shaded.b2 s'.shaded.b2 ≤ τ) ∧
        s.shaded.b2.y ≤ s.shaded.b1.y ∧ s'.shaded.b2.y ≤ s'.shaded.b1.y
      rw [show s.shaded = _ from f2, show s'.shaded = _ from f2']
      exact ⟨⟨d1, d1⟩, le_refl _, le_refl _⟩
  have pv : ∀ r s k sh, SurfRef.pv r s k sh ∈ surfaces p →
      let x := (fitGeom p rot sun).coords (.pv r s k sh)
      let x' := (A.fitGeom p rot sun T).coords (.pv r s k sh)
      (distPt x.b1 x'.b1 ≤ τ ∧ distPt x.b2 x'.b2 ≤ τ) ∧ x.b2.y ≤ x.b1.y ∧ x'.b2.y ≤ x'.b1.y := by
    intro r s k sh ha
    obtain ⟨hr, hk⟩ := mem_allRefs_pv.1 (mem_surfaces.1 ha)
    cases s with
    | front =>
      have hk : k < p.nFront r := hk
      have ex : (fitGeom p rot sun).coords (.pv r .front k sh)
          = if sh then (sideSegment (rowCenter p r) p.width 0 (p.nFront r)
              (rowShadedLengths p alpha 0 r).1 k).shaded
            else (sideSegment (rowCenter p r) p.width 0 (p.nFront r)
              (rowShadedLengths p alpha 0 r).1 k).illum := by
        change (if sh then (((List.range (p.nFront r)).map (sideSegment _ _ _ _ _)).getD k default).shaded
          else (((List.range (p.nFront r)).map (sideSegment _ _ _ _ _)).getD k default).illum) = _
        simp [List.getD_eq_getElem?_getD, List.getElem?_range hk]
        rfl
      have ex' : (A.fitGeom p rot sun T).coords (.pv r .front k sh)
          = if sh then (A.sideSegment (A.rowCenter p r) p.width 0 T (p.nFront r)
              (A.rowShadedLengths p T 0 r).1 k).shaded
            else (A.sideSegment (A.rowCenter p r) p.width 0 T (p.nFront r)
              (A.rowShadedLengths p T 0 r).1 k).illum := by
        change (if sh then (((List.range (p.nFront r)).map (A.sideSegment _ _ _ _ _ _)).getD k
            default).shaded
          else (((List.range (p.nFront r)).map (A.sideSegment _ _ _ _ _ _)).getD k default).illum) = _
        simp [List.getD_eq_getElem?_getD, List.getElem?_range hk]
        rfl
      rw [ex, ex']
      exact seg r hr _ k _ _ hk sh
    | back =>
      have hk : k < p.nBack r := hk
      have ex : (fitGeom p rot sun).coords (.pv r .back k sh)
          = if sh then (sideSegment (rowCenter p r) p.width 0 (p.nBack r)
              (rowShadedLengths p alpha 0 r).2 k).shaded
            else (sideSegment (rowCenter p r) p.width 0 (p.nBack r)
              (rowShadedLengths p alpha 0 r).2 k).illum := by
        change (if sh then (((List.range (p.nBack r)).map (sideSegment _ _ _ _ _)).getD k default).shaded
          else (((List.range (p.nBack r)).map (sideSegment _ _ _ _ _)).getD k default).illum) = _
        simp [List.getD_eq_getElem?_getD, List.getElem?_range hk]
        rfl
      have ex' : (A.fitGeom p rot sun T).coords (.pv r .back k sh)
          = if sh then (A.sideSegment (A.rowCenter p r) p.width 0 T (p.nBack r)
              (A.rowShadedLengths p T 0 r).2 k).shaded
            else (A.sideSegment (A.rowCenter p r) p.width 0 T (p.nBack r)
              (A.rowShadedLengths p T 0 r).2 k).illum := by
        change (if sh then (((List.range (p.nBack r)).map (A.sideSegment _ _ _ _ _ _)).getD k
            default).shaded
          else (((List.range (p.nBack r)).map (A.sideSegment _ _ _ _ _ _)).getD k default).illum) = _
        simp [List.getD_eq_getElem?_getD, List.getElem?_range hk]
        rfl
      rw [ex, ex']
      exact seg r hr _ k _ _ hk sh
  -- the ground
  have flag : (A.fitGeom p rot sun T).ground.flagOverlap ↔ (fitGeom p rot sun).ground.flagOverlap := by
    have one : ∀ {x x' : ℝ}, |x' - x| ≤ shadeErr ε η B K → shadeErr ε η B K < |x - TOL| →
        (x' > TOL ↔ x > TOL) := by
      intro x x' h1 h2
      obtain ⟨l, u⟩ := abs_le.1 h1
      rcases lt_abs.1 h2 with h | h <;> constructor <;> intro _ <;> linarith
    exact or_congr (one sl.1 (hf _ (Or.inl rfl))) (one sl.2 (hf _ (Or.inr rfl)))
  have hT' : TrigNear rot.deg alpha T η K := hT
  obtain ⟨gs, gi⟩ := ground_near g0 (g := (fitGeom p rot sun).ground)
    (g' := (A.fitGeom p rot sun T).ground) rfl flag
    (fun i hi => (A.shadow_near h0 h1 hB hT' hi).1)
  have cuts : List.Forall₂ (XRNear (groundErr ε η B K)) (fitGeom p rot sun).ground.cuts
      (A.fitGeom p rot sun T).ground.cuts := by
    change List.Forall₂ _ ((List.range p.nRows).map _) ((List.range p.nRows).map _)
    rw [List.forall₂_map_left_iff, List.forall₂_map_right_iff, List.forall₂_same]
    exact fun i hi => (A.shadow_near h0 h1 hB hT' (List.mem_range.1 hi)).2
  refine ⟨Iff.rfl, fun a ha => ?_, fun r s k sh ha => ?_, fun r hr => ?_⟩
  · match a with
    | .pv r s k sh => exact (pv r s k sh ha).1
    | .gnd true e z =>
      have he : e < p.nRows := by simpa using (mem_allRefs_gnd.1 (mem_surfaces.1 ha)).1
      have d := (cutSurfaces_near g0 (gs e he) cuts z).dist
      exact ⟨d.1.trans t2, d.2.trans t2⟩
    | .gnd false e z =>
      have he : e ≤ p.nRows :=
        Nat.lt_succ_iff.1 (by simpa using (mem_allRefs_gnd.1 (mem_surfaces.1 ha)).1)
      have d := (cutSurfaces_near g0 (gi e he) cuts z).dist
      exact ⟨d.1.trans t2, d.2.trans t2⟩
  · obtain ⟨⟨d1, d2⟩, o, o'⟩ := pv r s k sh ha
    exact highest_near_of_le d1 d2 o o'
  · obtain ⟨⟨x1, y1⟩, x2, y2⟩ := A.full_near h0 h1 hB hT hr
    have hr0 : 0 ≤ A.div p.width 2 := by
      have hx : 0 ≤ p.width / 2 := by linarith [hB.width_pos]
      have := A.div_err p.width 2
      rw [abs_of_nonneg hx] at this
      have h := (abs_le.1 this).1
      nlinarith
    refine (highest_near_of_le (l := fullRowCoords (rowCenter p r) p.width 0)
      (l' := A.fullRowCoords (A.rowCenter p r) p.width T.cs T.sn T.cs180 T.sn180)
      ((Arith.dist_le_of x1 y1).trans t3) ((Arith.dist_le_of x2 y2).trans t3) ?_ ?_).2
    · simp [fullRowCoords, sind_180, sind_zero]
    · exact hA.add _ _ _ (hA.mul_right _ _ _ hr0 (by rw [hsn]; exact hsn180))

theorem FlatMargin.rot {p : ArrayParams} {u : StepIn} {K G : ℝ} (h : FlatMargin p u K G) :
    rotationFromTiltAzimuth u.surfaceAzimuth p.axisAzimuth u.surfaceTilt = ⟨0, true⟩ := by
  rw [h.flat]
  simp [rotationFromTiltAzimuth]

theorem FlatMargin.sun {p : ArrayParams} {u : StepIn} {K G : ℝ} (h : FlatMargin p u K G) (hK : 0 ≤ K) :
    SunMargin p u K G where
  one_le := by
    have h1 := h.high
    have : K * cosd u.solarZenith ≤ K * 1 := mul_le_mul_of_nonneg_left (Real.cos_le_one _) hK
    linarith
  zenith := h.zenith
  azimuth := h.azimuth
  high := h.high
  plane := by
    have e : frontDotSun 0 (solar2dVector u.solarZenith u.solarAzimuth p.axisAzimuth)
        = cosd u.solarZenith := by
      simp [frontDotSun, sind_zero, cosd_zero, solar2dVector]
    rw [h.rot, e]
    exact h.high.trans (mul_le_mul_of_nonneg_left (le_abs_self _) hK)

theorem TrigArith.sind_zero {ε : ℝ} (A : TrigArith ε) : A.sind 0 = 0 := by
  have h1 : A.deg2rad 0 = 0 := by
    have := A.deg2rad_err 0
    rw [show PVF.deg2rad 0 = 0 by simp [PVF.deg2rad], sub_zero, abs_zero, mul_zero] at this
    exact abs_nonpos_iff.1 this
  have := A.sin_err 0
  rw [Real.sin_zero, sub_zero, abs_zero, mul_zero] at this
  unfold TrigArith.sind
  rw [h1]
  exact abs_nonpos_iff.1 this

/-- The trigonometric values that are computed for horizontal rows.  The tangent of the rotation is not
used. -/
theorem flat_setup {ε K G : ℝ} (h0 : 0 < ε) (A : TrigArith ε) (p : ArrayParams) (u : StepIn)
    (hst : PhysicalStep p u) (hK : 0 ≤ K) (hu : FlatMargin p u K G) (hS : 20 * sineErr ε G * K ^ 3 ≤ 1) :
    let sun' := A.sun u.solarZenith u.solarAzimuth p.axisAzimuth
    let T := { A.trig 0 (A.atan2 sun'.y sun'.x) with tanRot := 1 / trigErr ε K G }
    TrigNear (fitStep p u).rot.deg (fitStep p u).alpha T (trigErr ε K G) K ∧
    A.fitStep p u = A.fitGeom p (fitStep p u).rot sun' T ∧
    T = { A.trig (A.fitStep p u).rot.deg (A.fitStep p u).alpha with tanRot := T.tanRot } ∧
    (fitStep p u).rot = ⟨0, true⟩ ∧ 0 < trigErr ε K G ∧ ε < 1 := by
  intro sun' T
  have hus := hu.sun hK
  obtain ⟨hK1, hG, -⟩ := hus.facts
  have hrot : (fitStep p u).rot = ⟨0, true⟩ := hu.rot
  have hrot' : A.rotation u.surfaceAzimuth p.axisAzimuth u.surfaceTilt = ⟨0, true⟩ := by
    unfold TrigArith.rotation
    simp [hu.flat]
  have hS0 : 14 * ε ≤ sineErr ε G := by
    unfold sineErr
    have : 0 ≤ ε * (G / 16) := by positivity
    linarith
  have hη0 : 0 < trigErr ε K G := by
    unfold trigErr
    have : 0 < sineErr ε G := by linarith
    positivity
  have h1 : ε < 1 := by
    have : sineErr ε G * 1 ≤ sineErr ε G * K ^ 3 :=
      mul_le_mul_of_nonneg_left (one_le_pow₀ hK1) (by linarith)
    linarith
  have e : A.fitStep p u = A.fitGeom p ⟨0, true⟩ sun' T := by
    unfold TrigArith.fitStep
    rw [hrot']
    dsimp only
    unfold Arith.fitGeom Arith.cutPointX
    simp only [if_true]
    rfl
  have htr := trig_near h0.le A p u hst hus hS (1 / trigErr ε K G)
  dsimp only at htr
  rw [hu.rot] at htr
  refine ⟨?_, by rw [hrot]; exact e, by rw [e]; rfl, hrot, hη0, h1⟩
  rw [hrot]
  exact htr (by positivity) (by
    rw [PVF.sind_zero, div_zero, sub_zero, one_div_one_div, abs_of_pos hη0]) (by
    rw [PVF.sind_zero, div_zero, abs_zero]; exact hK)

/-- C102: all coordinates that are computed from the inputs of a time step with horizontal rows are close to
the exact ones. -/
theorem C102_step {ε B K G : ℝ} (h0 : 0 < ε) (A : TrigArith ε) (hA : A.toArith.Ordered)
    (hπ : 0 ≤ A.sind (A.add 0 180)) (p : ArrayParams) (u : StepIn)
    (hp : PhysicalArray p) (hst : PhysicalStep p u) (hB : ArraySize p B) (hK : 0 ≤ K)
    (hu : FlatMargin p u K G) (hS : 20 * sineErr ε G * K ^ 3 ≤ 1)
    (hd : shadeErr ε (trigErr ε K G) B K * K < p.distance)
    (hT : shadeErr ε (trigErr ε K G) B K < TOL)
    (hf : ∀ x, x = (interrowShading p (fitStep p u).alpha (fitStep p u).rot.deg).1 ∨
      x = (interrowShading p (fitStep p u).alpha (fitStep p u).rot.deg).2 → x = 0 ∨ 2 * TOL ≤ x) :
    CoordsNear p (fitStep p u) (A.fitStep p u) (sceneErr ε (trigErr ε K G) B K (1 / K)) := by
  obtain ⟨htr, eg, -, hrot, hη0, h1⟩ := flat_setup h0 A p u hst hK hu hS
  have hus := hu.sun hK
  obtain ⟨hK1, hG, -⟩ := hus.facts
  have hdel := fun s0 => hus.delta hp hst (s := shadeErr ε (trigErr ε K G) B K) s0 hd
  have ef : fitStep p u = fitGeom p ⟨0, true⟩
      (solar2dVector u.solarZenith u.solarAzimuth p.axisAzimuth) := by
    unfold fitStep; rw [hu.rot]
  have hB0 : 0 < B := hB.width_pos.trans_le hB.width
  have s0 : 0 ≤ shadeErr ε (trigErr ε K G) B K := by
    have := grow_pow_one h0.le h1 5
    unfold shadeErr
    exact add_nonneg (mul_nonneg (by linarith) (by positivity)) (by positivity)
  rw [hrot] at htr eg
  rw [eg]
  rw [ef] at hf hdel htr ⊢
  refine (C102_coords h0.le h1 A.toArith hA p true _ _ hB htr A.sind_zero hπ (fun _ => hdel s0)
    (fun x hx => ?_) (by linarith)).sun
  rcases hf x hx with h | h
  · rw [h, zero_sub, abs_neg, abs_of_pos TOL_pos]; exact hT
  · exact hT.trans_le ((by linarith : TOL ≤ x - TOL).trans (le_abs_self _))

/-- C102: all coordinates that are computed from the inputs of a time step are close to the exact ones,
both for tilted and for horizontal rows. -/
theorem C102_any_step {ε B K G w : ℝ} (h0 : 0 < ε) (A : TrigArith ε) (hA : A.toArith.Ordered)
    (hπ : 0 ≤ A.sind (A.add 0 180)) (p : ArrayParams) (u : StepIn)
    (hp : PhysicalArray p) (hst : PhysicalStep p u) (hB : ArraySize p B) (hK : 0 ≤ K)
    (hu : StepMargin p u ε K G ∨ FlatMargin p u K G) (hS : 20 * sineErr ε G * K ^ 3 ≤ 1)
    (hd : shadeErr ε (trigErr ε K G) B K * K < p.distance)
    (hT : shadeErr ε (trigErr ε K G) B K < TOL)
    (hf : ∀ x, x = (interrowShading p (fitStep p u).alpha (fitStep p u).rot.deg).1 ∨
      x = (interrowShading p (fitStep p u).alpha (fitStep p u).rot.deg).2 → x = 0 ∨ 2 * TOL ≤ x)
    (hw : w ≤ p.width)
    (hlong : ∀ a ∈ surfaces p, ((fitStep p u).coords a).length = 0 ∨
      w ≤ ((fitStep p u).coords a).length)
    (hτ : 2 * K * sceneErr ε (trigErr ε K G) B K (1 / K) < w) :
    CoordsNear p (fitStep p u) (A.fitStep p u) (sceneErr ε (trigErr ε K G) B K (1 / K)) := by
  rcases hu with hu | hu
  · exact C99_step h0.le A p u hp hst hB hu hS hd hT hf hw hlong hτ
  · exact C102_step h0 A hA hπ p u hp hst hB hK hu hS hd hT hf

/-- C102: all view factors that are computed from the inputs of a run with rounding errors are close to the
exact ones; the rows may be horizontal at some or all time steps. -/
theorem C102_view_factors {ι : Type*} [Fintype ι] {ε B K G D w c : ℝ} (h0 : 0 < ε)
    (A : TrigArith ε) (hA : A.toArith.Ordered) (hπ : 0 ≤ A.sind (A.add 0 180)) (T : SumTree)
    (p : ArrayParams) (u : ι → StepIn) (t : ι)
    (hp : PhysicalArray p) (hst : ∀ t, PhysicalStep p (u t)) (hB : ArraySize p B) (hK : 0 ≤ K)
    (hu : ∀ t, StepMargin p (u t) ε K G ∨ FlatMargin p (u t) K G)
    (hS : 20 * sineErr ε G * K ^ 3 ≤ 1)
    (hd : shadeErr ε (trigErr ε K G) B K * K < p.distance)
    (hTOL : shadeErr ε (trigErr ε K G) B K < TOL)
    (hf : ∀ t x, x = (interrowShading p (fitStep p (u t)).alpha (fitStep p (u t)).rot.deg).1 ∨
      x = (interrowShading p (fitStep p (u t)).alpha (fitStep p (u t)).rot.deg).2 →
        x = 0 ∨ 2 * TOL ≤ x)
    (hw : w ≤ p.width)
    (hlong : ∀ t, ∀ a ∈ surfaces p, ((fitStep p (u t)).coords a).length = 0 ∨
      w ≤ ((fitStep p (u t)).coords a).length)
    (hT : T.leaves = Multiset.range (nTsSurfaces p))
    (hs : SceneSize p (fitStep p (u t)) (isEmptyTs fun t => fitStep p (u t)) D w)
    (hc : c ≤ p.height - p.width / 2 * sind (u t).surfaceTilt)
    (τ : ℝ) (hτd : τ = sceneErr ε (trigErr ε K G) B K (1 / K)) (hτ : 2 * K * τ < w)
    (hτT : 4 * τ ≤ TOL) (hτn : Fintype.card ι * (2 * τ) < TOL) (hτc : 4 * τ < c)
    (hw2 : 2 * TOL ≤ w - 2 * τ) (a : SurfRef) (ha : a ∈ surfaces p) :
    let g' := fun t => A.fitStep p (u t)
    let F := A.vfMatrix T p (g' t) (isEmptyTs g')
    let E := entryBound ε (D + 2 * τ) (w - 2 * τ) (c - 2 * τ) (2 * τ)
      + entryMove (D + 2 * τ) (w - 2 * τ) (c - 2 * τ) (2 * τ) τ
    (∀ b ∈ surfaces p, |vfBetween p F a b - vfBetween p (tsVfMatrix p u t) a b| ≤ E) ∧
    ∑ b ∈ surfaces p, |vfBetween p F a b - vfBetween p (tsVfMatrix p u t) a b|
      + |vfToSky p F a - vfToSky p (tsVfMatrix p u t) a| ≤ rowErrors (nTsSurfaces p) ε E := by
  intro g' F E
  have hn : ∀ t, CoordsNear p (fitStep p (u t)) (g' t) τ := fun t => by
    rw [hτd]
    exact C102_any_step h0 A hA hπ p (u t) hp (hst t) hB hK (hu t) hS hd hTOL (hf t) hw (hlong t)
      (hτd ▸ hτ)
  have hm : SunMargin p (u t) K G := (hu t).elim (fun h => h.sun) fun h => h.sun hK
  obtain ⟨hK1, hG, -⟩ := hm.facts
  have h1 : ε ≤ 1 / 8 := by
    have hS0 : 14 * ε ≤ sineErr ε G := by
      unfold sineErr
      have : 0 ≤ ε * (G / 16) := by positivity
      linarith
    have : sineErr ε G * 1 ≤ sineErr ε G * K ^ 3 :=
      mul_le_mul_of_nonneg_left (one_le_pow₀ hK1) (by linarith)
    linarith
  have hτ0 : 0 ≤ τ := (Real.sqrt_nonneg _).trans ((hn t).ends a ha).1
  exact C98_computed h0.le h1 A.toArith T p u t g' hp (hst t) hT hs hlong hc hn hτ0 hτT hτn hτc hw2 a
    ha

/-- C102: the light that full mode returns when everything is computed with rounding errors is close to
that of exact full mode; the rows may be horizontal at some or all time steps. -/
theorem C102_full_mode {ι : Type*} [Fintype ι] {ε B K G D w c : ℝ} (h0 : 0 < ε)
    (A : TrigArith ε) (hA : A.toArith.Ordered) (hπ : 0 ≤ A.sind (A.add 0 180)) (T : SumTree)
    (p : ArrayParams) (u : ι → StepIn) (s : ι → IrrStep)
    (aoi : ι → Option (List Asg)) (o : ι → FullOut) (hrun : runFullMode p u s aoi = some o)
    (hinv : ∀ t, InverseOk p (s t)) (t : ι)
    (hp : PhysicalArray p) (hst : ∀ t, PhysicalStep p (u t)) (hB : ArraySize p B) (hK : 0 ≤ K)
    (hu : ∀ t, StepMargin p (u t) ε K G ∨ FlatMargin p (u t) K G)
    (hS : 20 * sineErr ε G * K ^ 3 ≤ 1)
    (hd : shadeErr ε (trigErr ε K G) B K * K < p.distance)
    (hTOL : shadeErr ε (trigErr ε K G) B K < TOL)
    (hf : ∀ t x, x = (interrowShading p (fitStep p (u t)).alpha (fitStep p (u t)).rot.deg).1 ∨
      x = (interrowShading p (fitStep p (u t)).alpha (fitStep p (u t)).rot.deg).2 →
        x = 0 ∨ 2 * TOL ≤ x)
    (hw : w ≤ p.width)
    (hlong : ∀ t, ∀ a ∈ surfaces p, ((fitStep p (u t)).coords a).length = 0 ∨
      w ≤ ((fitStep p (u t)).coords a).length)
    (hT : T.leaves = Multiset.range (nTsSurfaces p))
    (hs : SceneSize p (fitStep p (u t)) (isEmptyTs fun t => fitStep p (u t)) D w)
    (hc : c ≤ p.height - p.width / 2 * sind (u t).surfaceTilt)
    (τ : ℝ) (hτd : τ = sceneErr ε (trigErr ε K G) B K (1 / K)) (hτ : 2 * K * τ < w)
    (hτT : 4 * τ ≤ TOL) (hτn : Fintype.card ι * (2 * τ) < TOL) (hτc : 4 * τ < c)
    (hw2 : 2 * TOL ≤ w - 2 * τ)
    (r : ℝ) (hr : ∀ a ∈ surfaces p, 0 ≤ (s t).rho a ∧ (s t).rho a ≤ r) (hr1 : r < 1)
    (e' q0' qinc' : SurfRef → ℝ) (sky' η₁ η₂ η₃ M : ℝ)
    (hsol : NearlySolved p (A.vfMatrix T p (A.fitStep p (u t)) (isEmptyTs fun t => A.fitStep p (u t)))
      (fun a => ((s t).comp a).sum) (s t).rho (s t).sky e' q0' qinc' sky' η₁ η₂ η₃ M) :
    let E := entryBound ε (D + 2 * τ) (w - 2 * τ) (c - 2 * τ) (2 * τ)
      + entryMove (D + 2 * τ) (w - 2 * τ) (c - 2 * τ) (2 * τ) τ
    ∀ a ∈ surfaces p, |qinc' a - (o t).qinc a|
      ≤ (η₁ + η₂ + η₃ + rowErrors (nTsSurfaces p) ε E * M) / (1 - r) := fun a ha =>
  (C96_system p (tsVfMatrix p u t) _ _ e' _ _ _ q0' qinc' _ sky' r _ η₁ η₂ η₃ M
    (C06_radiosity p u s aoi o hrun hinv t).1 (C02_viewFactorsOk p u t hp (hst t)) hr hr1
    (fun a ha => (C102_view_factors h0 A hA hπ T p u t hp hst hB hK hu hS hd hTOL hf hw hlong hT hs hc
      τ hτd hτ hτT hτn hτc hw2 a ha).2) hsol a ha).1

/-! ## What goes wrong with another value of 180 degrees in radians -/

open Classical in
/-- An arithmetic that is exact, except that 180 degrees are a little more than `π`. -/
noncomputable def turnedTrig (ε : ℝ) (h : 0 < ε) : TrigArith ε :=
  have exact' : ∀ z : ℝ, |z - z| ≤ ε * |z| := fun z => by
    rw [sub_self, abs_zero]; positivity
  { add := fun x y => x + y
    sub := fun x y => x - y
    mul := fun x y => x * y
    div := fun x y => x / y
    sqrt := fun x => Real.sqrt x
    atan2 := fun y x => arctan2 y x
    add_err := fun _ _ => exact' _
    sub_err := fun _ _ => exact' _
    mul_err := fun _ _ => exact' _
    div_err := fun _ _ => exact' _
    sqrt_err := fun x _ => by rw [sub_self, abs_zero]; positivity
    atan2_err := fun _ _ => exact' _
    sin := Real.sin
    cos := Real.cos
    tan := fun x => Real.tan (if Real.cos x = 0 then x + min (ε * |x|) 1 else x)
    deg2rad := fun x => if x = 180 then (1 + ε) * Real.pi else deg2rad x
    rad2deg := rad2deg
    mod := fun x => pyMod x 360
    sin_err := fun _ => exact' _
    cos_err := fun _ => exact' _
    tan_err := fun x => by
      refine ⟨if Real.cos x = 0 then x + min (ε * |x|) 1 else x, ?_, ?_, exact' _⟩
      · split_ifs
        · rw [add_sub_cancel_left, abs_of_nonneg (le_min (by positivity) zero_le_one)]
          exact min_le_left _ _
        · rw [sub_self, abs_zero]; positivity
      · split_ifs with hc
        · have hx : x ≠ 0 := fun hx => by rw [hx, Real.cos_zero] at hc; exact one_ne_zero hc
          have hm : 0 < min (ε * |x|) 1 := lt_min (mul_pos h (abs_pos.2 hx)) one_pos
          have hs : Real.sin (min (ε * |x|) 1) ≠ 0 :=
            (Real.sin_pos_of_pos_of_lt_pi hm
              ((min_le_right _ _).trans_lt (by linarith [Real.pi_gt_three]))).ne'
          have hsx : Real.sin x ≠ 0 := fun hs => by
            have := Real.sin_sq_add_cos_sq x
            rw [hs, hc] at this
            norm_num at this
          rw [Real.cos_add, hc, zero_mul, zero_sub]
          exact neg_ne_zero.2 (mul_ne_zero hsx hs)
        · exact hc
    deg2rad_err := fun x => by
      split_ifs with hx
      · rw [hx, show deg2rad 180 = Real.pi by unfold deg2rad; ring,
          show (1 + ε) * Real.pi - Real.pi = ε * Real.pi by ring, abs_mul, abs_of_pos h]
      · exact exact' _
    rad2deg_err := fun _ => exact' _
    mod_err := fun x => by rw [sub_self, abs_zero]; positivity }

/-- C102: if 180 degrees in radians are a little more than `π`, the second end of all surfaces of
horizontal rows is the higher one in the stored coordinates, but the first one in the exact ones.  All
view factors of the back side to the ground past the row to the left get the wrong sign. -/
theorem C102_turned {ε : ℝ} (h : 0 < ε) (h1 : ε < 1) (p : ArrayParams) (u : StepIn)
    (hw : 0 < p.width) (flat : u.surfaceTilt = 0) (i k : ℕ) (hi : 0 < i) (hk : k < p.nBack i)
    (gnd : Line) (len : ℝ) :
    let g' := (turnedTrig ε h).fitStep p u
    let l := (fitStep p u).coords (.pv i .back k false)
    let l' := g'.coords (.pv i .back k false)
    l.highest = l.b1 ∧ l'.highest = l'.b2 ∧
    (vfPvGnd l' i p.nRows (g'.rot.deg > 0) (fun k => (g'.row k).full) gnd len true true).1
      = -vfHottelGnd l'.b1 l'.b2 gnd.b1 gnd.b2 (g'.row (i - 1)).full.lowest len true := by
  intro g' l l'
  have hrot : rotationFromTiltAzimuth u.surfaceAzimuth p.axisAzimuth u.surfaceTilt = ⟨0, true⟩ := by
    rw [flat]; simp [rotationFromTiltAzimuth]
  have hrot' : (turnedTrig ε h).rotation u.surfaceAzimuth p.axisAzimuth u.surfaceTilt = ⟨0, true⟩ := by
    unfold TrigArith.rotation; simp [flat]
  have hdeg : g'.rot.deg = 0 := by
    change ((turnedTrig ε h).rotation u.surfaceAzimuth p.axisAzimuth u.surfaceTilt).deg = 0
    rw [hrot']
  have e : l.b2.y ≤ l.b1.y := by
    have el : l = (sideSegment (rowCenter p i) p.width 0 (p.nBack i)
        (rowShadedLengths p (arctan2 (solar2dVector u.solarZenith u.solarAzimuth p.axisAzimuth).y
          (solar2dVector u.solarZenith u.solarAzimuth p.axisAzimuth).x) 0 i).2 k).illum := by
      simp only [l, fitStep, hrot]
      change (((List.range (p.nBack i)).map (sideSegment _ _ _ _ _)).getD k default).illum = _
      simp [List.getD_eq_getElem?_getD, List.getElem?_range hk]
      rfl
    obtain ⟨f1, -, f3⟩ := sideSegment_horizontal (rowCenter p i) p.width (p.nBack i)
      (rowShadedLengths p (arctan2 (solar2dVector u.solarZenith u.solarAzimuth p.axisAzimuth).y
          (solar2dVector u.solarZenith u.solarAzimuth p.axisAzimuth).x) 0 i).2 k
    rw [el, f1]; exact f3
  have hs : Real.sin ((1 + ε) * Real.pi) < 0 := by
    rw [show (1 + ε) * Real.pi = ε * Real.pi + Real.pi by ring, Real.sin_add_pi]
    have := Real.sin_pos_of_pos_of_lt_pi (mul_pos h Real.pi_pos)
      (mul_lt_of_lt_one_left Real.pi_pos h1)
    linarith
  have e' : l'.b1.y < l'.b2.y := by
    set sun := (turnedTrig ε h).sun u.solarZenith u.solarAzimuth p.axisAzimuth with hsun
    have el : ∃ T : Trig, T.sn180 = Real.sin ((1 + ε) * Real.pi) ∧ ∃ sl, l' =
        ((turnedTrig ε h).sideSegment ((turnedTrig ε h).rowCenter p i) p.width 0 T (p.nBack i) sl
          k).illum := by
      refine ⟨(turnedTrig ε h).trig 0 ((turnedTrig ε h).atan2 sun.y sun.x), ?_,
        ((turnedTrig ε h).rowShadedLengths p
          ((turnedTrig ε h).trig 0 ((turnedTrig ε h).atan2 sun.y sun.x)) 0 i).2, ?_⟩
      · change Real.sin (if (0 : ℝ) + 180 = 180 then _ else _) = _
        rw [if_pos (by norm_num)]
      · simp only [l', g', TrigArith.fitStep, hrot']
        change (((List.range (p.nBack i)).map (Arith.sideSegment _ _ _ _ _ _ _)).getD k
          default).illum = _
        simp [List.getD_eq_getElem?_getD, List.getElem?_range hk]
        rfl
    obtain ⟨T, hT, sl, el⟩ := el
    rw [el, ((turnedTrig ε h).sideSegment_flat _ _ _ _ _ _).1]
    change (p.width / 2 - k * (p.width / p.nBack i)) * T.sn180 + _
      < (p.width / 2 - (k + 1) * (p.width / p.nBack i)) * T.sn180 + _
    have hq : 0 < p.width / p.nBack i := div_pos hw (by exact_mod_cast Nat.zero_lt_of_lt hk)
    rw [hT]
    nlinarith
  have hh : l.highest = l.b1 := by
    unfold Line.highest; simp only [ge_iff_le, if_pos e]
  have hh' : l'.highest = l'.b2 := by
    unfold Line.highest; simp only [ge_iff_le, if_neg (not_le.2 e')]
  have hl' : l'.lowest = l'.b1 := by
    unfold Line.lowest; simp only [ge_iff_le, if_neg (not_le.2 e')]
  refine ⟨hh, hh', ?_⟩
  rw [← C97_exchanged]
  unfold vfPvGnd
  simp [hh', hl', hdeg, hi.ne']

/-! ## Witness -/

/-- Horizontal rows, sun on the left, 45 degrees above the horizon. -/
noncomputable def flatStep : StepIn where
  solarZenith := 45
  solarAzimuth := 270
  surfaceTilt := 0
  surfaceAzimuth := 270

theorem flat_margin : FlatMargin vertArray flatStep (3 / 2) 270 where
  flat := rfl
  zenith := by norm_num [flatStep]
  azimuth := by norm_num [flatStep, vertArray]
  high := vert_margin.high

theorem flat_rot : rotationFromTiltAzimuth flatStep.surfaceAzimuth vertArray.axisAzimuth
    flatStep.surfaceTilt = ⟨0, true⟩ := flat_margin.rot

theorem flat_sun : solar2dVector flatStep.solarZenith flatStep.solarAzimuth vertArray.axisAzimuth
    = ⟨-(Real.sqrt 2 / 2), Real.sqrt 2 / 2⟩ := vert_sun

theorem flat_fit : fitStep vertArray flatStep
    = fitGeom vertArray ⟨0, true⟩ ⟨-(Real.sqrt 2 / 2), Real.sqrt 2 / 2⟩ := by
  unfold fitStep; rw [flat_rot, flat_sun]

theorem flat_interrow : interrowShading vertArray (3 * Real.pi / 4) 0 = (0, 0) := by
  have hd : shadingDelta vertArray.distance (3 * Real.pi / 4) 0 = 5 := by
    unfold shadingDelta
    have : deg2rad (90 - 0) = Real.pi / 2 := by unfold deg2rad; ring
    simp only [this, Real.sin_pi_div_two, Real.cos_pi_div_two]
    norm_num [ArrayParams.distance, vertArray]
  unfold interrowShading
  simp only [hd]
  norm_num [vertArray]

theorem flat_physicalStep : PhysicalStep vertArray flatStep where
  tilt_nonneg := by norm_num [flatStep]
  tilt_lt := by norm_num [flatStep]
  above := by
    have : sind flatStep.surfaceTilt = 0 := sind_zero
    rw [this]; norm_num [vertArray]
  sun_y := by rw [flat_sun]; positivity
  sun_front := by
    rw [flat_sun, flat_rot]
    simp only [frontDotSun, sind_zero, cosd_zero]
    have : 0 < Real.sqrt 2 := by positivity
    intro h; linarith
  shade_ok := by
    rw [flat_sun, flat_rot]
    have : 0 < Real.sqrt 2 := by positivity
    right; left
    simp only [frontDotSun, sind_zero, cosd_zero]
    norm_num [vertArray, abs_of_pos this]

theorem flat_full (i : ℕ) : ((fitStep vertArray flatStep).row i).full
    = ⟨⟨5 * i - 1, 3 / 2⟩, ⟨5 * i + 1, 3 / 2⟩⟩ := by
  rw [flat_fit]
  change fullRowCoords (rowCenter vertArray i) vertArray.width 0 = _
  simp only [fullRowCoords, zero_add, cosd_180, sind_180, cosd_zero, sind_zero, rowCenter, X_ORIGIN,
    Y_GROUND]
  norm_num [vertArray, ArrayParams.distance]
  constructor <;> ring

theorem flat_xs (i : ℕ) :
    (fitStep vertArray flatStep).ground.noOverlap i
      = (5 * (i : ℝ) + 1 / 2, 5 * (i : ℝ) + 5 / 2) := by
  have h3 : 3 * Real.pi / 4 = Real.pi - Real.pi / 4 := by ring
  have hx : shadowXs (fullRowCoords (rowCenter vertArray i) vertArray.width 0) (3 * Real.pi / 4)
      = (5 * (i : ℝ) + 1 / 2, 5 * (i : ℝ) + 5 / 2) := by
    have hs : Real.sqrt 2 / 2 ≠ 0 := by positivity
    have := flat_full i
    rw [flat_fit] at this
    change fullRowCoords (rowCenter vertArray i) vertArray.width 0 = _ at this
    unfold shadowXs
    rw [this, h3, Real.cos_pi_sub, Real.sin_pi_sub, Real.cos_pi_div_four,
      Real.sin_pi_div_four]
    have e : ∀ y : ℝ, y * -(Real.sqrt 2 / 2) / (Real.sqrt 2 / 2) = -y := by
      intro y; field_simp
    simp only [e, Y_GROUND]
    rw [if_pos (by linarith), if_pos (by linarith)]
    ext <;> ring
  have hf : ¬ hasDirectShading vertArray (3 * Real.pi / 4) 0 := by
    unfold hasDirectShading; rw [flat_interrow]
    have := TOL_pos
    simp only [gt_iff_lt]; push Not; constructor <;> linarith
  rw [flat_fit]
  simp only [GroundIn.noOverlap, fitGeom, groundFromRows, vert_alpha, hf, and_false, if_false]
  rw [Prod.mk.injEq]
  exact ⟨congrArg Prod.fst hx, congrArg Prod.snd hx⟩

theorem flat_cuts : (fitStep vertArray flatStep).ground.cuts = [.posInf, .posInf] := by
  rw [flat_fit]
  simp only [fitGeom, groundFromRows]
  change (List.range 2).map (fun i => cutPointX (fullRowCoords (rowCenter vertArray i)
    vertArray.width 0) ⟨0, true⟩) = _
  simp [List.range_succ, cutPointX]

/-- Surfaces of the rows of the example. -/
theorem flat_pv (i k : ℕ) (s : RowSide) (sh : Bool) (hi : i < 2)
    (hk : k < vertArray.nSeg i s) : ∃ x y : ℝ,
    (fitStep vertArray flatStep).coords (.pv i s k sh) = ⟨⟨x, 3 / 2⟩, ⟨y, 3 / 2⟩⟩ ∧
    (-1 ≤ x ∧ x ≤ 6 ∧ -1 ≤ y ∧ y ≤ 6) ∧ (y = x ∨ x + 1 / 2 ≤ y) := by
  have key : ∀ cut sl, 1 ≤ cut → cut ≤ 2 → k < cut → ∃ x y : ℝ,
      (if sh then (sideSegment (rowCenter vertArray i) vertArray.width 0 cut sl k).shaded
        else (sideSegment (rowCenter vertArray i) vertArray.width 0 cut sl k).illum)
        = ⟨⟨x, 3 / 2⟩, ⟨y, 3 / 2⟩⟩ ∧
      (-1 ≤ x ∧ x ≤ 6 ∧ -1 ≤ y ∧ y ≤ 6) ∧ (y = x ∨ x + 1 / 2 ≤ y) := by
    intro cut sl h1 h2 hkc
    obtain ⟨f1, f2, -⟩ := sideSegment_horizontal (rowCenter vertArray i) vertArray.width cut sl k
    have hc : (sideSegment (rowCenter vertArray i) vertArray.width 0 cut sl k).coords
        = ⟨⟨5 * i - 1 + k * (2 / cut), 3 / 2⟩, ⟨5 * i - 1 + (k + 1) * (2 / cut), 3 / 2⟩⟩ := by
      simp only [sideSegment, zero_add, cosd_180, sind_180, rowCenter, X_ORIGIN, Y_GROUND]
      norm_num [vertArray, ArrayParams.distance]
      constructor <;> ring
    rw [f1, f2, hc]
    refine ⟨5 * i - 1 + k * (2 / cut), if sh then 5 * i - 1 + k * (2 / cut)
      else 5 * i - 1 + (k + 1) * (2 / cut), by cases sh <;> simp, ?_⟩
    interval_cases i <;> interval_cases cut <;> interval_cases k <;> cases sh <;> norm_num
  cases s with
  | front =>
    have hk : k < vertArray.nFront i := hk
    have ex : (fitStep vertArray flatStep).coords (.pv i .front k sh)
        = if sh then (sideSegment (rowCenter vertArray i) vertArray.width 0 (vertArray.nFront i)
            (rowShadedLengths vertArray (arctan2 (Real.sqrt 2 / 2) (-(Real.sqrt 2 / 2))) 0 i).1 k).shaded
          else (sideSegment (rowCenter vertArray i) vertArray.width 0 (vertArray.nFront i)
            (rowShadedLengths vertArray (arctan2 (Real.sqrt 2 / 2) (-(Real.sqrt 2 / 2))) 0 i).1
              k).illum := by
      rw [flat_fit]
      change (if sh then (((List.range (vertArray.nFront i)).map (sideSegment _ _ _ _ _)).getD k
          default).shaded
        else (((List.range (vertArray.nFront i)).map (sideSegment _ _ _ _ _)).getD k default).illum) = _
      simp [List.getD_eq_getElem?_getD, List.getElem?_range hk]
      rfl
    rw [ex]
    refine key _ _ ?_ ?_ hk <;> interval_cases i <;> norm_num [vertArray, ArrayParams.nFront]
  | back =>
    have hk : k < vertArray.nBack i := hk
    have ex : (fitStep vertArray flatStep).coords (.pv i .back k sh)
        = if sh then (sideSegment (rowCenter vertArray i) vertArray.width 0 (vertArray.nBack i)
            (rowShadedLengths vertArray (arctan2 (Real.sqrt 2 / 2) (-(Real.sqrt 2 / 2))) 0 i).2 k).shaded
          else (sideSegment (rowCenter vertArray i) vertArray.width 0 (vertArray.nBack i)
            (rowShadedLengths vertArray (arctan2 (Real.sqrt 2 / 2) (-(Real.sqrt 2 / 2))) 0 i).2
              k).illum := by
      rw [flat_fit]
      change (if sh then (((List.range (vertArray.nBack i)).map (sideSegment _ _ _ _ _)).getD k
          default).shaded
        else (((List.range (vertArray.nBack i)).map (sideSegment _ _ _ _ _)).getD k default).illum) = _
      simp [List.getD_eq_getElem?_getD, List.getElem?_range hk]
      rfl
    rw [ex]
    refine key _ _ ?_ ?_ hk <;> interval_cases i <;> norm_num [vertArray, ArrayParams.nBack]

set_option maxHeartbeats 1600000 in
theorem flat_box : ∀ a ∈ surfaces vertArray,
    ∀ x, x = ((fitStep vertArray flatStep).coords a).b1 ∨
      x = ((fitStep vertArray flatStep).coords a).b2 →
    -100 ≤ x.x ∧ x.x ≤ 100 ∧ 0 ≤ x.y ∧ x.y ≤ 5 / 2 := by
  have hn : (fitStep vertArray flatStep).ground.nRows = 2 := rfl
  have x0 := flat_xs 0
  have x1 := flat_xs 1
  intro a hm x hx
  rw [mem_surfaces] at hm
  match a with
  | .gnd false e z =>
    have hm := mem_allRefs_gnd.1 hm
    simp only [Bool.false_eq_true, if_false, vertArray] at hm
    obtain ⟨he, hz⟩ := hm
    rcases hx with rfl | rfl <;> interval_cases e <;> interval_cases z <;>
    simp [StepGeom.coords, GroundIn.illumEl, GroundIn.shadowEl, x0, x1, hn, flat_cuts,
      cutSurfaces, coordsLeftOfCut, leftOfCutX, coordsRightOfCut, rightOfCutX,
      clip, MIN_X, MAX_X, Y_GROUND] <;> norm_num
  | .gnd true e z =>
    have hm := mem_allRefs_gnd.1 hm
    simp only [if_true, vertArray] at hm
    obtain ⟨he, hz⟩ := hm
    rcases hx with rfl | rfl <;> interval_cases e <;> interval_cases z <;>
    simp [StepGeom.coords, GroundIn.illumEl, GroundIn.shadowEl, x0, x1, hn, flat_cuts,
      cutSurfaces, coordsLeftOfCut, leftOfCutX, coordsRightOfCut, rightOfCutX,
      clip, MIN_X, MAX_X, Y_GROUND] <;> norm_num
  | .pv i s k sh =>
    obtain ⟨hi, hk⟩ := mem_allRefs_pv.1 hm
    obtain ⟨y, z, e, b, -⟩ := flat_pv i k s sh hi hk
    rw [e] at hx
    rcases hx with rfl | rfl <;> refine ⟨?_, ?_, ?_, ?_⟩ <;> dsimp only <;>
      linarith [b.1, b.2.1, b.2.2.1, b.2.2.2]

set_option maxHeartbeats 1600000 in
theorem flat_half : ∀ a ∈ surfaces vertArray,
    ((fitStep vertArray flatStep).coords a).length = 0 ∨
      1 / 2 ≤ ((fitStep vertArray flatStep).coords a).length := by
  have horiz : ∀ (x y h : ℝ), Line.length ⟨⟨x, h⟩, ⟨y, h⟩⟩ = |y - x| := by
    intro x y h
    simp [Line.length, Real.sqrt_sq_eq_abs]
  have hn : (fitStep vertArray flatStep).ground.nRows = 2 := rfl
  have x0 := flat_xs 0
  have x1 := flat_xs 1
  intro a hm
  rw [mem_surfaces] at hm
  match a with
  | .gnd false e z =>
    have hm := mem_allRefs_gnd.1 hm
    simp only [Bool.false_eq_true, if_false, vertArray] at hm
    obtain ⟨he, hz⟩ := hm
    interval_cases e <;> interval_cases z <;>
    simp [StepGeom.coords, GroundIn.illumEl, GroundIn.shadowEl, x0, x1, hn, flat_cuts,
      cutSurfaces, coordsLeftOfCut, leftOfCutX, coordsRightOfCut, rightOfCutX,
      clip, MIN_X, MAX_X, TOL, Y_GROUND, horiz] <;> norm_num
  | .gnd true e z =>
    have hm := mem_allRefs_gnd.1 hm
    simp only [if_true, vertArray] at hm
    obtain ⟨he, hz⟩ := hm
    interval_cases e <;> interval_cases z <;>
    simp [StepGeom.coords, GroundIn.illumEl, GroundIn.shadowEl, x0, x1, hn, flat_cuts,
      cutSurfaces, coordsLeftOfCut, leftOfCutX, coordsRightOfCut, rightOfCutX,
      clip, MIN_X, MAX_X, TOL, Y_GROUND, horiz] <;> norm_num
  | .pv i s k sh =>
    obtain ⟨hi, hk⟩ := mem_allRefs_pv.1 hm
    obtain ⟨y, z, e, -, b⟩ := flat_pv i k s sh hi hk
    rw [e, horiz]
    rcases b with b | b
    · left; rw [b, sub_self, abs_zero]
    · right; exact (by linarith : 1 / 2 ≤ z - y).trans (le_abs_self _)

theorem flat_sceneSize (emp : SurfRef → Prop) :
    SceneSize vertArray (fitStep vertArray flatStep) emp 203 (1 / 2) := by
  have key : ∀ x y : Pt, (-100 ≤ x.x ∧ x.x ≤ 100 ∧ 0 ≤ x.y ∧ x.y ≤ 5 / 2) →
      (-100 ≤ y.x ∧ y.x ≤ 100 ∧ 0 ≤ y.y ∧ y.y ≤ 5 / 2) → distPt x y ≤ 203 := by
    intro x y hx hy
    unfold distPt
    rw [Real.sqrt_le_left (by norm_num)]
    have e1 : (y.y - x.y) ^ 2 ≤ 3 ^ 2 := sq_le_sq' (by linarith [hx.2.2.2, hy.2.2.1])
      (by linarith [hy.2.2.2, hx.2.2.1])
    have e2 : (y.x - x.x) ^ 2 ≤ 200 ^ 2 := sq_le_sq' (by linarith [hx.2.1, hy.1])
      (by linarith [hy.2.1, hx.1])
    norm_num at e1 e2 ⊢
    linarith
  refine ⟨by norm_num [TOL], by norm_num, fun a ha => (flat_half a ha).imp_left fun h => ?_,
    ?_, ?_⟩
  · rw [h, mul_zero]; exact TOL_pos.le
  · intro a ha b hb _ _ x hx y hy
    exact key x y (flat_box a ha x hx) (flat_box b hb y hy)
  · intro a ha _ x hx r hr
    refine key x _ (flat_box a ha x hx) ?_
    have hr : r < 2 := hr
    rw [flat_full]
    interval_cases r <;> norm_num [Line.lowest]

/-- Operations that give numbers that are too large by a factor of `1 + ε`, but angles in radians that are
too small by a factor of `1 - ε`. -/
noncomputable def smallPi (ε : ℝ) (h : 0 < ε) : TrigArith ε :=
  { tooLargeTrig ε h with
    deg2rad := fun x => (1 - ε) * deg2rad x
    deg2rad_err := fun x => by
      rw [show (1 - ε) * deg2rad x - deg2rad x = -(ε * deg2rad x) by ring, abs_neg, abs_mul,
        abs_of_pos h] }

theorem smallPi_ordered {ε : ℝ} (h : 0 < ε) : (smallPi ε h).toArith.Ordered where
  add := fun x y z hx => by
    change (1 + ε) * (x + z) ≤ (1 + ε) * (y + z)
    exact mul_le_mul_of_nonneg_left (by linarith) (by linarith)
  sub := fun x y z hx => by
    change (1 + ε) * (z - y) ≤ (1 + ε) * (z - x)
    exact mul_le_mul_of_nonneg_left (by linarith) (by linarith)
  mul_left := fun x y z hz hx => by
    change (1 + ε) * (x * z) ≤ (1 + ε) * (y * z)
    exact mul_le_mul_of_nonneg_left (mul_le_mul_of_nonneg_right hx hz) (by linarith)
  mul_right := fun x y z hz hx => by
    change (1 + ε) * (z * x) ≤ (1 + ε) * (z * y)
    exact mul_le_mul_of_nonneg_left (mul_le_mul_of_nonneg_left hx hz) (by linarith)

theorem smallPi_sine : 0 < (smallPi (1 / 2 ^ 53) (by norm_num)).sind
    ((smallPi (1 / 2 ^ 53) (by norm_num)).add 0 180) := by
  change 0 < (1 + 1 / 2 ^ 53) * Real.sin ((1 - 1 / 2 ^ 53) * deg2rad ((1 + 1 / 2 ^ 53) * (0 + 180)))
  refine mul_pos (by norm_num) (Real.sin_pos_of_pos_of_lt_pi ?_ ?_)
  · unfold deg2rad; have := Real.pi_pos; positivity
  · unfold deg2rad
    have := Real.pi_pos
    norm_num
    linarith

/-- The example: rows that are vertical at the first time step and horizontal at the second one. -/
noncomputable def vertFlat (t : Fin 2) : StepIn := if t = 0 then vertStep else flatStep

/-- Witness for C102: two rows that are first vertical and then horizontal.  At the second time step the ends
of the rows have different heights in the stored coordinates, but all stored coordinates are right up to
1e-10 and all view factors of both time steps up to 0.002. -/
theorem C102_demo (t : Fin 2) :
    let A := smallPi (1 / 2 ^ 53) (by norm_num)
    let g' := fun t => A.fitStep vertArray (vertFlat t)
    ((g' 1).row 0).full.b2.y < ((g' 1).row 0).full.b1.y ∧
    CoordsNear vertArray (fitStep vertArray (vertFlat t)) (g' t) (1 / 10 ^ 10) ∧
    ∀ a ∈ surfaces vertArray, ∀ b ∈ surfaces vertArray,
      |vfBetween vertArray (A.vfMatrix (inOrder 24) vertArray (g' t) (isEmptyTs g')) a b
        - vfBetween vertArray (tsVfMatrix vertArray vertFlat t) a b| ≤ 1 / 500 := by
  intro A g'
  have hst : ∀ t, PhysicalStep vertArray (vertFlat t) := fun t => by
    unfold vertFlat; split_ifs
    · exact vert_physicalStep
    · exact flat_physicalStep
  have hmar : ∀ t, StepMargin vertArray (vertFlat t) (1 / 2 ^ 53) (3 / 2) 270 ∨
      FlatMargin vertArray (vertFlat t) (3 / 2) 270 := fun t => by
    unfold vertFlat; split_ifs
    · exact Or.inl vert_margin
    · exact Or.inr flat_margin
  have hlong : ∀ t, ∀ a ∈ surfaces vertArray, ((fitStep vertArray (vertFlat t)).coords a).length = 0 ∨
      1 / 2 ≤ ((fitStep vertArray (vertFlat t)).coords a).length := fun t => by
    unfold vertFlat; split_ifs
    · exact vert_half
    · exact flat_half
  have hsize : SceneSize vertArray (fitStep vertArray (vertFlat t))
      (isEmptyTs fun t => fitStep vertArray (vertFlat t)) 203 (1 / 2) := by
    unfold vertFlat; split_ifs
    · exact vert_sceneSize _
    · exact flat_sceneSize _
  have hf : ∀ t x, x = (interrowShading vertArray (fitStep vertArray (vertFlat t)).alpha
      (fitStep vertArray (vertFlat t)).rot.deg).1 ∨
      x = (interrowShading vertArray (fitStep vertArray (vertFlat t)).alpha
        (fitStep vertArray (vertFlat t)).rot.deg).2 → x = 0 ∨ 2 * TOL ≤ x := fun t => by
    unfold vertFlat; split_ifs
    · have e : interrowShading vertArray (fitStep vertArray vertStep).alpha
          (fitStep vertArray vertStep).rot.deg = (0, 0) := by
        rw [vert_fit]
        change interrowShading vertArray (arctan2 _ _) 90 = _
        rw [vert_alpha, vert_interrow]
      rw [e]
      rintro x (rfl | rfl) <;> exact Or.inl rfl
    · have e : interrowShading vertArray (fitStep vertArray flatStep).alpha
          (fitStep vertArray flatStep).rot.deg = (0, 0) := by
        rw [flat_fit]
        change interrowShading vertArray (arctan2 _ _) 0 = _
        rw [vert_alpha, flat_interrow]
      rw [e]
      rintro x (rfl | rfl) <;> exact Or.inl rfl
  have hc : (1 / 2 : ℝ) ≤ vertArray.height - vertArray.width / 2 * sind (vertFlat t).surfaceTilt := by
    have : sind (vertFlat t).surfaceTilt ≤ 1 := Real.sin_le_one _
    norm_num [vertArray]
    linarith
  have b1 : 20 * sineErr (1 / 2 ^ 53) 270 * (3 / 2) ^ 3 ≤ 1 := by norm_num [sineErr]
  have b2 : shadeErr (1 / 2 ^ 53) (trigErr (1 / 2 ^ 53) (3 / 2) 270) 5 (3 / 2) < 1 / 10 ^ 9 := by
    norm_num [shadeErr, grow, trigErr, sineErr]
  have b3 : sceneErr (1 / 2 ^ 53) (trigErr (1 / 2 ^ 53) (3 / 2) 270) 5 (3 / 2) (1 / (3 / 2))
      ≤ 1 / 10 ^ 10 := by
    norm_num [sceneErr, shadeErr, endErr, groundErr, grow, trigErr, sineErr]
  have hd : shadeErr (1 / 2 ^ 53) (trigErr (1 / 2 ^ 53) (3 / 2) 270) 5 (3 / 2) * (3 / 2)
      < vertArray.distance := by
    have : vertArray.distance = 5 := by norm_num [vertArray, ArrayParams.distance]
    rw [this]
    norm_num at b2 ⊢
    linarith
  have hT : shadeErr (1 / 2 ^ 53) (trigErr (1 / 2 ^ 53) (3 / 2) 270) 5 (3 / 2) < TOL :=
    b2.trans (by norm_num [TOL])
  refine ⟨?_, ?_, fun a ha b hb => ?_⟩
  · have hr : A.rotation flatStep.surfaceAzimuth vertArray.axisAzimuth flatStep.surfaceTilt
        = ⟨0, true⟩ := by
      unfold TrigArith.rotation; simp [flatStep]
    have hv : vertFlat 1 = flatStep := by simp [vertFlat]
    change (((A.fitStep vertArray (vertFlat 1)).row 0).full.b2.y
      < ((A.fitStep vertArray (vertFlat 1)).row 0).full.b1.y)
    rw [hv]
    have e1 : ((A.fitStep vertArray flatStep).row 0).full.b1.y = A.add (A.mul (A.div 2 2) (A.sind
      (A.add (A.rotation flatStep.surfaceAzimuth vertArray.axisAzimuth flatStep.surfaceTilt).deg 180)))
        (A.add (3 / 2) Y_GROUND) := rfl
    have e2 : ((A.fitStep vertArray flatStep).row 0).full.b2.y = A.add (A.mul (A.div 2 2) (A.sind
      (A.rotation flatStep.surfaceAzimuth vertArray.axisAzimuth flatStep.surfaceTilt).deg))
        (A.add (3 / 2) Y_GROUND) := rfl
    rw [e1, e2, hr, A.sind_zero]
    have hs : 0 < A.sind (A.add 0 180) := smallPi_sine
    change (1 + 1 / 2 ^ 53) * ((1 + 1 / 2 ^ 53) * ((1 + 1 / 2 ^ 53) * (2 / 2) * 0) + _)
      < (1 + 1 / 2 ^ 53) * ((1 + 1 / 2 ^ 53) * ((1 + 1 / 2 ^ 53) * (2 / 2) * A.sind (A.add 0 180)) + _)
    refine mul_lt_mul_of_pos_left ?_ (by norm_num)
    have := mul_pos (by norm_num : (0 : ℝ) < (1 + 1 / 2 ^ 53) * ((1 + 1 / 2 ^ 53) * (2 / 2))) hs
    linarith
  · refine (C102_any_step (w := 1 / 2) (by norm_num) A (smallPi_ordered _) smallPi_sine.le vertArray
      (vertFlat t) vert_physicalArray (hst t) vert_size (by norm_num) (hmar t) b1 hd hT (hf t)
      (by norm_num [vertArray]) (hlong t) ?_).mono b3
    norm_num at b3 ⊢
    linarith
  · refine ((C102_view_factors (ε := 1 / 2 ^ 53) (w := 1 / 2) (by norm_num) A (smallPi_ordered _)
      smallPi_sine.le (inOrder 24) vertArray vertFlat t vert_physicalArray hst vert_size (by norm_num)
      hmar b1 hd hT hf (by norm_num [vertArray]) hlong
      (by rw [inOrder_leaves, vert_count]) hsize hc _ rfl
      (by norm_num at b3 ⊢; linarith) (by norm_num [TOL] at b3 ⊢; linarith)
      (by norm_num [TOL] at b3 ⊢; linarith) (by norm_num at b3 ⊢; linarith)
      (by norm_num [TOL] at b3 ⊢; linarith) a ha).1 b hb).trans ?_
    norm_num [entryBound, rowBound, grow, entryMove, sceneErr, shadeErr, endErr, groundErr, trigErr,
      sineErr]

end PVF
